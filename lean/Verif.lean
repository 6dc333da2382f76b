import Verif.Props.JmpTable
import Verif.Props.Patch
import Verif.Props.X86Reloc
import Verif.Props.X86Insn
import Verif.Props.A64Insn
import Verif.Props.A64Reloc
import Verif.Props.Load
import Verif.Props.LoadEx
import Verif.Props.Str
import Verif.Props.Align
import Verif.Props.CList
import Verif.Props.Sort
import Verif.Props.Callback
import Verif.Props.RbTree
import Verif.Props.Vma
import Verif.Props.Maps
import Verif.Props.FreeMaps
import Verif.Props.MapsFile
import Verif.Props.Sym
import Verif.Props.Ptrace
import Verif.Props.VmaType
import Verif.Props.Log
import Verif.Props.PeekElf
import Verif.Props.PeekMatch
import Verif.Props.LoadBytes
import Verif.Props.LoadBytesEx
import Verif.Props.LoadPatch
import Verif.Props.Mcount
import Verif.Props.Proc
import Verif.Props.WorkDir
import Verif.Props.OpenTask
import Verif.Props.LoadA64
import Verif.Props.LoadA64Ex
import Verif.Props.Ultask
import Verif.Props.UltaskEx
import Verif.Props.UltaskMem
import Verif.Props.Cli
import Verif.Props.BfdSym
import Verif.Props.BfdTask
import Verif.Props.PatchShow
import Verif.Props.LiveUlp
import Verif.Props.ElfFile
import Verif.Props.Files
import Verif.Props.TaskList
import Verif.Props.Dump
import Verif.Props.TaskMem
import Verif.Props.TaskInsn
import Verif.Props.Listing
import Verif.Props.MapTable
import Verif.Props.InfoCli
import Verif.Model.CheckFile
import Verif.Proof.CheckFile
import Verif.Props.CheckFile
import Verif.Model.Init
import Verif.Props.Init
import Verif.Model.RemoteFile
import Verif.Props.RemoteFile
import Verif.Props.PatchCodes
import Verif.Model.ProcLinks
import Verif.Props.ProcLinks
import Verif.Spec.X86Nop
import Verif.Model.Nops
import Verif.Props.Nops
import Verif.Model.Disasm
import Verif.Spec.Disasm
import Verif.Props.Disasm
import Verif.Model.ElfShow
import Verif.Spec.ElfShow
import Verif.Props.ElfShow
import Verif.Spec.Processor
import Verif.Model.Threads
import Verif.Spec.Threads
import Verif.Props.Threads
import Verif.Props.ThreadsFindings
import Verif.Model.ThreadsCall
import Verif.Spec.ThreadsCall
import Verif.Props.ThreadsCall
import Verif.Model.Concurrent
import Verif.Props.Concurrent
import Verif.Model.SessionFiles
import Verif.Props.SessionFiles
import Verif.Model.FileHist
import Verif.Props.FileHist
import Verif.Props.Trace
import Verif.Props.TraceEx
import Verif.Props.System
import Verif.Model.LoadLog
import Verif.Props.LoadLog
import Verif.Props.LoadLogEx
import Verif.Spec.Walk
import Verif.Props.Walk
import Verif.Props.Again
import Verif.Props.PtraceDead
import Verif.Model.Md5
import Verif.Props.Md5
import Verif.Props.Frame
import Verif.Props.TaskRun
import Verif.Props.TaskDo
import Verif.Props.TaskMap
import Verif.Props.Getopt
import Verif.Props.TaskKill
import Verif.Props.JumpHist
import Verif.Props.ThreadsJump
import Verif.Props.Mixed
import Verif.Props.LateFail
import Verif.Props.ThreadsHist
import Verif.Props.ThreadsHistSame
import Verif.Props.ThreadsWhole
import Verif.Props.Shell
import Verif.Props.TaskShell
import Verif.Props.InfoShell
import Verif.Props.Session
import Verif.Props.Absent
import Verif.Props.Order
import Verif.Props.Alone
import Verif.Props.Looking
import Verif.Props.Apart
