/-
Specification: what a command line of `ultask` may change in a process.
-/
import Verif.Model.TaskRun
import Verif.Spec.Requests
import Verif.Spec.Cli
import Verif.Spec.Range
namespace Ulp.TaskRun
open Ulp.Linux
open Ulp.Ultask (Kern Req Fs fsize int)
open Ulp.Cli (Act)
open Ulp.Range

/-- A kernel that gives only the answers of Linux, and for which no request changes a byte of a
page that is mapped before and after it. -/
def LawfulP (pg : Nat) (k : Kern (Proc State)) : Prop :=
  ∀ p q, Answers pg p.w q (k.ask p q).1.w (k.ask p q).2 ∧
    ∀ a : Addr, p.w.space (a.toNat / pg) ≠ none → (k.ask p q).1.w.space (a.toNat / pg) ≠ none →
      (k.ask p q).1.mem a = p.mem a

/-- A mapping: where it is and the name it has. -/
structure Area where
  lo : BitVec 64
  hi : BitVec 64
  name : List Byte

/-- How many bytes `--unmap` takes from the beginning of a mapping: the length of the file of
that name, or of the mapping if there is none. -/
def taken (fs : Fs) (m : Area) : Nat :=
  if fs.exist m.name then ((fsize fs m.name).signExtend 64).toNat else (m.hi - m.lo).toNat

/-- The page is in what `--unmap` takes, when these are the mappings. -/
def Unmaps (pg : Nat) (fs : Fs) (maps : List Area) (as : List Act) (n : Nat) : Prop :=
  ∃ addr m, .unmap addr ∈ as ∧ m ∈ maps ∧ m.lo ≤ addr ∧ addr < m.hi ∧ Touches pg m.lo.toNat (taken fs m) n

/-- The byte is one of the 16 at the address that `--jmp` names. -/
def Jumps (as : List Act) (a : Addr) : Prop := ∃ src dst, .jmp src dst ∈ as ∧ (a - src).toNat < 16

/-- The protection `--map` asks for: read, and write unless `ro`, and execute unless `noexec`. -/
def mapRights (ro noexec : Bool) : BitVec 32 := 1 + (if ro then 0 else 2) + (if noexec then 0 else 4)

/-- `--mprotect` names the page and asks for this protection. -/
def Rights (pg : Nat) (as : List Act) (n : Nat) (prot : BitVec 32) : Prop :=
  ∃ addr len v, .mprotect addr len v ∈ as ∧ Touches pg addr.toNat len.toNat n ∧ prot = v.setWidth 32

/-- A page that was mapped still is, shows the same, and has the protection it had or, if
`--mprotect` names it, the one asked for. -/
def Same (pg : Nat) (as : List Act) (n : Nat) (q : Page) (now : Option Page) : Prop :=
  now = some q ∨ ∃ prot, Rights pg as n prot ∧ now = some { q with prot := prot }

/-- A page that was not mapped is not, or `--map` is among the options and it has the protection
asked for. -/
def New (pg : Nat) (as : List Act) (n : Nat) (now : Option Page) : Prop :=
  now = none ∨ ∃ q path addr ro noexec, now = some q ∧ .map path addr ro noexec ∈ as ∧
    (q.prot = mapRights ro noexec ∨ Rights pg as n q.prot)

/-- The request is one that the options ask for when these are the mappings: `PTRACE_ATTACH` and
`PTRACE_DETACH` are needed for all but `--jmp`; `O_RDWR` and `MAP_PRIVATE` are 2. -/
def Asked (fs : Fs) (maps : List Area) (as : List Act) : Req → Prop
  | .attach => ∃ a ∈ as, a.change ≠ none ∧ a.change ≠ some .jmp
  | .detach => ∃ a ∈ as, a.change ≠ none ∧ a.change ≠ some .jmp
  | .mprotect addr len prot => ∃ v, .mprotect addr len v ∈ as ∧ prot = v.setWidth 32
  | .open path flags => flags = 2 ∧ ∃ addr ro noexec, .map path addr ro noexec ∈ as
  | .ftruncate _ len => ∃ path addr ro noexec, .map path addr ro noexec ∈ as ∧ len = (fsize fs path).signExtend 64
  | .mmap hint len prot flags _ off => flags = 2 ∧ off = 0 ∧ ∃ path ro noexec, .map path hint ro noexec ∈ as ∧
      len = (fsize fs path).signExtend 64 ∧ prot = mapRights ro noexec
  | .munmap lo len => ∃ addr m, .unmap addr ∈ as ∧ m ∈ maps ∧ m.lo ≤ addr ∧ addr < m.hi ∧ lo = m.lo ∧
      len.toNat = taken fs m
  | .close _ => ∃ path addr ro noexec, .map path addr ro noexec ∈ as

/-- What a command line asks for: nothing if it is refused. -/
def asks (e : Cli.Env) (opts : List Cli.Opt) : List Act :=
  match Cli.taskParse e opts with
  | .ok g => Cli.acts g
  | .error _ => []

/-- What fails says so with a negative number. -/
def Errs (k : Kern (Proc State)) : Prop := ∀ p q, q = .attach ∨ (∃ a l v, q = .mprotect a l v) ∨ (∃ f l, q = .ftruncate f l) →
  int (k.ask p q).2 ≤ 0

/-- The mapping of a line of `/proc/PID/maps`. -/
def areaOfLine (l : Vma.Line) : Area := ⟨l.start, l.stop, l.name⟩

/-- The lines of `/proc/PID/maps` at the beginning, and those read again. -/
def linesOf (c : Circ) (ls : List (Nat × Vma.Line)) : List (Nat × Vma.Line) :=
  ls ++ match c.lines with | none => [] | some l => l

/-- The mappings that a run may know of. -/
def mapsOf (c : Circ) (ls : List (Nat × Vma.Line)) : List Area := (linesOf c ls).map fun x => areaOfLine x.2

/-- A run: what it meets, the lines that `open_task` reads, the output file and the command
line. -/
structure Job where
  e : Cli.Env
  c : Circ
  ls : List (Nat × Vma.Line)
  info : Nat → Vma.Vma
  out : Option (List Byte)
  opts : List Cli.Opt

/-- `malloc` returns new pointers, and no mapping is empty. -/
def Job.Fine (j : Job) : Prop :=
  (0 :: (linesOf j.c j.ls).map (·.1)).Nodup ∧ ∀ x ∈ linesOf j.c j.ls, x.2.start < x.2.stop

/-- The run on a process. -/
def Job.run (k : Kern (Proc State)) (arch : Arch) (p : Proc State) (j : Job) : Option (Done State) :=
  (Vma.readTaskVmas (Vma.initVmas j.info) false j.ls).bind fun vs => ultask k arch j.e j.c vs j.out p j.opts

/-- Runs one after the other. -/
def runs (k : Kern (Proc State)) (arch : Arch) : Proc State → List Job → Option (Proc State)
  | p, [] => some p
  | p, j :: js => (j.run k arch p).bind fun d => runs k arch d.proc js

end Ulp.TaskRun
