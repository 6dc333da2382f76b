/-
How a command line of the tools is written and what it asks for, without reference to
the way it is read.
-/
import Verif.Model.Cli
import Verif.Props.Str
namespace Ulp.Cli
open Ulp.Load (lit)
open Ulp.Str (Suffix)
open Ulp.Text

/-- The text of a sub-option: `name` or `name=value`. -/
def pieceText : Sub → List Byte
  | (n, none) => n
  | (n, some v) => n ++ 61 :: v

/-- The text of an argument: the sub-options with commas between them. -/
def argText (ps : List Sub) : List Byte := joinComma (ps.map pieceText)

/-- A sub-option that can be written: the name is not empty and has neither `,` nor `=`
in it, the value has no `,` in it. -/
def Plain (p : Sub) : Prop := p.1 ≠ [] ∧ 44 ∉ p.1 ∧ 61 ∉ p.1 ∧ ∀ v, p.2 = some v → 44 ∉ v

/-- The text of an address ("ADDR: 0x123, 123"), also octal. -/
inductive AddrText : List Byte → BitVec 64 → Prop
  | dec {s v} : Numeral 10 s v → s.head? ≠ some 48 → v < 2 ^ 64 → AddrText s (BitVec.ofNat 64 v)
  | hex {s v} : Numeral 16 s v → v < 2 ^ 64 → AddrText (lit "0x" ++ s) (BitVec.ofNat 64 v)
  | oct {s v} : Numeral 8 s v → v < 2 ^ 64 → AddrText (lit "0" ++ s) (BitVec.ofNat 64 v)

/-- The text of a size ("SIZE: 123, 0x123, 123GB, 123KB, 123MB, 0x123MB"). -/
inductive SizeText : List Byte → BitVec 64 → Prop
  | dec {s sf v k} : Numeral 10 s v → Suffix sf k → v * k < 2 ^ 64 → SizeText (s ++ sf) (BitVec.ofNat 64 (v * k))
  | hex {s sf v k} : Numeral 16 s v → Suffix sf k → v * k < 2 ^ 64 →
      SizeText (lit "0x" ++ s ++ sf) (BitVec.ofNat 64 (v * k))

/-- The things done to a process that can change it. -/
inductive Kind where
  | mprotect | map | unmap | jmp
  deriving DecidableEq

/-- What kind of change an action is, if it is one. -/
def Act.change : Act → Option Kind
  | .mprotect _ _ _ => some .mprotect
  | .map _ _ _ _ => some .map
  | .unmap _ => some .unmap
  | .jmp _ _ => some .jmp
  | _ => none

/-- What kind of change an option asks for, if it does. -/
def Opt.change : Opt → Option Kind
  | .mprotect _ => some .mprotect
  | .map _ => some .map
  | .unmap _ => some .unmap
  | .jmp _ => some .jmp
  | _ => none

/-- The file an action writes. -/
def Act.file : Act → Option (List Byte)
  | .dumpVma f _ => some f
  | .dumpVdso f => some f
  | .dumpMem f _ _ => some f
  | _ => none

/-- The bits of `mprotect(2)` for a set of rights. -/
def rights (r w x : Bool) : BitVec 64 := (if r then 1 else 0) ||| (if w then 2 else 0) ||| (if x then 4 else 0)

/-- An action that takes a piece of memory out of the process. -/
def Act.dumps : Act → Bool
  | .dumpVma _ _ => true
  | .dumpVdso _ => true
  | .dumpMem _ _ _ => true
  | .disasm _ _ => true
  | _ => false

/-- The sub-options of `--dump`, in any order, and what they ask for, given the output
file. -/
inductive DumpArg : List Sub → (List Byte → Act) → Prop
  | mem {ps X Y x y} : AddrText X x → SizeText Y y →
      (∀ p ∈ ps, p = (lit "addr", some X) ∨ p = (lit "size", some Y)) →
      (lit "addr", some X) ∈ ps → (lit "size", some Y) ∈ ps → DumpArg ps fun f => .dumpMem f x y
  | disasm {ps X Y x y} : AddrText X x → SizeText Y y →
      (∀ p ∈ ps, p = (lit "disasm", none) ∨ p = (lit "addr", some X) ∨ p = (lit "size", some Y)) →
      (lit "disasm", none) ∈ ps → (lit "addr", some X) ∈ ps → (lit "size", some Y) ∈ ps →
      DumpArg ps fun _ => .disasm x y
  | vma {ps X x} : AddrText X x → (∀ p ∈ ps, p = (lit "vma", none) ∨ p = (lit "addr", some X)) →
      (lit "vma", none) ∈ ps → (lit "addr", some X) ∈ ps → DumpArg ps fun f => .dumpVma f x
  | vdso {ps} : (∀ p ∈ ps, p = (lit "vdso", none)) → ps ≠ [] → DumpArg ps fun f => .dumpVdso f

/-- `--dump` -/
def Opt.isDump : Opt → Bool
  | .dump _ => true
  | _ => false

/-- `-o` -/
def Opt.isOutput : Opt → Bool
  | .output _ => true
  | _ => false

/-- `-p` -/
def Opt.isPid : Opt → Bool
  | .pid _ => true
  | _ => false

/-- `--patch` and `--unpatch` -/
def Opt.isCmd : Opt → Bool
  | .patch _ => true
  | .unpatch => true
  | _ => false

/-- The last command on a command line. -/
def lastCmd (opts : List Opt) : Option Opt := (opts.filter Opt.isCmd).getLast?

/-- The last `-p` on a command line. -/
def lastPid (opts : List Opt) : Option Opt := (opts.filter Opt.isPid).getLast?

/-- The options that ulpatch has. -/
def Opt.ofPatch : Opt → Bool
  | .pid _ => true
  | .patch _ => true
  | .unpatch => true
  | .dryRun => true
  | .force => true
  | .other => true
  | _ => false

end Ulp.Cli
