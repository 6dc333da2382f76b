/-
Specification: which commands are those of which process.
-/
import Verif.Model.System
import Verif.Spec.Cli
import Verif.Spec.FileHist
namespace Ulp.Sys
open LoadBytes (FileCmd)
open Cli (Opt lastPid lastCmd atoi)

/-- The process that the last `-p` names. -/
def pidOf (opts : List Opt) : Option (BitVec 32) :=
  match lastPid opts with
  | some (.pid a) => some (atoi a)
  | _ => none

/-- The argument of the last `-f`. -/
def funcOf (opts : List Opt) : Option (List Byte) :=
  (opts.filterMap fun o => match o with | .function a => some a | _ => none).getLast?

/-- The argument of the last `-j`. -/
def objOf (opts : List Opt) : Option (List Byte) :=
  (opts.filterMap fun o => match o with | .patchObj a => some a | _ => none).getLast?

/-- The options that ulftrace has. -/
def ofTrace : Opt → Bool
  | .pid _ => true
  | .function _ => true
  | .patchObj _ => true
  | .dryRun => true
  | .force => true
  | .other => true
  | _ => false

/-- The event has to do with the process `p`. -/
def Ev.on (p : BitVec 32) : Ev → Bool
  | .ulpatch opts _ => pidOf opts = some p
  | .ulftrace opts _ => pidOf opts = some p
  | .begins q _ => q = p
  | .ends q => q = p

/-- A run of a tool, and none that is given `temp.ulp` as a file. -/
def Ev.plain : Ev → Bool
  | .ulpatch opts _ => lastCmd opts ≠ some (.patch PFile.tempUlp)
  | .ulftrace opts _ => objOf opts ≠ some PFile.tempUlp
  | _ => true

/-- A run of a tool. -/
def Ev.tool : Ev → Bool
  | .ulpatch _ _ => true
  | .ulftrace _ _ => true
  | _ => false

/-- The object that `ulftrace` looks at is there and is relocatable. -/
def objOk (s : System) (c : Circ) (opts : List Opt) : Bool :=
  match objOf opts with
  | none => c.reloc s.object
  | some o =>
    if o = s.objPath then c.reloc s.object
    else
      match s.files o with
      | none => false
      | some b => c.reloc b

/-- The file passes the check of `ulpatch`. -/
def passes (s : System) (c : Circ) (f : PFile.Path) : Bool :=
  match (check s c (some f)).1 with
  | .ok n => n = 0
  | .error _ => false

/-- What a run does to the process `p`, with the files of `s`: it is a command on `p` exactly
if every option is known, the last `-p` names `p`, the file (or the object) passes the check,
and the program gets to open the process. -/
def Ev.own (s : System) (p : BitVec 32) : Ev → Option FileCmd
  | .ulpatch opts c =>
    if (∀ o ∈ opts, o.ofPatch = true) ∧ pidOf opts = some p ∧ p ≠ -1 ∧ c.starts = true ∧ c.opens = true then
      match lastCmd opts with
      | some .unpatch => some (.unpatch c.rd c.d)
      | some (.patch f) =>
        if passes s c f then
          (s.files f).map fun b => .patch c.rd c.hdr c.find c.now (b.take (b.length % 2 ^ 32)) c.e
        else none
      | _ => none
    else none
  | .ulftrace opts c =>
    if (∀ o ∈ opts, ofTrace o = true) ∧ pidOf opts = some p ∧ p ≠ -1 ∧ objOk s c opts = true ∧
        c.starts = true ∧ c.opens = true then
      (funcOf opts).map fun func => .trace c.rd c.hdr c.find c.now func s.object c.e c.d
    else none
  | _ => none

/-- One more event in the life of the process `p`: how it began, and the commands on it since
then; `none` if there is no such process. -/
def lifeStep (s : System) (p : BitVec 32) (l : Option (Patch.World × List FileCmd)) : Ev → Option (Patch.World × List FileCmd)
  | .begins q w => if q = p then some (w, []) else l
  | .ends q => if q = p then none else l
  | v =>
    match v.own s p with
    | none => l
    | some x => l.map fun y => (y.1, y.2 ++ [x])

/-- The life of the process `p` after these events. -/
def life (s : System) (p : BitVec 32) (vs : List Ev) : Option (Patch.World × List FileCmd) :=
  vs.foldl (lifeStep s p) ((s.procs p).map fun w => (w, []))

/-- How the commands on `p` since it began have ended, from how all the events have ended. -/
def told (s : System) (p : BitVec 32) (vs : List (Ev × Out)) : List Out :=
  vs.foldl (fun os v =>
    match v.1 with
    | .begins q _ => if q = p then [] else os
    | .ends q => if q = p then [] else os
    | e => if (e.own s p).isSome then os ++ [v.2] else os) []

end Ulp.Sys
