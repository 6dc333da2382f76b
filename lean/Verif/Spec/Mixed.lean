/-
Specification: a process on which `ulpatch`, `ulftrace` and `ultask` are used.
-/
import Verif.Spec.FileHist
import Verif.Spec.TaskKill
namespace Ulp.Mixed
open LoadBytes (FileCmd Machine LiveFile GoodFile runFile)
open TaskRun (Proc Job LawfulP Unmaps Jumps asks mapsOf)
open Linux (State)

/-- A use of a tool: a command of `ulpatch` or `ulftrace`, or a run of `ultask` with any command line,
killed somewhere or not; `s` is what the kernel keeps of the process at that time, its pages above all. -/
inductive Use where
  | cmd (c : FileCmd)
  | task (k : Ultask.Kern (Proc State)) (s : State) (j : Job) (cut : Option (Nat × Nat))

/-- Uses one after the other: the process at the end, and the results of the commands of
`ulpatch` and `ulftrace`. -/
def runUses (M : Machine) (w : Patch.World) : List Use → Option (Patch.World × List Int)
  | [] => some (w, [])
  | .cmd c :: us =>
    match runFile M w c with
    | none => none
    | some (w', r) =>
      match runUses M w' us with
      | none => none
      | some (w'', rs) => some (w'', r :: rs)
  | .task k s j cut :: us =>
    match j.leaves k w.arch ⟨s, w.mem⟩ cut with
    | none => none
    | some p => runUses M { w with mem := p.mem } us

/-- The commands of `ulpatch` and `ulftrace`. -/
def cmds : List Use → List FileCmd
  | [] => []
  | .cmd c :: us => c :: cmds us
  | .task _ _ _ _ :: us => cmds us

/-- What a run of `ultask` may change: an address where nothing is mapped (`--map`), one that `--unmap`
takes, one of the 16 bytes that `--jmp` names. -/
def Use.names (pg : Nat) : Use → Addr → Prop
  | .cmd _, _ => False
  | .task _ s j _, x => s.space (x.toNat / pg) = none ∨
      Unmaps pg j.c.fs (mapsOf j.c j.ls) (asks j.e j.opts) (x.toNat / pg) ∨ Jumps (asks j.e j.opts) x

/-- A run of `ultask` that spares the patches: the kernel answers as Linux does; the lines of
`/proc/PID/maps` are sound and there is a `[vdso]` (see C130); and it names neither an address where a live patch is mapped nor one of the first
16 bytes of the function it replaces. -/
def GoodUse (pg : Nat) (width : Nat → Nat) (R : Addr → Prop) (w : Patch.World) : Use → Prop
  | .cmd c => GoodFile width R w c
  | .task k s j cut => LawfulP pg k ∧ j.Fine ∧ j.c.vdso ≠ none ∧
      ∀ m ∈ w.maps,
        (∀ i, i < m.len → ¬ (Use.task k s j cut).names pg (m.start + BitVec.ofNat 64 i)) ∧
        ∀ i, i < 16 → ¬ (Use.task k s j cut).names pg (m.info.virt + BitVec.ofNat 64 i)

/-- `GoodUse` for uses one after the other. -/
def GoodUses (M : Machine) (pg : Nat) (width : Nat → Nat) (R : Addr → Prop) : Patch.World → List Use → Prop
  | _, [] => True
  | w, u :: us => GoodUse pg width R w u ∧ ∀ w' rs, runUses M w [u] = some (w', rs) → GoodUses M pg width R w' us

end Ulp.Mixed
