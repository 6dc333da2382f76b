/-
Specification: patch commands that fail at their last step and cannot clean up.
-/
import Verif.Spec.FileHist
namespace Ulp.Patch

/-- The same environment, but the last step, writing the entry of the function, works. -/
def PatchEnv.entryWorks (e : PatchEnv) : PatchEnv :=
  { e with attach2 := .ok, entryN := some 16, attach3 := .ok, munmap3 := .done }

end Ulp.Patch

namespace Ulp.LoadBytes

/-- The same command, when writing the entry works. -/
def FileCmd.entryWorks : FileCmd → FileCmd
  | .patch rd hdr find now f e => .patch rd hdr find now f e.entryWorks
  | c => c

/-- The command is to load a patch; it would succeed if writing the entry worked; and of the entry all or
nothing is written.  Whether the clean-up works is left open. -/
def LateFile (M : Machine) (width : Nat → Nat) (R : Addr → Prop) (w : Patch.World) (c : FileCmd) : Prop :=
  (∃ rd hdr find now f e, c = .patch rd hdr find now f e ∧ e.EntryAtomic) ∧ GoodFile width R w c.entryWorks ∧
    ∃ w1, runFile M w c.entryWorks = some (w1, 0)

/-- Writing the entry fails, and so does the clean-up. -/
def FileCmd.EntryFails : FileCmd → Prop
  | .patch _ _ _ _ _ e => ¬ e.CleanupOk ∧ (e.attach2 ≠ .ok ∨ e.entryN = none ∨ e.entryN = some 0)
  | _ => False

/-- Commands one after the other, each of them as in `GoodFile` or as in `LateFile`. -/
def LateFiles (M : Machine) (width : Nat → Nat) (R : Addr → Prop) : Patch.World → List FileCmd → Prop
  | _, [] => True
  | w, c :: cs => (GoodFile width R w c ∨ LateFile M width R w c) ∧
      ∀ w' r, runFile M w c = some (w', r) → LateFiles M width R w' cs

/-- What a command with result `r` does to the list of live patches. -/
inductive LateDoes (st : List LiveFile) (c : FileCmd) (r : Int) : List LiveFile → Prop
  | does {st'} : Does st c r st' → LateDoes st c r st'
  /-- The patch stays in the process, but is not in effect. -/
  | left {v} : r ≠ 0 → c.Gives v → LateDoes st c r ({ v with active := false } :: st)

/-- The same for commands one after the other. -/
inductive AllLateDo : List LiveFile → List FileCmd → List Int → List LiveFile → Prop
  | nil {st} : AllLateDo st [] [] st
  | cons {st st' st'' c r cs rs} : LateDoes st c r st' → AllLateDo st' cs rs st'' → AllLateDo st (c :: cs) (r :: rs) st''

end Ulp.LoadBytes
