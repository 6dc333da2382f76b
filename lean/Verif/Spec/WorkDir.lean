/- What the directory of a process should hold: used by the statements about it. -/
import Verif.Model.WorkDir
namespace Ulp.WorkDir

/-- The temporary names used in a history. -/
def names : List Op → List Name
  | [] => []
  | .patch _ n _ :: l => n :: names l
  | .patchFail _ n _ _ :: l => n :: names l
  | _ :: l => names l

/-- The file `f` (name and contents) is in `map_files`, and no other of that name. -/
def Holds (d : Dir) (f : Name × Content) : Prop :=
  d.pid = true ∧ ∃ l, d.maps = some l ∧ f ∈ l ∧ ∀ g ∈ l, g.1 = f.1 → g = f

end Ulp.WorkDir
