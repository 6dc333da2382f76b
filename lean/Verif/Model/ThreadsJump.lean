/-
The threads of a process while `ultask --jmp` writes into it, between commands of ulpatch.
-/
import Verif.Model.Threads
namespace Ulp.Threads

/-- `run_jmp` (src/ultask.c:766-825): the jump from `f` to `p` is written with one `pwrite`
(src/task/memcpy.c:80-92), of which the kernel copies the bytes one after the other.  Nothing is stopped:
there is no `task_attach`.  Simplification: every call succeeds (for failures see `Model/Ultask`). -/
def jumpActs (arch : Arch) (f p : Addr) : List Act :=
  [.mark .changing] ++ copyTo f (jmpEntry arch p) ++ [.mark (.redirect p)]

/-- Commands of ulpatch for the code at `f` (src/ulpatch.c:200-242), and `ultask --jmp` (src/ultask.c:766-825)
from `f` to `p`. -/
inductive Tool where
  | ulpatch (c : Cmd)
  | jump (p : Addr)

/-- What the tools do, on a place that begins with `orig` (src/patch/patch.c:893-911, 1066-1088,
src/ultask.c:766-825). -/
def bothActs (arch : Arch) (f : Addr) (orig : List Byte) : List Tool → List Act
  | [] => []
  | .ulpatch c :: l => toolActs arch f orig [c] ++ bothActs arch f orig l
  | .jump p :: l => jumpActs arch f p ++ bothActs arch f orig l

end Ulp.Threads
