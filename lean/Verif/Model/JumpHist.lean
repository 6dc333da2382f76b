/-
Runs of `ulpatch`, `ulftrace` and `ultask --jmp` on one process, one after the other.
-/
import Verif.Model.FileHist
import Verif.Model.Ultask
namespace Ulp.LoadBytes

/-- A run of `ulpatch` or `ulftrace`, or of `ultask --jmp from=SRC,to=DST` (src/ultask.c:766-825):
`vs` are the memory areas that `ultask` finds, `rd` and `wr` the bytes moved by `pread` and
`pwrite`. -/
inductive Step where
  | cmd (c : FileCmd)
  | jump (vs : Vma.Vmas) (src dst : Addr) (rd wr : Option Nat)

/-- One run (src/ulpatch.c:200-242, src/ulftrace.c:163-206, src/ultask.c:766-825).  `ultask` changes
nothing but memory: it does not stop the process, and maps nothing.  The result is what
`run_jmp` returns; `ultask` itself exits with 0 (C131).  The records of live patches are in
`w.maps`, not in `w.mem`: a jump written over a mapped patch is not modelled, and every statement
excludes it. -/
def runStep (M : Machine) (w : Patch.World) : Step → Option (Patch.World × Int)
  | .cmd c => runFile M w c
  | .jump vs src dst rd wr =>
    (Ultask.runJmp w.arch vs w.mem src dst rd wr).map fun x => ({ w with mem := x.1 }, x.2)

/-- Runs one after the other: the last state and all the results. -/
def runSteps (M : Machine) (w : Patch.World) : List Step → Option (Patch.World × List Int)
  | [] => some (w, [])
  | c :: cs =>
    match runStep M w c with
    | none => none
    | some (w', r) =>
      match runSteps M w' cs with
      | none => none
      | some (w'', rs) => some (w'', r :: rs)

end Ulp.LoadBytes
