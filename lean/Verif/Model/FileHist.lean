/-
Commands on patch files, one after the other: `ulpatch --patch FILE` with the bytes of
the file (`patchFile`), `ulpatch --unpatch`, and `ulftrace` (`traceFile`).
-/
import Verif.Model.LoadPatch
namespace Ulp.LoadBytes

/-- The names in the metadata of the tracing object (src/objects/ftrace/mcount.c:73-77): the
function of the patch and the function that it replaces. -/
def tracingNames : Arch → List Byte × List Byte
  | .x86_64 => (Load.lit "mcount", Load.lit "_ftrace_mcount")
  | .aarch64 => (Load.lit "_mcount", Load.lit "_ftrace_mcount")

/-- A run of `ulpatch` (src/ulpatch.c:200-242) or `ulftrace` (src/ulftrace.c:163-206):
with `--patch` the bytes `f` of the file, the address `hdr` of its copy in the host, the symbols of the target and the time; with
`--unpatch` the results of system calls only; for `ulftrace` also the function `func` it
is given. -/
inductive FileCmd where
  | patch (rd : Patch.Mapping → Patch.ReadRes) (hdr : Addr) (find : List Byte → Option (BitVec 64))
      (now : BitVec 64) (f : List Byte) (e : Patch.PatchEnv)
  | unpatch (rd : Patch.Mapping → Patch.ReadRes) (d : Patch.DeleteEnv)
  | trace (rd : Patch.Mapping → Patch.ReadRes) (hdr : Addr) (find : List Byte → Option (BitVec 64))
      (now : BitVec 64) (func f : List Byte) (e : Patch.PatchEnv) (d : Patch.DeleteEnv)

/-- One command (src/ulpatch.c:200-242, src/ulftrace.c:163-206): the new state and the result. -/
def runFile (M : Machine) (w : Patch.World) : FileCmd → Option (Patch.World × Int)
  | .patch rd hdr find now f e => patchFile M w rd hdr find now f e
  | .unpatch rd d => Patch.runCmd w (.unpatch rd d)
  | .trace rd hdr find now func f e d => traceFile M w rd hdr find now func f e d

/-- Commands one after the other: the last state and all the results. -/
def runFiles (M : Machine) (w : Patch.World) : List FileCmd → Option (Patch.World × List Int)
  | [] => some (w, [])
  | c :: cs =>
    match runFile M w c with
    | none => none
    | some (w', r) =>
      match runFiles M w' cs with
      | none => none
      | some (w'', rs) => some (w'', r :: rs)

end Ulp.LoadBytes
