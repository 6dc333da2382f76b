/-
The check of the patch file before `ulpatch --patch` does anything (src/ulpatch.c:143-188).
-/
import Verif.Model.PatchFile
namespace Ulp.PFile
open Load (lit)

/-- `ENODATA` (errno.h, src/ulpatch.c:176, 182). -/
def ENODATA : Int := -61

/-- `strcmp(info.ulp_strtab.magic, SEC_ULPATCH_MAGIC)` (src/ulpatch.c:180): whether the strings
are equal; `none` is a read outside of the image.  `magic` is where the string section starts
(src/patch/patch.c:400). -/
def magicAgain (img : List Byte) (li : Load.Info) : Option Bool :=
  match Load.shdrAt img li.strtabIdx with
  | none => none
  | some s => Load.strEq img s.offset (lit ".ULPATCH")

/-- `check_patch_file` (src/ulpatch.c:155-188) of the argument of `--patch`, which is also the
global `patch_file` of lines 167-169; the first parameter is `NULL` if there was none. -/
def checkPatchFile (E : Env) (file : Option Path) : M Int :=
  match file with
  | none => pure Load.EEXIST
  | some file => do
    let e ← fexist file
    if e = false then pure Load.EEXIST
    else do
      let r ← allocPatchFile E file tempUlp
      if r.1 ≠ 0 then pure r.1
      else do
        let s ← setup E r.2
        match s.1 with
        | .error _ => do
          let _ ← releaseLoadInfo s.2
          pure ENODATA
        | .ok li =>
          match magicAgain li.1 li.2 with
          | none => crash .fault
          | some same => do
            let _ ← releaseLoadInfo s.2
            pure (if same then 0 else ENODATA)

end Ulp.PFile
