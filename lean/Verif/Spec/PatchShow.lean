/-
What a patch file says about itself, as a reader of the file would tell it.
-/
import Verif.Spec.PatchFile
namespace Ulp.PatchFile

/-- The four texts of a patch: the two functions after the magic text, the author and the
license. -/
structure Texts (f : List Byte) (secs : List Sec) (src dst author license : List Byte) : Prop where
  names : ∃ s, Has secs ".ulpatch.strtab" s ∧ Str f s.offset (ascii ".ULPATCH") ∧
    Str f (s.offset + 9) src ∧ Str f (s.offset + 9 + src.length + 1) dst
  author : ∃ s, Has secs ".ulpatch.author" s ∧ Str f s.offset author
  license : ∃ s, Has secs ".ulpatch.license" s ∧ Str f s.offset license

/-- The numbers of the packed record of a patch. -/
structure RecordAt (f : List Byte) (secs : List Sec)
    (id target patch virtual orig0 orig1 time flags version pad : Nat) : Prop where
  at_ : ∃ s, Has secs ".ulpatch.info" s ∧ Num f s.offset 4 id ∧ Num f (s.offset + 4) 8 target ∧
    Num f (s.offset + 12) 8 patch ∧ Num f (s.offset + 20) 8 virtual ∧
    Num f (s.offset + 28) 8 orig0 ∧ Num f (s.offset + 36) 8 orig1 ∧ Num f (s.offset + 44) 8 time ∧
    Num f (s.offset + 52) 4 flags ∧ Num f (s.offset + 56) 4 version ∧ Num f (s.offset + 60) 4 pad

/-- The Build ID note: nothing when the note is of another type, else its bytes as text. -/
def BuildIdIs (f : List Byte) (secs : List Sec) (t : Option (List Byte)) : Prop :=
  ∃ s namesz descsz type, Has secs ".note.gnu.build-id" s ∧ Num f s.offset 4 namesz ∧
    Num f (s.offset + 4) 4 descsz ∧ Num f (s.offset + 8) 4 type ∧
    (type ≠ 3 ∧ t = none ∨
     type = 3 ∧ ∃ x, t = some x ∧ x.length = 2 * descsz ∧ ∀ i b, i < descsz →
      f[s.offset + 12 + namesz + i]? = some b →
      ∃ hi lo, x[2 * i]? = some hi ∧ x[2 * i + 1]? = some lo ∧ HexDigits b hi lo)

end Ulp.PatchFile
