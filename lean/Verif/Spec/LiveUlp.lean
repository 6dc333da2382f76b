/-
Specification: what can be told about a live patch from the memory of the process.
-/
import Verif.Spec.Linked
import Verif.Spec.PatchShow
namespace Ulp.PatchFile

/-- The texts of the author and of the license and the Build ID are inside their sections,
and none of these sections has relocations. -/
structure Plain (f : List Byte) (secs : List Sec) (rels : Nat → List RelEntry) : Prop where
  author : ∀ s, Has secs ".ulpatch.author" s → s.type = 1 ∧ ∃ t, Str f s.offset t ∧ t.length < s.size
  license : ∀ s, Has secs ".ulpatch.license" s → s.type = 1 ∧ ∃ t, Str f s.offset t ∧ t.length < s.size
  note : ∀ s, Has secs ".note.gnu.build-id" s → ∃ namesz descsz, Num f s.offset 4 namesz ∧
    Num f (s.offset + 4) 4 descsz ∧ 12 + namesz + descsz ≤ s.size
  fixed : ∀ i k t r, Reloc secs rels i k t r → ¬ Has secs ".ulpatch.author" t ∧
    ¬ Has secs ".ulpatch.license" t ∧ ¬ Has secs ".note.gnu.build-id" t

/-- The symbol is defined in the patch: its section is neither "undefined" nor one of the
reserved numbers. -/
def Defined (s : SymEntry) : Prop := s.shndx ≠ 0 ∧ s.shndx < 0xff00

/-- `g` are the bytes of a mapping of a process in which the patch `f` is live: the file
linked at `th`, as `Linked` says, with the code that was replaced (`orig`, 16 bytes) in its
record, and whatever follows up to the end of the mapping. -/
structure LiveImage (width : Nat → Nat) (f : List Byte) (secs : List Sec) (o : Nat) (st : Sec)
    (syms : List SymEntry) (rels : Nat → List RelEntry) (th : BitVec 64)
    (find : List Byte → Option (BitVec 64)) (src : List Byte) (target now : BitVec 64)
    (id : BitVec 32) (orig : List Byte) (g : List Byte) : Prop where
  length : f.length ≤ g.length
  untouched : ∀ k, k < f.length → ¬ Touched width secs o st rels k → g[k]? = f[k]?
  symbols : ∀ (k : Nat) (s : SymEntry), syms[k]? = some s →
    ∃ S, SymAddr secs th find k s S ∧ Num g (st.offset + 24 * k + 8) 8 S.toNat
  sections : ∀ (j : Nat) (s : Sec), 0 < j → secs[j]? = some s →
    Num g (o + 64 * j + 16) 8 (th + BitVec.ofNat 64 s.offset).toNat
  record : ∃ inf k s S, Has secs ".ulpatch.info" inf ∧ LastNamed syms src k s ∧
    SymAddr secs th find k s S ∧
    Num g inf.offset 4 id.toNat ∧ Num g (inf.offset + 4) 8 target.toNat ∧
    Num g (inf.offset + 12) 8 S.toNat ∧ Num g (inf.offset + 20) 8 target.toNat ∧
    orig.length = 16 ∧ orig <+: g.drop (inf.offset + 28) ∧
    Num g (inf.offset + 44) 8 now.toNat ∧
    ∀ k, 52 ≤ k ∧ k < 64 → g[inf.offset + k]? = f[inf.offset + k]?

end Ulp.PatchFile
