/-
What it means to link a relocatable file at an address, in terms of the bytes of
the file and of the result: the symbol table, the relocation entries, how the
file is laid out, and the values that must be found in the linked image.
Independent of the ulpatch sources.
-/
import Verif.Spec.PatchFile
import Verif.Spec.Psabi
namespace Ulp.PatchFile

/-- Byte `k` of the file belongs to the section.  Sections of type 8 (`SHT_NOBITS`)
have no bytes in the file. -/
def InSec (s : Sec) (k : Nat) : Prop := s.type ≠ 8 ∧ s.offset ≤ k ∧ k < s.offset + s.size

/-- The file is laid out as linkers do it: the section table is at `o`, after the
ELF header and inside the file; no byte belongs to two of: the ELF header, the
section table, the sections; sections are inside the file; and the names of the
sections are inside the section `strs`, a string table. -/
structure Laid (f : List Byte) (secs : List Sec) (o : Nat) (strs : Sec) : Prop where
  describes : Describes f secs
  tab : Num f 40 8 o
  strsAt : ∃ x, Num f 62 2 x ∧ secs[x]? = some strs
  strsType : strs.type = 3
  tabFrom : 64 ≤ o
  tabTo : o + 64 * secs.length ≤ f.length
  inside : ∀ (i : Nat) (s : Sec), secs[i]? = some s → s.type ≠ 8 → s.offset + s.size ≤ f.length
  headers : ∀ (i : Nat) (s : Sec) (k : Nat), secs[i]? = some s → InSec s k →
    64 ≤ k ∧ (k < o ∨ o + 64 * secs.length ≤ k)
  apart : ∀ (i j : Nat) (s t : Sec) (k : Nat), secs[i]? = some s → secs[j]? = some t →
    InSec s k → InSec t k → i = j
  names : ∀ (i : Nat) (s : Sec), secs[i]? = some s → ∃ n, Num f (o + 64 * i) 4 n ∧
    Str f (strs.offset + n) s.name ∧ n + s.name.length < strs.size

/-- The sections of a patch that the loader itself uses: the record is whole, the
names of the two functions are inside their section, and both are ordinary
sections (`SHT_PROGBITS`). -/
structure Meta (f : List Byte) (secs : List Sec) (src dst : List Byte) : Prop where
  info : ∀ s, Has secs ".ulpatch.info" s → s.type = 1 ∧ 64 ≤ s.size
  strtab : ∀ s, Has secs ".ulpatch.strtab" s → s.type = 1 ∧ ∃ magic, Str f s.offset magic ∧
    Str f (s.offset + magic.length + 1) src ∧
    Str f (s.offset + magic.length + 1 + src.length + 1) dst ∧
    magic.length + 1 + src.length + 1 + dst.length + 1 ≤ s.size
  note : ∀ s, Has secs ".note.gnu.build-id" s → Num f (s.offset + 8) 4 3

/-- An entry of the symbol table. -/
structure SymEntry where
  name : List Byte
  info : Nat
  shndx : Nat
  value : Nat

/-- Entry `k` of the symbol table `st` with string table `str` is `s`. -/
structure SymAt (f : List Byte) (st str : Sec) (k : Nat) (s : SymEntry) : Prop where
  name : ∃ n, Num f (st.offset + 24 * k) 4 n ∧ Str f (str.offset + n) s.name ∧
    n + s.name.length < str.size
  info : Num f (st.offset + 24 * k + 4) 1 s.info
  shndx : Num f (st.offset + 24 * k + 6) 2 s.shndx
  value : Num f (st.offset + 24 * k + 8) 8 s.value

/-- `st`, section number `si`, is the symbol table of the file, the first one after
section 0, `str` its string table and `syms` its entries; every entry names an
existing section or one of the reserved indices "absolute" and "common". -/
structure Symbols (f : List Byte) (secs : List Sec) (si : Nat) (st str : Sec)
    (syms : List SymEntry) : Prop where
  sec : secs[si]? = some st
  pos : 0 < si
  type : st.type = 2
  first : ∀ (j : Nat) (t : Sec), 0 < j → j < si → secs[j]? = some t → t.type ≠ 2
  link : secs[st.link]? = some str
  strType : str.type = 3
  count : st.size / 24 = syms.length
  entries : ∀ (k : Nat) (s : SymEntry), syms[k]? = some s → SymAt f st str k s
  sections : ∀ s ∈ syms, s.shndx < secs.length ∨ s.shndx = 0xfff1 ∨ s.shndx = 0xfff2

/-- An entry of a relocation section. -/
structure RelEntry where
  offset : Nat
  sym : Nat
  type : Nat
  addend : Nat

/-- Entry `k` of the relocation section `rs` is `r`. -/
structure RelAt (f : List Byte) (rs : Sec) (k : Nat) (r : RelEntry) : Prop where
  offset : Num f (rs.offset + 24 * k) 8 r.offset
  info : Num f (rs.offset + 24 * k + 8) 8 (2 ^ 32 * r.sym + r.type)
  type : r.type < 2 ^ 32
  addend : Num f (rs.offset + 24 * k + 16) 8 r.addend

/-- Entry `k` of section `i`, a relocation section (`SHT_RELA`) of the loadable
section `t` (`SHF_ALLOC` is bit 1 of the flags), is `r`.  The section
`.ulpatch.info` is the loader's own and does not count as loadable. -/
def Reloc (secs : List Sec) (rels : Nat → List RelEntry) (i k : Nat) (t : Sec) (r : RelEntry) : Prop :=
  ∃ s, secs[i]? = some s ∧ s.type = 4 ∧ secs[s.info]? = some t ∧ t.flags.testBit 1 = true ∧
    ¬ Has secs ".ulpatch.info" t ∧ (rels i)[k]? = some r

/-- `rels i` are the entries of relocation section `i`.  Fields (`width` gives their
size) lie inside the section they belong to, no two have a byte in common, and
they are not in symbol tables, string tables, relocation sections, sections
without bytes or `.ulpatch.strtab`; the symbols exist; section 0 is neither
loadable nor a relocation section. -/
structure Relocs (width : Nat → Nat) (f : List Byte) (secs : List Sec) (nsyms : Nat)
    (rels : Nat → List RelEntry) : Prop where
  null : ∀ s, secs[0]? = some s → s.flags.testBit 1 = false ∧ s.type ≠ 4
  count : ∀ (i : Nat) (s : Sec), secs[i]? = some s → s.type = 4 → s.size / 24 = (rels i).length
  entries : ∀ (i k : Nat) (s : Sec) (r : RelEntry), secs[i]? = some s → s.type = 4 →
    (rels i)[k]? = some r → RelAt f s k r
  syms : ∀ i k t r, Reloc secs rels i k t r → r.sym < nsyms
  fits : ∀ i k t r, Reloc secs rels i k t r → r.offset + width r.type ≤ t.size
  target : ∀ i k t r, Reloc secs rels i k t r → t.type ≠ 2 ∧ t.type ≠ 3 ∧ t.type ≠ 4 ∧
    t.type ≠ 8 ∧ ¬ Has secs ".ulpatch.strtab" t
  disjoint : ∀ i k t r i' k' t' r', Reloc secs rels i k t r → Reloc secs rels i' k' t' r' →
    (i, k) ≠ (i', k') → ∀ a b, a < width r.type → b < width r'.type →
    t.offset + r.offset + a ≠ t'.offset + r'.offset + b

/-- The address of symbol number `k` in the process the file is linked into at
`th`: the null symbol, absolute and common symbols keep their value; an undefined
symbol has the address `find` gives for its name, or keeps its value if there is
none; any other is at its offset in its section. -/
inductive SymAddr (secs : List Sec) (th : BitVec 64) (find : List Byte → Option (BitVec 64)) :
    Nat → SymEntry → BitVec 64 → Prop
  | null {s} : SymAddr secs th find 0 s (BitVec.ofNat 64 s.value)
  | reserved {k s} : k ≠ 0 → s.shndx = 0xfff1 ∨ s.shndx = 0xfff2 →
      SymAddr secs th find k s (BitVec.ofNat 64 s.value)
  | found {k s a} : k ≠ 0 → s.shndx = 0 → find s.name = some a → a ≠ 0 → SymAddr secs th find k s a
  | unknown {k s} : k ≠ 0 → s.shndx = 0 → find s.name = none ∨ find s.name = some 0 →
      SymAddr secs th find k s (BitVec.ofNat 64 s.value)
  | defined {k s t} : k ≠ 0 → s.shndx ≠ 0 → s.shndx ≠ 0xfff1 → s.shndx ≠ 0xfff2 →
      secs[s.shndx]? = some t →
      SymAddr secs th find k s (th + BitVec.ofNat 64 t.offset + BitVec.ofNat 64 s.value)

/-- The bytes of the file that loading may change: the address of a section header,
the flags of one of them, the value of a symbol, the fields of relocations, and
the 64-byte record in `.ulpatch.info`. -/
inductive Touched (width : Nat → Nat) (secs : List Sec) (o : Nat) (st : Sec)
    (rels : Nat → List RelEntry) : Nat → Prop
  | addr {i k} : i < secs.length → o + 64 * i + 16 ≤ k → k < o + 64 * i + 24 →
      Touched width secs o st rels k
  | flags {i k s} : secs[i]? = some s → Has secs ".ulpatch.info" s → o + 64 * i + 8 ≤ k →
      k < o + 64 * i + 16 → Touched width secs o st rels k
  | value {i k} : i < st.size / 24 → st.offset + 24 * i + 8 ≤ k → k < st.offset + 24 * i + 16 →
      Touched width secs o st rels k
  | field {i j t r k} : Reloc secs rels i j t r → t.offset + r.offset ≤ k →
      k < t.offset + r.offset + width r.type → Touched width secs o st rels k
  | record {s k} : Has secs ".ulpatch.info" s → s.offset ≤ k → k < s.offset + 64 →
      Touched width secs o st rels k

/-- A section that has no bytes in the file but takes up room in memory. -/
def Uninit (s : Sec) : Prop := (s.type = 8 ∨ s.name = ascii ".bss") ∧ 0 < s.size

/-- The symbol can be given an address: it is not a common symbol (but those of the
link-time optimiser are ignored), and if it is undefined then it is known or weak. -/
def Resolvable (find : List Byte → Option (BitVec 64)) (s : SymEntry) : Prop :=
  (s.shndx = 0xfff2 → ascii "__gnu_lto" <+: s.name) ∧
    (s.shndx = 0 → (∃ a, find s.name = some a ∧ a ≠ 0) ∨ s.info / 16 = 2)

/-- The Build ID of the file is `t`, in hexadecimal digits. -/
def BuildIdText (f : List Byte) (secs : List Sec) (t : List Byte) : Prop :=
  ∃ s namesz descsz, Has secs ".note.gnu.build-id" s ∧ Num f s.offset 4 namesz ∧
    Num f (s.offset + 4) 4 descsz ∧ t.length = 2 * descsz ∧
    ∀ i, i < descsz → ∃ b hi lo, f[s.offset + 12 + namesz + i]? = some b ∧
      t[2 * i]? = some hi ∧ t[2 * i + 1]? = some lo ∧ HexDigits b hi lo

/-- `s`, symbol number `k`, is the last one called `src`. -/
def LastNamed (syms : List SymEntry) (src : List Byte) (k : Nat) (s : SymEntry) : Prop :=
  syms[k]? = some s ∧ s.name = src ∧
    ∀ (k' : Nat) (s' : SymEntry), k < k' → syms[k']? = some s' → s'.name ≠ src

/-- A relocation section without addends (`SHT_REL`) for a loadable section. -/
def RelOnly (secs : List Sec) : Prop :=
  ∃ (i : Nat) (s t : Sec), secs[i]? = some s ∧ s.type = 9 ∧ secs[s.info]? = some t ∧
    t.flags.testBit 1 = true ∧ ¬ Has secs ".ulpatch.info" t

/-- `g` is the patch file `f` linked at address `th`.  `width` is the size of the
field of a type of relocation, `value type S A P` its size and value.  `target` is
the address of the function to be replaced, `id` the number of the patch. -/
structure Linked (width : Nat → Nat)
    (value : Nat → BitVec 64 → BitVec 64 → BitVec 64 → Option (Nat × BitVec 64))
    (f : List Byte) (secs : List Sec) (o : Nat) (st : Sec) (syms : List SymEntry)
    (rels : Nat → List RelEntry) (th : BitVec 64) (find : List Byte → Option (BitVec 64))
    (src : List Byte) (target now : BitVec 64) (id : BitVec 32) (g : List Byte) : Prop where
  length : g.length = f.length
  /-- Nothing else is changed. -/
  untouched : ∀ k, ¬ Touched width secs o st rels k → g[k]? = f[k]?
  /-- Every field has the value of its relocation. -/
  fields : ∀ i k t r, Reloc secs rels i k t r → ∃ s S, syms[r.sym]? = some s ∧
    SymAddr secs th find r.sym s S ∧
    ∀ w v, value r.type S (BitVec.ofNat 64 r.addend)
      (th + BitVec.ofNat 64 t.offset + BitVec.ofNat 64 r.offset) = some (w, v) →
      Num g (t.offset + r.offset) w (v.toNat % 256 ^ w)
  /-- Every symbol has its address. -/
  symbols : ∀ (k : Nat) (s : SymEntry), syms[k]? = some s →
    ∃ S, SymAddr secs th find k s S ∧ Num g (st.offset + 24 * k + 8) 8 S.toNat
  /-- Every section has its address. -/
  sections : ∀ (j : Nat) (s : Sec), 0 < j → secs[j]? = some s →
    Num g (o + 64 * j + 16) 8 (th + BitVec.ofNat 64 s.offset).toNat
  /-- The record has the number, the address of the replaced function (twice), of the
  new one, and the time; the other bytes of it are as in the file. -/
  record : ∃ inf k s S, Has secs ".ulpatch.info" inf ∧ LastNamed syms src k s ∧
    SymAddr secs th find k s S ∧
    Num g inf.offset 4 id.toNat ∧ Num g (inf.offset + 4) 8 target.toNat ∧
    Num g (inf.offset + 12) 8 S.toNat ∧ Num g (inf.offset + 20) 8 target.toNat ∧
    Num g (inf.offset + 44) 8 now.toNat ∧
    ∀ k, (28 ≤ k ∧ k < 44) ∨ (52 ≤ k ∧ k < 64) → g[inf.offset + k]? = f[inf.offset + k]?

end Ulp.PatchFile
