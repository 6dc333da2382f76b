/-
What a patch file says, independently of the code that reads it: numbers,
strings and sections of an ELF64 little-endian file, and what it means for the
patch metadata to be complete.
-/
import Verif.Model.Mem
namespace Ulp.PatchFile

/-- The `n` bytes of `f` at `off` are the little-endian representation of `v`. -/
def Num (f : List Byte) (off n v : Nat) : Prop :=
  ∃ bs, bs.length = n ∧ bs <+: f.drop off ∧ leNat bs = v

/-- `f` has the NUL-terminated string `s` at `off`. -/
def Str (f : List Byte) (off : Nat) (s : List Byte) : Prop :=
  0 ∉ s ∧ (s ++ [0]) <+: f.drop off

/-- The characters of an ASCII text. -/
def ascii (s : String) : List Byte := s.toList.map fun c => BitVec.ofNat 8 c.toNat

/-- A section of an ELF file: its name and header fields. -/
structure Sec where
  name : List Byte
  type : Nat
  flags : Nat
  addr : Nat
  offset : Nat
  size : Nat
  link : Nat
  info : Nat

/-- The 64-byte header at `h` describes `s`; names are in the string table at
`strs`. -/
structure Header (f : List Byte) (strs h : Nat) (s : Sec) : Prop where
  name : ∃ k, Num f h 4 k ∧ Str f (strs + k) s.name
  type : Num f (h + 4) 4 s.type
  flags : Num f (h + 8) 8 s.flags
  addr : Num f (h + 16) 8 s.addr
  offset : Num f (h + 24) 8 s.offset
  size : Num f (h + 32) 8 s.size
  link : Num f (h + 40) 4 s.link
  info : Num f (h + 44) 4 s.info
  fits : h + 64 ≤ f.length

/-- `secs` is the section table of the file `f`: the table starts at the offset
stored at byte 40, has as many entries as the number at byte 60 says, and names
are in the section whose index is at byte 62. -/
structure Describes (f : List Byte) (secs : List Sec) : Prop where
  small : f.length < 2 ^ 64
  count : Num f 60 2 secs.length
  table : ∃ o x strs, Num f 40 8 o ∧ Num f 62 2 x ∧ secs[x]? = some strs ∧
    ∀ i s, secs[i]? = some s → Header f strs.offset (o + 64 * i) s

/-- `s` is the first section called `name` and is not the reserved section 0. -/
def Has (secs : List Sec) (name : String) (s : Sec) : Prop :=
  ∃ i, 0 < i ∧ secs[i]? = some s ∧ s.name = ascii name ∧
    ∀ j t, j < i → secs[j]? = some t → t.name ≠ ascii name

/-- There is an `.ulpatch.info` section. -/
def HasInfo (secs : List Sec) : Prop := ∃ s, Has secs ".ulpatch.info" s
/-- The version number in the `.ulpatch.info` record (byte 56) is 5. -/
def VersionOk (f : List Byte) (secs : List Sec) : Prop :=
  ∃ s, Has secs ".ulpatch.info" s ∧ Num f (s.offset + 56) 4 5
def HasStrtab (secs : List Sec) : Prop := ∃ s, Has secs ".ulpatch.strtab" s
def HasAuthor (secs : List Sec) : Prop := ∃ s, Has secs ".ulpatch.author" s
def HasLicense (secs : List Sec) : Prop := ∃ s, Has secs ".ulpatch.license" s
/-- There is a `.note.gnu.build-id` section and it is of type `SHT_NOTE`. -/
def HasBuildId (secs : List Sec) : Prop := ∃ s, Has secs ".note.gnu.build-id" s ∧ s.type = 7
/-- The string section starts with the magic string. -/
def MagicOk (f : List Byte) (secs : List Sec) : Prop :=
  ∃ s, Has secs ".ulpatch.strtab" s ∧ Str f s.offset (ascii ".ULPATCH")
/-- There is a symbol table (`SHT_SYMTAB`) after section 0. -/
def HasSymtab (secs : List Sec) : Prop := ∃ i s, 0 < i ∧ secs[i]? = some s ∧ s.type = 2

/-- Every piece of metadata is there. -/
def Complete (f : List Byte) (secs : List Sec) : Prop :=
  HasInfo secs ∧ VersionOk f secs ∧ HasStrtab secs ∧ HasAuthor secs ∧ HasLicense secs ∧
    HasBuildId secs ∧ MagicOk f secs ∧ HasSymtab secs

/-- The code of the first missing piece; 0 if nothing is missing. -/
inductive Verdict (f : List Byte) (secs : List Sec) : Int → Prop
  | noInfo : ¬ HasInfo secs → Verdict f secs (-17)
  | version : HasInfo secs → ¬ VersionOk f secs → Verdict f secs (-22)
  | noStrtab : VersionOk f secs → ¬ HasStrtab secs → Verdict f secs (-17)
  | noAuthor : VersionOk f secs → HasStrtab secs → ¬ HasAuthor secs → Verdict f secs (-17)
  | noLicense : VersionOk f secs → HasStrtab secs → HasAuthor secs → ¬ HasLicense secs →
      Verdict f secs (-17)
  | noBuildId : VersionOk f secs → HasStrtab secs → HasAuthor secs → HasLicense secs →
      ¬ HasBuildId secs → Verdict f secs (-17)
  | noMagic : VersionOk f secs → HasStrtab secs → HasAuthor secs → HasLicense secs →
      HasBuildId secs → ¬ MagicOk f secs → Verdict f secs (-2)
  | noSymtab : VersionOk f secs → HasStrtab secs → HasAuthor secs → HasLicense secs →
      HasBuildId secs → MagicOk f secs → ¬ HasSymtab secs → Verdict f secs (-8)
  | ok : Complete f secs → Verdict f secs 0

/-- The parts of the file that the metadata refers to are inside it: the record
is whole, the string section has three strings, the Build-ID note and its bytes
are inside the file, and symbol tables name an existing string section. -/
structure Readable (f : List Byte) (secs : List Sec) : Prop where
  info : ∀ s, Has secs ".ulpatch.info" s → s.offset + 64 ≤ f.length
  strtab : ∀ s, Has secs ".ulpatch.strtab" s → ∃ magic src dst, Str f s.offset magic ∧
    Str f (s.offset + magic.length + 1) src ∧ Str f (s.offset + magic.length + 1 + src.length + 1) dst
  note : ∀ s, Has secs ".note.gnu.build-id" s → ∃ namesz descsz type, Num f s.offset 4 namesz ∧
    Num f (s.offset + 4) 4 descsz ∧ Num f (s.offset + 8) 4 type ∧ descsz < 2 ^ 31 ∧
    s.offset + 12 + namesz + descsz ≤ f.length
  sym : ∀ (i : Nat) (s : Sec), secs[i]? = some s → s.type = 2 → s.link < secs.length

/-- Two lower-case hexadecimal digits, most significant first. -/
def HexDigits (b : Byte) (hi lo : Byte) : Prop :=
  ∃ h l, h < 16 ∧ l < 16 ∧ b.toNat = 16 * h + l ∧
    (ascii "0123456789abcdef")[h]? = some hi ∧ (ascii "0123456789abcdef")[l]? = some lo

end Ulp.PatchFile
