/-
What an ELF file says of its symbols and its Build ID, and which files can be opened.
-/
import Verif.Model.ElfFile
import Verif.Spec.BfdSym
namespace Ulp.ElfSpec
open ElfFile
open BfdSpec (First)
open Load (lit)

/-- The last of the sections of a type. -/
def lastOf (ty : BitVec 32) (e : Elf) : Option Shdr := (e.shdrs.filter fun s => decide (s.type = ty)).getLast?

/-- The symbols in the last section of a type. -/
def symsOf (ty : BitVec 32) (e : Elf) : List GSym :=
  match lastOf ty e with
  | none => []
  | some s =>
    match s.syms with
    | none => []
    | some l => l

/-- The symbols of a file: those of `.symtab` (`SHT_SYMTAB`, 2) and then those of `.dynsym`
(`SHT_DYNSYM`, 11). -/
def table (e : Elf) : List GSym := symsOf 2 e ++ symsOf 11 e

/-- A reference to another file: in no section, global or weak, without type. -/
def Extern (s : GSym) : Prop :=
  s.shndx = 0 ∧ (s.info.toNat / 16 = 1 ∨ s.info.toNat / 16 = 2) ∧ s.info.toNat % 16 = 0

/-- In a section of the file. -/
def Defined (s : GSym) : Prop := s.shndx ≠ 0 ∧ s.shndx.toNat < 0xff00

/-- What `find_symbol`, `find_extern_symbol` and `find_undef_symbol` are for. -/
def OfClass (s : GSym) : Class → Prop
  | .extern => Extern s
  | .undef => ¬ Extern s ∧ ¬ Defined s
  | .defined => Defined s

/-- `s` is of the class and has the name. -/
def Named (c : Class) (n : List Byte) (s : GSym) : Prop := OfClass s c ∧ s.name = some n

/-- The section is in the part of the file that the program header covers. -/
def Within (sh : Shdr) (p : Phdr) : Prop :=
  p.offset.toNat ≤ sh.offset.toNat ∧ sh.offset.toNat + sh.size.toNat ≤ p.offset.toNat + p.filesz.toNat

/-- The symbol found is `s` of the file `e`: all its fields, and the program headers of its
section. -/
structure Is (e : Elf) (s : GSym) (y : Symbol) : Prop where
  sym : y.sym = s
  name : s.name = some y.name
  cls : OfClass s y.cls
  phdrs : ∀ p, p ∈ y.phdrs ↔ p ∈ e.phdrs ∧ Defined s ∧ ∃ sh, e.shdrs[s.shndx.toNat]? = some sh ∧ Within sh p

/-- The symbols of a section can be read; they have names and sections. -/
structure SymsOk (e : Elf) (sh : Shdr) : Prop where
  data : ∃ l, sh.syms = some l
  names : ∀ l, sh.syms = some l → ∀ s ∈ l, s.name ≠ none
  secs : ∀ l, sh.syms = some l → ∀ s ∈ l, Defined s → s.shndx.toNat < e.shdrs.length

/-- A file that libelf can read completely: the headers, the names of the sections and the
symbols. -/
structure Complete (e : Elf) : Prop where
  ident : e.ident = true
  ehdr : e.ehdr = some true
  strndx : e.strndx = true
  shdrs : ∀ s ∈ e.shdrs, s.ok = true
  names : ∀ s ∈ e.shdrs, s.name ≠ none

/-- What holds of the symbols and headers of every file that is not damaged: the first section
is not a symbol table, the symbols can be read, and no part of the file ends behind 2^64. -/
structure Sane (e : Elf) : Prop where
  first : ∀ s, e.shdrs[0]? = some s → s.type ≠ 2 ∧ s.type ≠ 11
  syms : ∀ s ∈ e.shdrs, s.type = 2 ∨ s.type = 11 → SymsOk e s
  phdrs : ∀ p ∈ e.phdrs, p.offset.toNat + p.filesz.toNat < 2 ^ 64
  sizes : ∀ s ∈ e.shdrs, s.offset.toNat + s.size.toNat < 2 ^ 64
  header : e.ident = true → e.ehdr ≠ none

/-- The Build IDs of a file, in order: the notes of the owner `GNU` and the type
`NT_GNU_BUILD_ID`, 3, that are not empty, in sections of the type `SHT_NOTE`, 7.  Core files
have none of their own. -/
def buildIds (e : Elf) : List (List Byte) :=
  if e.type = 4 then []
  else ((e.shdrs.filter fun s => decide (s.type = 7)).flatMap (·.notes)).filterMap fun n =>
    if n.name = lit "GNU" ∧ n.type = 3 ∧ n.desc ≠ [] then some n.desc else none

/-- The names that a function called by `-pg` and the like can have. -/
def FtraceEntry (s : GSym) : Prop :=
  s.info.toNat % 16 = 2 ∧ ∃ n ∈ ["__cyg_profile_func_enter", "__fentry__", "mcount", "_mcount", "__gnu_mcount_nc"],
    s.name = some (lit n)

/-- The files that can be opened: those with a Build ID and the relocatable ones (`ET_REL`, 1). -/
def Opens (e : Elf) : Prop := Complete e ∧ (buildIds e ≠ [] ∨ e.type = 1)

/-- A file with at most one Build ID and at most one function for ftrace, and with a Build ID
unless it is relocatable or cannot be read anyway. -/
structure Tidy (e : Elf) : Prop where
  builds : (buildIds e).length ≤ 1
  ftrace : ∀ u g v, table e = u ++ g :: v → FtraceEntry g → ∀ x ∈ u, ¬ FtraceEntry x
  build : Complete e → e.type ≠ 1 → buildIds e ≠ []

/-- An open file: its path, what was in it and the handle. -/
structure File where
  path : Path
  elf : Elf
  handle : Res

/-- What a call does to the files that are open, and what it returns. -/
inductive Call : List File → Op → Out → List File → Prop
  | again {F found p f} : found ≠ .absent → f ∈ F → f.path = p → Call F (.opn found p) (.handle (some f.handle)) F
  | fresh {F e p h} : (∀ f ∈ F, f.path ≠ p) → Opens e → (∀ f ∈ F, f.handle ≠ h) →
      Call F (.opn (.elf e) p) (.handle (some h)) (⟨p, e, h⟩ :: F)
  | refused {F found p} : (found ≠ .absent → ∀ f ∈ F, f.path ≠ p) → (∀ e, found = .elf e → ¬ Opens e) →
      Call F (.opn found p) (.handle none) F
  | close {A B f} : Call (A ++ f :: B) (.cls f.path) (.code 0) (A ++ B)
  | noent {F p} : (∀ f ∈ F, f.path ≠ p) → Call F (.cls p) (.code (-2)) F

/-- Calls one after the other. -/
inductive Calls : List File → List Op → List Out → List File → Prop
  | nil {F} : Calls F [] [] F
  | cons {F o r F' os rs F''} : Call F o r F' → Calls F' os rs F'' → Calls F (o :: os) (r :: rs) F''

/-- Calls of a user with files that are not damaged, fewer than 65536, and none of which closes
a file without Build ID. -/
structure Fine (ops : List Op) : Prop where
  sane : ∀ e p, .opn (.elf e) p ∈ ops → Sane e
  few : ops.length < 65536
  build : ∀ p, .cls p ∈ ops → ∀ e, .opn (.elf e) p ∈ ops → buildIds e = [] → ¬ Opens e

end Ulp.ElfSpec
