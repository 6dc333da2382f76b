/-
The symbols of an ELF file, read with libbfd (src/elf/symbol-bfd.c).
-/
import Verif.Model.Sym
import Verif.Model.Str
import Verif.Model.Load
namespace Ulp.Bfd
open Load (lit)
open Rb (St)

/-- The parts of libbfd's `asymbol` that are used, with those of its section. -/
structure ASym where
  name : Option (List Byte)
  /-- `bfd_asymbol_value` -/
  value : BitVec 64
  /-- `BSF_DEBUGGING` -/
  debugging : Bool
  /-- `BSF_SECTION_SYM` -/
  sectionSym : Bool
  /-- `bfd_is_und_section` -/
  und : Bool
  /-- `bfd_is_com_section` -/
  com : Bool
  /-- `SEC_CODE` -/
  code : Bool
  /-- `SEC_DATA` -/
  data : Bool
  /-- `bfd_section_name` -/
  sect : List Byte
deriving DecidableEq

/-- `enum bfd_sym_type` (src/elf/symbol-bfd.c:18-23) -/
inductive Kind where
  | text
  | plt
  | data
deriving DecidableEq

/-- One of `rb_tree_syms` with the `struct bfd_sym` in it (src/elf/symbol-bfd.c:42,
45-55): the nodes, and the name and address stored beside each. -/
structure Tab where
  s : St
  name : Nat → List Byte
  addr : Nat → BitVec 64

/-- `struct bfd_elf_file` (src/elf/symbol-bfd.c:25-43): the three trees. -/
abbrev BFile := Kind → Tab

/-- `rb_init` (src/elf/symbol-bfd.c:362-363) -/
def Tab.init : Tab := ⟨⟨fun _ => none, 0⟩, fun _ => [], fun _ => 0⟩

/-- `__cmp_bfd_sym` (src/elf/symbol-bfd.c:64-70) -/
def cmpSym (t : Tab) (key : List Byte) (n : Nat) : Int := Sym.strcmp (t.name n) key

/-- `alloc_bfd_sym` (src/elf/symbol-bfd.c:72-85): `malloc` returns `p` and does not
fail; `strdup(NULL)` is undefined. -/
def allocBfdSym (t : Tab) (p : Nat) (name : Option (List Byte)) (addr : BitVec 64) : Option Tab :=
  name.bind fun n => some ⟨Rb.upd t.s p ⟨0, false, 0, 0⟩, fun x => if x = p then n else t.name x,
    fun x => if x = p then addr else t.addr x⟩

/-- `find_bfd_sym` (src/elf/symbol-bfd.c:93-102); 0 is NULL. -/
def findBfdSym (t : Tab) (name : List Byte) : Option Nat := Rb.rbSearchNode t.s (cmpSym t name)

/-- `link_bfd_sym` (src/elf/symbol-bfd.c:104-109) -/
def linkBfdSym (t : Tab) (p : Nat) : Option (Tab × Int) :=
  (Rb.rbInsertNode t.s p (cmpSym t (t.name p))).bind fun r =>
    some ({ t with s := r.1 }, if r.2 = 0 then 0 else -1)

/-- `next_bfd_sym` (src/elf/symbol-bfd.c:111-116), and with it
`bfd_next_text_sym` (149-153), `bfd_next_plt_sym` (177-181) and
`bfd_next_data_sym` (220-224) -/
def nextBfdSym (t : Tab) (prev : Nat) : Option Nat :=
  if prev ≠ 0 then Rb.rbNext t.s prev else Rb.rbFirst t.s

/-- `bfd_sym_addr` (src/elf/symbol-bfd.c:118-121) -/
def bfdSymAddr (t : Tab) (p : Nat) : BitVec 64 := if p ≠ 0 then t.addr p else 0

/-- `asymbol_is_text` (src/elf/symbol-bfd.c:132-147), `asymbol_is_plt` (172-175),
`asymbol_is_data` (200-218), for a symbol whose name is `n`. -/
def isKind (s : ASym) (n : List Byte) : Kind → Bool
  | .text => s.code || s.sect = lit ".text"
  | .plt => Str.hasSub (lit "@plt") n
  | .data => s.data || s.sect = lit ".data" || s.sect = lit ".data.rel.ro" || s.sect = lit ".bss"

/-- `bfd_elf_text_sym_addr` (src/elf/symbol-bfd.c:155-166), `bfd_elf_plt_sym_addr`
(183-194), `bfd_elf_data_sym_addr` (226-235), for a file that is not NULL -/
def symAddr (f : BFile) (k : Kind) (name : List Byte) : Option (BitVec 64) :=
  (findBfdSym (f k) name).bind fun p => some (bfdSymAddr (f k) p)

/-- What `slurp_symtab` (src/elf/symbol-bfd.c:241-271) and `slurp_dynamic_symtab`
(273-300) find: no table, a table libbfd fails to read, or the symbols. -/
inductive Slurp where
  | absent
  | bad
  | syms (l : List ASym)

/-- `file->symcount`, `file->dynsymcount` after them: on failure the −1 of libbfd
stays (src/elf/symbol-bfd.c:263-269, 293-297). -/
def Slurp.count : Slurp → Int
  | .absent => 0
  | .bad => -1
  | .syms l => l.length

/-- The array; NULL has nothing. -/
def Slurp.list : Slurp → List ASym
  | .absent => []
  | .bad => []
  | .syms l => l

/-- `asymbol_pure_name` (src/elf/symbol-bfd.c:302-320) with a buffer of `blen`
bytes.  The outer `none`: a write past the end of the buffer; the inner: NULL. -/
def pureName (n : List Byte) (blen : Nat) : Option (Option (List Byte)) :=
  if n.contains 0x40#8 then
    let len := (n.takeWhile (· ≠ 0x40#8)).length
    if len > blen then some none
    else if len < blen then some (some (n.take len))
    else none
  else some (some n)

/-- `is_significant_symbol_name` (src/elf/symbol-bfd.c:322-325) -/
def isSignificant (n : List Byte) : Bool := Str.startswith n (lit ".plt") || Str.startswith n (lit ".got")

/-- The body of the loop of `remove_useless_symbols` (src/elf/symbol-bfd.c:332-345) -/
def keep (s : ASym) : Bool :=
  if s.value = 0 then false
  else
    match s.name with
    | none => false
    | some n =>
      if n = [] then false
      else if (s.debugging || s.sectionSym) && !isSignificant n then false
      else if s.und || s.com then false
      else true

/-- `remove_useless_symbols` (src/elf/symbol-bfd.c:327-348) -/
def removeUseless (l : List ASym) : List ASym := l.filter keep

/-- One of the three blocks of the loop of `file_load`
(src/elf/symbol-bfd.c:414-419, 421-426, 428-433): `p` is what `malloc` returns.
What `link_bfd_sym` returns is not looked at. -/
def addSym (f : BFile) (k : Kind) (p : Nat) (s : ASym) (n : List Byte) (pure : Option (List Byte)) : Option BFile :=
  if isKind s n k then
    (allocBfdSym (f k) p pure s.value).bind fun t => (linkBfdSym t p).bind fun r =>
      some fun j => if j = k then r.1 else f j
  else some f

/-- The body of the loop of `file_load` (src/elf/symbol-bfd.c:408-434) -/
def loadSym (f : BFile) (p : Kind → Nat) (s : ASym) : Option BFile :=
  s.name.bind fun n => (pureName n 256).bind fun pure =>
    (addSym f .plt (p .plt) s n pure).bind fun f => (addSym f .text (p .text) s n pure).bind fun f =>
      addSym f .data (p .data) s n pure

/-- The loop of `file_load` (src/elf/symbol-bfd.c:408-434), from index `i` -/
def loadSyms (mal : Nat → Kind → Nat) (f : BFile) (i : Nat) : List ASym → Option BFile
  | [] => some f
  | s :: l => (loadSym f (mal i) s).bind fun f => loadSyms mal f (i + 1) l

/-- What libbfd makes of a file: `bfd_openr` fails, an archive, no object file, or
an object file with its symbols.  `bfd_get_synthetic_symtab` gives `synth` (none
when it fails). -/
inductive Found where
  | noBfd
  | archive
  | notObject
  | object (symtab dynsym : Slurp) (synth : List ASym)

/-- `file_load` (src/elf/symbol-bfd.c:350-441).  The outer `none` is undefined
behaviour, the inner NULL.  `bfd_check_format(NULL, …)` is undefined.  `mal i k` is
what `malloc` returns for the symbol `i` in the tree `k`; the other `malloc` are not
modelled.  A `memcpy` of −1 pointers from NULL is undefined. -/
def fileLoad (mal : Nat → Kind → Nat) : Found → Option (Option BFile)
  | .noBfd => none
  | .archive => some none
  | .notObject => some none
  | .object symtab dynsym synth =>
    let count := if symtab.count ≠ 0 then symtab.count else dynsym.count
    if count < 0 then none
    else
      let sorted :=
        if count ≠ 0 then removeUseless (if symtab.count ≠ 0 then symtab.list else dynsym.list) else []
      (loadSyms mal (fun _ => Tab.init) 0 (sorted ++ synth)).bind fun f => some (some f)

/-- `bfd_elf_open` (src/elf/symbol-bfd.c:443-451) -/
def bfdElfOpen (mal : Nat → Kind → Nat) (exist : Bool) (found : Found) : Option (Option BFile) :=
  if !exist then some none else fileLoad mal found

/-- `for (s = bfd_next_…(file, NULL); s; s = bfd_next_…(file, s))`
(src/task/symbol.c:313-314, 323-324, 333-334): the symbols in the order they are
visited. -/
def iter (t : Tab) (prev : Nat) (log : List Nat) : Option (List Nat) := do
  let n ← nextBfdSym t prev
  if n = 0 then some log else iter t n (log ++ [n])
  partial_fixpoint

/-- `bfd_elf_close` (src/elf/symbol-bfd.c:464-502), with `__rb_free_bfd_sym` (453-457) and
`free_bfd_sym` (87-91), of a file that is not NULL: the
memory of each tree afterwards and the symbols freed.  The arrays are freed once
each and are not modelled. -/
def bfdElfClose (f : BFile) : Option (Kind → St × List Nat) :=
  (Rb.rbDestroy (f .text).s).bind fun a => (Rb.rbDestroy (f .plt).s).bind fun b =>
    (Rb.rbDestroy (f .data).s).bind fun c => some fun
      | .text => a
      | .plt => b
      | .data => c

/-- `"%02x"` of one byte -/
def hex2 (b : Byte) : List Byte :=
  let d := fun n : Nat => if n < 10 then BitVec.ofNat 8 (0x30 + n) else BitVec.ofNat 8 (0x57 + n)
  [d (b.toNat / 16), d (b.toNat % 16)]

/-- The loop of `bfd_strbid` (src/elf/symbol-bfd.c:520-522) from index `i`: each
`sprintf` writes two digits and a NUL at `buf + 2 i`; `buf[i * 2] = 0` at the end
writes one.  `none`: a write past the `cap` bytes of the buffer. -/
def strbidLoop (cap : Nat) (blen : Int) : Nat → List Byte → Option (List Byte)
  | i, [] => if i * 2 + 1 ≤ cap then some [] else none
  | i, b :: l =>
    if (i * 2 : Int) < blen then
      if i * 2 + 3 ≤ cap then (strbidLoop cap blen (i + 1) l).bind fun r => some (hex2 b ++ r) else none
    else if i * 2 + 1 ≤ cap then some [] else none

/-- `bfd_strbid` (src/elf/symbol-bfd.c:509-525) for a `buf` of `cap` bytes and a
build id of the bytes `bid` (`none`: NULL).  `bid->size * 2 + 1 > blen` compares
unsigned 64-bit numbers. -/
def bfdStrbid (bid : Option (List Byte)) (buf : Bool) (cap : Nat) (blen : BitVec 32) :
    Option (Option (List Byte)) :=
  match bid with
  | none => some none
  | some b =>
    if !buf || decide (BitVec.ofNat 64 (b.length * 2 + 1) > blen.signExtend 64) then some none
    else (strbidLoop cap blen.toInt 0 b).bind fun r => some (some r)

end Ulp.Bfd
