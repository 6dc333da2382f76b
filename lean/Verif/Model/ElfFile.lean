/-
The ELF files of the library (src/elf/open.c, src/elf/section.c, src/elf/symbol.c,
src/elf/note.c): opening and closing them, their symbols and their Build ID.

What libelf says of a file is given (`Elf`).  Simplifications: memory is not exhausted; the
names of notes end with a NUL and notes are shorter than 2 GiB; `handle_phdrs` and `handle_relocs` change nothing of what is
modelled here; nor do the data of the sections that only `get_next_symbol` looks at for the
version of a symbol, which is not kept.
-/
import Verif.Model.Sym
import Verif.Model.BfdSym
namespace Ulp.ElfFile
open Load (lit)
open Rb (St)

/-- `filepath` (src/elf/open.c:43). -/
abbrev Path := List Byte

/-- What the process holds: a descriptor, a handle of libelf, a piece of memory
(src/elf/open.c:53-114). -/
inductive Kind
  | fd | elf | heap
  deriving DecidableEq, Repr

/-- One of them; no C code. -/
structure Res where
  kind : Kind
  id : Nat
  deriving DecidableEq, Repr

/-- `GElf_Sym`, with its name as `elf_strptr` gives it (src/elf/symbol.c:157-174). -/
structure GSym where
  name : Option (List Byte)
  info : BitVec 8
  shndx : BitVec 16
  value : BitVec 64
  size : BitVec 64
  deriving DecidableEq, Repr

/-- `GElf_Phdr`: the fields used here (src/elf/elf-api.h:32-33). -/
structure Phdr where
  type : BitVec 32
  offset : BitVec 64
  vaddr : BitVec 64
  filesz : BitVec 64
  deriving DecidableEq, Repr

/-- A note as `gelf_getnote` gives it (src/elf/note.c:315-319). -/
structure Note where
  name : List Byte
  type : BitVec 32
  desc : List Byte
  deriving DecidableEq, Repr

/-- A section: whether `gelf_getshdr` gives its header, the name `elf_strptr` gives for it, and
its contents read as symbols (`none` if `elf_getdata` fails) and as notes. -/
structure Shdr where
  ok : Bool
  name : Option (List Byte)
  type : BitVec 32
  offset : BitVec 64
  size : BitVec 64
  syms : Option (List GSym)
  notes : List Note
  deriving DecidableEq, Repr

/-- What libelf says of a file: `elf_getident`, `gelf_getehdr` (and `ehdr_ok` of it), `e_type`,
the program headers, `elf_getshdrstrndx` and the sections. -/
structure Elf where
  ident : Bool
  ehdr : Option Bool
  type : BitVec 16
  phdrs : List Phdr
  strndx : Bool
  shdrs : List Shdr
  deriving DecidableEq, Repr

/-- What is at a path: nothing, a file that cannot be opened, one that `elf_begin` refuses, or
one that it takes. -/
inductive Found
  | absent | unreadable | noElf
  | elf (e : Elf)
  deriving DecidableEq, Repr

/-- `enum sym_type` (src/elf/elf-api.h:79-95): the values 1, 2, 3. -/
inductive Class
  | extern | undef | defined
  deriving DecidableEq, Repr

/-- The values of `enum sym_type` (src/elf/elf-api.h:79-95). -/
def Class.val : Class → Nat
  | .extern => 1
  | .undef => 2
  | .defined => 3

/-- `struct symbol` (src/elf/elf-api.h:97-131) with the pieces of memory it is made of. -/
structure Symbol where
  self : Res
  rname : Res
  rphdrs : Option Res
  name : List Byte
  cls : Class
  sym : GSym
  phdrs : List Phdr
  deriving DecidableEq, Repr

/-- The tree `elf->symbols` and the symbols in its nodes; a node has the name of its symbol's
memory. -/
structure Tab where
  s : St
  sym : Nat → Symbol

/-- `elf->build_id`: the constant `NO_BUILD_ID` (src/elf/elf-api.h:24) or a text in memory. -/
inductive Build
  | literal
  | text (r : Res) (t : List Byte)
  deriving DecidableEq, Repr

/-- `struct elf_file` (src/elf/elf-api.h:17-75).  `mcount` is `mcount_name` if `support_ftrace`
is set. -/
structure ElfFile where
  self : Res
  fd : Res
  handle : Res
  ehdr : Res
  phdrs : Res
  shdrs : Res
  shdrnames : Res
  build : Option Build
  path : Path
  elf : Elf
  tab : Tab
  mcount : Option (Res × List Byte)

/-- What the process holds, the next fresh name, `elf_file_list` and `elf_files_number`
(src/elf/open.c:18-20). -/
structure World where
  live : List Res
  next : Nat
  opened : List ElfFile
  number : BitVec 16

/-- How the program can go wrong; no C code. -/
inductive Crash
  /-- a null pointer is used -/
  | null
  /-- memory behind the end of an array is read -/
  | outside
  /-- something is released that is not held -/
  | badFree
  /-- an ELF file is used that was closed -/
  | dangling
  deriving DecidableEq, Repr

/-- Programs; no C code. -/
abbrev M := StateT World (Except Crash)

/-- `malloc`, `strdup`, `open` or `elf_begin` (src/elf/open.c:53-114, src/elf/symbol.c:329,
374-378, 474-487, src/elf/note.c:272). -/
def alloc (k : Kind) : M Res := fun w =>
  .ok (⟨k, w.next⟩, { w with live := ⟨k, w.next⟩ :: w.live, next := w.next + 1 })

/-- `free`, `close` or `elf_end` (src/elf/open.c:175-187, 211-228, src/elf/symbol.c:490,
500-503). -/
def free (r : Res) : M Unit := fun w =>
  if r ∈ w.live then .ok ((), { w with live := w.live.erase r }) else .error .badFree

/-- `if (p) free(p)` (src/elf/symbol.c:500-501). -/
def freeOpt : Option Res → M Unit
  | none => pure ()
  | some r => free r

/-- No C code: a result of the tree, where `none` is a null pointer used. -/
def lift {α : Type} : Option α → M α
  | none => throw .null
  | some a => pure a

/-- `GELF_ST_BIND` (src/elf/symbol.c:134). -/
def stBind (s : GSym) : BitVec 8 := s.info >>> 4

/-- `GELF_ST_TYPE` (src/elf/symbol.c:138, 325, 379). -/
def stType (s : GSym) : BitVec 8 := s.info &&& 0xf

/-- `is_undef_symbol` (src/elf/symbol.c:127-130). -/
def isUndef (s : GSym) : Bool := decide (s.shndx = 0) || decide (0xff00#16 ≤ s.shndx)

/-- `is_extern_symbol` (src/elf/symbol.c:132-139). -/
def isExtern (s : GSym) : Bool :=
  decide (s.shndx = 0) && (decide (stBind s = 1) || decide (stBind s = 2)) && decide (stType s = 0)

/-- The choice of `sym_type` in `alloc_symbol` (src/elf/symbol.c:380-385). -/
def classOf (s : GSym) : Class := if isExtern s then .extern else if isUndef s then .undef else .defined

/-- `___ftrace_entry_funcs` (src/elf/symbol.c:103-109). -/
def ftraceEntries : List (List Byte) :=
  [lit "__cyg_profile_func_enter", lit "__fentry__", lit "mcount", lit "_mcount", lit "__gnu_mcount_nc"]

/-- `is_ftrace_entry` (src/elf/symbol.c:112-125). -/
def isFtraceEntry (n : List Byte) : Bool := ftraceEntries.contains n

/-- `cmp_symbol_name` (src/elf/symbol.c:353-370): `a` is the node, `b` the key. -/
def cmpSymbolName (a b : Class × List Byte) : Int :=
  if a.1 = b.1 then Sym.strcmp a.2 b.2 else if a.1.val > b.1.val then -1 else 1

/-- What `cmp_symbol_name` looks at in a node (src/elf/symbol.c:353-370). -/
def Tab.key (t : Tab) (n : Nat) : Class × List Byte := ((t.sym n).cls, (t.sym n).name)

/-- Memory that holds no symbol; no C code. -/
def noSymbol : Symbol := ⟨⟨.heap, 0⟩, ⟨.heap, 0⟩, none, [], .undef, ⟨none, 0, 0, 0, 0⟩, []⟩

/-- `rb_init` (src/elf/open.c:84). -/
def Tab.init : Tab := ⟨⟨fun _ => none, 0⟩, fun _ => noSymbol⟩

/-- `alloc_symbol` (src/elf/symbol.c:372-390); `strdup(NULL)` is undefined. -/
def allocSymbol (s : GSym) : M Symbol := do
  let self ← alloc .heap
  match s.name with
  | none => throw .null
  | some n =>
    let r ← alloc .heap
    pure ⟨self, r, none, n, classOf s, s, []⟩

/-- `free_symbol` (src/elf/symbol.c:498-504). -/
def freeSymbol (s : Symbol) : M Unit := do
  freeOpt s.rphdrs
  free s.rname
  free s.self

/-- The condition in `link_symbol` (src/elf/symbol.c:478-480): the section lies in the part of
the file that the program header covers. -/
def covers (sh : Shdr) (p : Phdr) : Bool :=
  decide (p.offset ≤ sh.offset) && decide (sh.offset + sh.size ≤ p.offset + p.filesz)

/-- The first part of `link_symbol` (src/elf/symbol.c:463-490): the program headers of the
symbol. -/
def symPhdrs (e : Elf) (s : Symbol) : M Symbol :=
  if isUndef s.sym then pure s
  else
    match e.shdrs[s.sym.shndx.toNat]? with
    | none => throw .outside
    | some sh => do
      let tmp ← alloc .heap
      if e.phdrs.filter (covers sh) = [] then do
        free tmp
        pure s
      else do
        let r ← alloc .heap
        free tmp
        pure { s with rphdrs := some r, phdrs := e.phdrs.filter (covers sh) }

/-- The end of `link_symbol` (src/elf/symbol.c:492-495): −22 is `-EINVAL`. -/
def insertSymbol (t : Tab) (s : Symbol) : M (Tab × Int) := do
  let sym := fun x => if x = s.self.id then s else t.sym x
  let r ← lift (Rb.rbInsertNode (Rb.upd t.s s.self.id ⟨0, false, 0, 0⟩) s.self.id fun n =>
    cmpSymbolName ((sym n).cls, (sym n).name) (s.cls, s.name))
  pure (⟨r.1, sym⟩, if r.2 = 0 then 0 else -22)

/-- The tree when the memory of a symbol is gone (src/elf/symbol.c:503). -/
def Tab.drop (t : Tab) (p : Nat) : Tab := { t with s := { t.s with m := fun x => if x = p then none else t.s.m x } }

/-- `mcount_name` after a symbol was linked (src/elf/symbol.c:325-335); an earlier one is
lost. -/
def ftrace (m : Option (Res × List Byte)) (s : GSym) (n : List Byte) : M (Option (Res × List Byte)) :=
  if stType s = 2 && isFtraceEntry n then do
    let r ← alloc .heap
    pure (some (r, n))
  else pure m

/-- The body of the loop of `handle_symtab` (src/elf/symbol.c:311-335) with `link_symbol`
(src/elf/symbol.c:458-496): a symbol that is already in the tree is freed again. -/
def addSym (e : Elf) (a : Tab × Option (Res × List Byte)) (g : GSym) : M (Tab × Option (Res × List Byte)) := do
  let s ← allocSymbol g
  let s ← symPhdrs e s
  let r ← insertSymbol a.1 s
  if r.2 ≠ 0 then do
    freeSymbol s
    pure (r.1.drop s.self.id, a.2)
  else do
    let m ← ftrace a.2 g s.name
    pure (r.1, m)

/-- The loop of `handle_symtab` (src/elf/symbol.c:305-336) with `get_next_symbol`
(src/elf/symbol.c:141-296). -/
def addSyms (e : Elf) : List GSym → Tab × Option (Res × List Byte) → M (Tab × Option (Res × List Byte))
  | [], a => pure a
  | g :: gs, a => do
    let a ← addSym e a g
    addSyms e gs a

/-- `handle_symtab` (src/elf/symbol.c:298-338) for the section with the number `i`, where 0 is
none (src/elf/section.c:110-114); without data a null pointer is used
(src/elf/symbol.c:145-149). -/
def handleSymtab (e : Elf) (i : Nat) (a : Tab × Option (Res × List Byte)) : M (Tab × Option (Res × List Byte)) :=
  if i = 0 then pure a
  else
    match e.shdrs[i]? with
    | none => throw .outside
    | some sh =>
      match sh.syms with
      | none => throw .null
      | some l => addSyms e l a

/-- `"%02x"` of each byte (src/elf/note.c:281-289). -/
def hexText (d : List Byte) : List Byte := d.flatMap Bfd.hex2

/-- `elf_object_note` (src/elf/note.c:255-301): the last Build ID is kept. -/
def objectNote (b : Option Build) (n : Note) : M (Option Build) :=
  if n.desc.length = 0 ∧ n.type = 1 then pure b
  else if n.name ≠ lit "GNU" then pure b
  else if n.type = 3 ∧ n.desc.length > 0 then do
    let r ← alloc .heap
    pure (some (.text r (hexText n.desc)))
  else pure b

/-- The loop of `handle_notes` (src/elf/note.c:315-349); core files are left out. -/
def handleNotes (e : Elf) : List Note → Option Build → M (Option Build)
  | [], b => pure b
  | n :: ns, b =>
    if e.type = 4 then handleNotes e ns b
    else do
      let b ← objectNote b n
      handleNotes e ns b

/-- `symtab_shdr_idx` and `dynsym_shdr_idx` (src/elf/section.c:49-59). -/
structure Idx where
  symtab : Nat
  dynsym : Nat
  deriving DecidableEq, Repr

/-- The loop of `handle_sections` (src/elf/section.c:23-108) from the section with the number
`i` on: `none` for a section without name. -/
def sections (e : Elf) : List Shdr → Nat → Idx → Option Build → M (Option Idx × Option Build)
  | [], _, x, b => pure (some x, b)
  | sh :: l, i, x, b =>
    match sh.name with
    | none => pure (none, b)
    | some _ =>
      if sh.type = 2 then sections e l (i + 1) { x with symtab := i } b
      else if sh.type = 11 then sections e l (i + 1) { x with dynsym := i } b
      else if sh.type = 7 then do
        let b ← handleNotes e sh.notes b
        sections e l (i + 1) x b
      else sections e l (i + 1) x b

/-- `elf_file_find` (src/elf/open.c:23-41). -/
def elfFileFind (found : Found) (p : Path) (w : World) : Option ElfFile :=
  if found = .absent then none else w.opened.find? fun e => decide (e.path = p)

/-- The label `free_elf` of `elf_file_open` and those below it (src/elf/open.c:181-189). -/
def freeElf (ehdr self handle fd : Res) : M (Option ElfFile) := do
  free ehdr
  free self
  free handle
  free fd
  pure none

/-- `if (elf->build_id) free(elf->build_id)` (src/elf/open.c:177-178,
210-211); freeing a constant is
undefined. -/
def freeBuild : Option Build → M Unit
  | none => pure ()
  | some .literal => throw .badFree
  | some (.text r _) => free r

/-- The label `free_shdrs` of `elf_file_open` and those below it (src/elf/open.c:174-189). -/
def freeShdrs (names shdrs : Res) (b : Option Build) (phdrs ehdr self handle fd : Res) : M (Option ElfFile) := do
  free names
  free shdrs
  freeBuild b
  free phdrs
  freeElf ehdr self handle fd

/-- The end of `elf_file_open` (src/elf/open.c:156-172): a Build ID is needed but for
relocatable files. -/
def checkBuild (f : ElfFile) : M (Option ElfFile) :=
  match f.build with
  | some _ => fun w => .ok (some f, { w with opened := f :: w.opened, number := w.number + 1 })
  | none =>
    if f.elf.type = 1 then fun w =>
      .ok (some { f with build := some .literal },
        { w with opened := { f with build := some .literal } :: w.opened, number := w.number + 1 })
    else freeShdrs f.shdrnames f.shdrs none f.phdrs f.ehdr f.self f.handle f.fd

/-- `elf_file_open` (src/elf/open.c:109-172) from the section headers on. -/
def openSections (p : Path) (e : Elf) (fd handle self ehdr phdrs : Res) : M (Option ElfFile) := do
  let shdrs ← alloc .heap
  let names ← alloc .heap
  if e.strndx = false then freeShdrs names shdrs none phdrs ehdr self handle fd
  else if e.shdrs.all (·.ok) = false then freeShdrs names shdrs none phdrs ehdr self handle fd
  else do
    let r ← sections e e.shdrs 0 ⟨0, 0⟩ none
    match r.1 with
    | none => freeShdrs names shdrs r.2 phdrs ehdr self handle fd
    | some x => do
      let a ← handleSymtab e x.symtab (Tab.init, none)
      let a ← handleSymtab e x.dynsym a
      checkBuild ⟨self, fd, handle, ehdr, phdrs, shdrs, names, r.2, p, e, a.1, a.2⟩

/-- `elf_file_open` (src/elf/open.c:66-107) from `elf_getident` on.  A file without header leads
to the use of a null pointer (src/elf/open.c:90-91). -/
def openElf (p : Path) (e : Elf) (fd handle : Res) : M (Option ElfFile) :=
  if e.ident = false then do
    free handle
    free fd
    pure none
  else do
    let self ← alloc .heap
    let ehdr ← alloc .heap
    match e.ehdr with
    | none => throw .null
    | some false => freeElf ehdr self handle fd
    | some true => do
      let phdrs ← alloc .heap
      openSections p e fd handle self ehdr phdrs

/-- `elf_file_open` (src/elf/open.c:43-190) of a path at which there is `found`. -/
def elfFileOpen (found : Found) (p : Path) : M (Option ElfFile) := do
  let w ← get
  match elfFileFind found p w with
  | some f => pure (some f)
  | none =>
    match found with
    | .absent => pure none
    | .unreadable => pure none
    | .noElf => do
      let fd ← alloc .fd
      free fd
      pure none
    | .elf e => do
      let fd ← alloc .fd
      let handle ← alloc .elf
      openElf p e fd handle

/-- The symbols freed by `rb_destroy(&elf->symbols, rb_free_symbol)` (src/elf/open.c:221,
src/elf/symbol.c:506-510). -/
def freeSymbols (t : Tab) : List Nat → M Unit
  | [] => pure ()
  | n :: ns => do
    freeSymbol (t.sym n)
    freeSymbols t ns

/-- `elf_file_close` (src/elf/open.c:192-231): −2 is `-ENOENT`. -/
def elfFileClose (p : Path) : M Int := do
  let w ← get
  if w.number = 0 then pure (-2)
  else
    match w.opened.find? fun e => decide (e.path = p) with
    | none => pure (-2)
    | some f => do
      freeBuild f.build
      free f.shdrnames
      free f.shdrs
      free f.phdrs
      free f.ehdr
      freeOpt (f.mcount.map (·.1))
      let d ← lift (Rb.rbDestroy f.tab.s)
      freeSymbols f.tab d.2
      free f.fd
      modify fun w => { w with opened := w.opened.eraseP (fun e => decide (e.path = p)), number := w.number - 1 }
      free f.handle
      free f.self
      pure 0

/-- The `struct elf_file` at `h`, as used by src/elf/symbol.c:340-456; it was freed if the file was
closed (src/elf/open.c:228). -/
def deref (h : Res) : M ElfFile := do
  let w ← get
  match w.opened.find? fun e => decide (e.self = h) with
  | none => throw .dangling
  | some f => pure f

/-- `__find_symbol` (src/elf/symbol.c:403-418) with `find_symbol`, `find_extern_symbol` and
`find_undef_symbol` (src/elf/symbol.c:420-435): the type asked for is not looked at. -/
def findSymbol (h : Res) (c : Class) (name : List Byte) (_type : Nat) : M (Option Symbol) := do
  let f ← deref h
  let n ← lift (Rb.rbSearchNode f.tab.s fun n => cmpSymbolName (f.tab.key n) (c, name))
  if n = 0 then pure none else pure (some (f.tab.sym n))

/-- The loop of `for_each_symbol` (src/elf/symbol.c:449-454) from the node `n` on: the nodes
given to the handler. -/
def forEachLoop (s : St) (n : Nat) (log : List Nat) : Option (List Nat) :=
  if n = 0 then some log
  else do
    let m ← Rb.rbNext s n
    forEachLoop s m (log ++ [n])
  partial_fixpoint

/-- `for_each_symbol` (src/elf/symbol.c:437-456): the symbols given to the handler. -/
def forEachSymbol (h : Res) : M (List Symbol) := do
  let f ← deref h
  let n ← lift (Rb.rbFirst f.tab.s)
  let l ← lift (forEachLoop f.tab.s n [])
  pure (l.map f.tab.sym)

/-- `elf->build_id` (src/elf/elf-api.h:25-26). -/
def buildId (h : Res) : M (List Byte) := do
  let f ← deref h
  match f.build with
  | none => throw .null
  | some .literal => pure (lit "No Build ID")
  | some (.text _ t) => pure t

/-- `elf_support_ftrace` (src/elf/symbol.c:340-343). -/
def supportFtrace (h : Res) : M Bool := do
  let f ← deref h
  pure f.mcount.isSome

/-- `elf_mcount_name` (src/elf/symbol.c:345-350). -/
def mcountName (h : Res) : M (Option (List Byte)) := do
  let f ← deref h
  pure (f.mcount.map (·.2))

/-- A call of a user of the library: `elf_file_open` of a path at which there is something, or
`elf_file_close` (src/elf/open.c:43-231). -/
inductive Op
  | opn (found : Found) (p : Path)
  | cls (p : Path)
  deriving DecidableEq, Repr

/-- What a call returns: the address of the `struct elf_file`, or a number
(src/elf/open.c:43-231). -/
inductive Out
  | handle (h : Option Res)
  | code (n : Int)
  deriving DecidableEq, Repr

/-- A call (src/elf/open.c:43-231). -/
def step : Op → M Out
  | .opn found p => do
    let r ← elfFileOpen found p
    pure (.handle (r.map (·.self)))
  | .cls p => do
    let n ← elfFileClose p
    pure (.code n)

/-- Calls one after the other (src/elf/open.c:43-231). -/
def run : List Op → M (List Out)
  | [] => pure []
  | o :: os => do
    let r ← step o
    let rs ← run os
    pure (r :: rs)

/-- Before the first call: no file is open (src/elf/open.c:17-18). -/
def World.start : World := ⟨[], 1, [], 0⟩

end Ulp.ElfFile
