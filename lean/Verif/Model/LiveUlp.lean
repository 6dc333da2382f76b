/-
Reading the live patches of a process back out of its memory (src/task/patch.c and
`load_ulp_info_from_vma` in src/patch/patch.c) and showing them (`ulpinfo --pid`,
src/ulpinfo.c).  Pointers into the copy of a mapping are offsets from its start.

Simplifications: `malloc` does not fail, transfers are shorter than 2 GiB (the result of
`pread` is kept in an `int`), and what is printed is not formatted.
-/
import Verif.Model.LoadBytes
namespace Ulp.Live
open Load LoadBytes

/-- How reading or showing a patch can go wrong: a null pointer is used, memory that was
never initialised is used as a pointer, or something outside of the copy is read. -/
inductive Bad
  | null
  | garbage
  | outside
  deriving DecidableEq, Repr

/-- `EAGAIN` of `errno.h` (src/task/patch.c:60, 103). -/
def EAGAIN : Int := -11

/-- The fields of `struct vma_ulp` (src/task/patch.h:13-32) that
`load_ulp_info_from_vma` fills in. -/
structure Data where
  src : BitVec 64
  dst : BitVec 64
  author : BitVec 64
  license : BitVec 64
  info : ULPInfo
  buildId : List Byte
  deriving DecidableEq, Repr

/-- `struct vma_ulp` (src/task/patch.h:13-32): where the mapping starts, the copy of it and
the rest; `data` is `none` as long as it is what `malloc` left there. -/
structure Ulp where
  start : Addr
  mem : Image
  data : Option Data
  deriving DecidableEq, Repr

/-- The part of `struct task_struct` (src/task/task.h:35-72) that concerns patches: the list
and the largest number (src/task/patch.h:34-38), and the symbols handed to `link_task_sym`,
in this order. -/
structure Task where
  ulps : List Ulp
  maxId : BitVec 32
  syms : List (List Byte × BitVec 64)
  deriving DecidableEq, Repr

/-- `memcpy_from_task` (src/task/memcpy.c:65-78): the bytes that `pread` delivered, `none`
for -1. -/
abbrev Pread := Addr → Nat → Option (List Byte)

/-- `info->ulp_info` when `setup_load_info` gives up (src/patch/patch.c:445-459): set as soon
as the section of the record was found. -/
def infoPtr (img : Image) : Option (Option (BitVec 64)) :=
  match shstrndx img with
  | none => none
  | some x =>
    match shdrAt img x with
    | none => none
    | some s =>
      match findSec img s.offset (lit ".ulpatch.info") with
      | none => none
      | some i =>
        if i = 0 then some none
        else
          match shdrAt img i with
          | none => none
          | some s => some (some s.offset)

/-- `is_undef_symbol` (src/elf/symbol.c:125-128). -/
def isUndef (s : ESym) : Bool := decide (s.shndx = 0) || decide (0xff00 ≤ s.shndx)

/-- The loop of `load_ulp_info_from_vma` (src/patch/patch.c:278-296) over the `n` entries of
the symbol table from number `i` on: the symbols recorded. -/
def symLoop (img : Image) (base strtab : BitVec 64) : Nat → Nat → Option (List (List Byte × BitVec 64))
  | 0, _ => some []
  | n + 1, i =>
    match symAt img (base + BitVec.ofNat 64 (24 * i)) with
    | none => none
    | some s =>
      if isUndef s then symLoop img base strtab n (i + 1)
      else
        match cstr img (strtab + BitVec.ofNat 64 s.name) with
        | none => none
        | some name =>
          match symLoop img base strtab n (i + 1) with
          | none => none
          | some l => some ((name, s.value) :: l)

/-- What `load_ulp_info_from_vma` leaves: the filled in fields (if it got that far), the
symbols recorded and `info->ulp_info`. -/
structure Read where
  data : Option Data
  syms : List (List Byte × BitVec 64)
  ptr : Option (BitVec 64)
  deriving DecidableEq, Repr

/-- `load_ulp_info_from_vma` (src/patch/patch.c:248-304) for a copy `img` of the mapping at
`th`.  `strdup(info->str_build_id)` is undefined without a Build ID. -/
def loadUlpInfo (th : Addr) (img : Image) : Except Bad Read :=
  match chkLen img with
  | none => .error .outside
  | some false => .ok ⟨none, [], none⟩
  | some true =>
    match setupLoadInfo img with
    | none => .error .outside
    | some (.error _) =>
      match infoPtr img with
      | none => .error .outside
      | some p => .ok ⟨none, [], p⟩
    | some (.ok i) =>
      match shdrAt img i.symIdx with
      | none => .error .outside
      | some ss =>
        match symLoop img (ss.addr - th) i.strtab (ss.size.toNat / 24) 0 with
        | none => .error .outside
        | some syms =>
          match readInfo img i.ulpInfo, i.buildId with
          | none, _ => .error .outside
          | some _, none => .error .null
          | some r, some b => .ok ⟨some ⟨i.srcFunc, i.dstFunc, i.author, i.license, r, b⟩, syms, some i.ulpInfo⟩

/-- The end of `vma_load_ulp` (src/task/patch.c:116-122): the largest number. -/
def finish (start : Addr) (img : Image) (r : Read) (t : Task) : Except Bad (Task × Int) :=
  match r.ptr with
  | none => .error .null
  | some p =>
    match rd img p 4 with
    | none => .error .outside
    | some id =>
      .ok ({ ulps := t.ulps ++ [⟨start, img, r.data⟩]
             maxId := if t.maxId < BitVec.ofNat 32 id then BitVec.ofNat 32 id else t.maxId
             syms := t.syms ++ r.syms }, 0)

/-- `vma_load_ulp` (src/task/patch.c:87-122) with `alloc_ulp` (src/task/patch.c:29-65) for the
mapping from `start` to `stop`.  When `alloc_ulp` cannot read everything, `free_ulp`
(src/task/patch.c:67-85) takes a node out of a list that it was never put into. -/
def vmaLoadUlp (read : Pread) (start stop : Addr) (t : Task) : Except Bad (Task × Int) :=
  match read start 64 with
  | none => .ok (t, EAGAIN)
  | some e =>
    if e.length < 64 then .ok (t, EAGAIN)
    else
      match magicOk e with
      | none => .error .outside
      | some false => .ok (t, ENOENT)
      | some true =>
        match read start (stop - start).toNat with
        | none => .error .garbage
        | some img =>
          if img.length < (stop - start).toNat then .error .garbage
          else
            match loadUlpInfo start img with
            | .error b => .error b
            | .ok r => finish start img r t

/-- `vma_peek_elf_hdrs` for every mapping of a patch, in this order (src/task/core.c:139-140,
518-524; its result is not used). -/
def loadAll (read : Pread) : List (Addr × Addr) → Task → Except Bad Task
  | [], t => .ok t
  | m :: ms, t =>
    match vmaLoadUlp read m.1 m.2 t with
    | .error b => .error b
    | .ok r => loadAll read ms r.1

/-- What `ulpinfo --pid` prints about a patch (src/ulpinfo.c:165-187); the last four are
printed with `-v` only. -/
structure Line where
  num : Nat
  id : BitVec 32
  time : BitVec 64
  start : Addr
  dst : List Byte
  more : Option (List Byte × List Byte × List Byte × ULPInfo × List Byte)
  deriving DecidableEq, Repr

/-- The body of the loop of `show_task_patch_info` (src/ulpinfo.c:165-187) with
`print_ulp_strtab`, `print_ulp_author` and `print_ulp_license` (src/patch/patch.c:28-47): the
source function, author and license are read with `-v` only. -/
def showUlp (verbose : Bool) (num : Nat) (u : Ulp) : Except Bad Line :=
  match u.data with
  | none => .error .garbage
  | some d =>
    match cstr u.mem d.dst with
    | none => .error .outside
    | some dst =>
      if verbose then
        match cstr u.mem d.src, cstr u.mem d.author, cstr u.mem d.license with
        | some s, some a, some l =>
          .ok ⟨num, d.info.ulpId, d.info.time, u.start, dst, some (s, a, l, d.info, d.buildId)⟩
        | _, _, _ => .error .outside
      else .ok ⟨num, d.info.ulpId, d.info.time, u.start, dst, none⟩

/-- `show_task_patch_info` (src/ulpinfo.c:134-192) after the process was opened: the numbers
start with 1. -/
def showTask (verbose : Bool) : Nat → List Ulp → Except Bad (List Line)
  | _, [] => .ok []
  | n, u :: us =>
    match showUlp verbose n u with
    | .error b => .error b
    | .ok l =>
      match showTask verbose (n + 1) us with
      | .error b => .error b
      | .ok ls => .ok (l :: ls)

end Ulp.Live
