/-
Parsing and preparing a patch image (src/patch/patch.c:177-857,
src/elf/note.c:229-245).

The image is the byte list that `alloc_patch_file` mapped; all pointers into it
are kept as 64-bit offsets from `info->hdr`.  A read of a byte that is not in
the image is undefined behaviour in C and is the outcome `none` here.
-/
import Verif.Model.Mem
namespace Ulp.Load

abbrev Image := List Byte

def EEXIST : Int := -17
def EINVAL : Int := -22
def ENOENT : Int := -2
def ENOEXEC : Int := -8
def EFAULT : Int := -14
def ENOMEM : Int := -12

/-- Bytes of a C string literal, without the terminating NUL. -/
def lit (s : String) : List Byte := s.toList.map fun c => BitVec.ofNat 8 c.toNat

/-- An `n`-byte little-endian load at `hdr + off`. -/
def rd (img : Image) (off : BitVec 64) (n : Nat) : Option Nat :=
  if off.toNat + n ≤ img.length then some (leNat ((img.drop off.toNat).take n)) else none

/-- `Elf64_Shdr` (`elf.h`), without `sh_addralign` and `sh_entsize`, which the
patch code never looks at. -/
structure Shdr where
  name : Nat
  type : Nat
  flags : BitVec 64
  addr : BitVec 64
  offset : BitVec 64
  size : BitVec 64
  link : Nat
  info : Nat
  deriving DecidableEq, Repr

def SHT_SYMTAB : Nat := 2
def SHT_RELA : Nat := 4
def SHT_NOTE : Nat := 7
def SHT_NOBITS : Nat := 8
def SHT_REL : Nat := 9
def NT_GNU_BUILD_ID : Nat := 3
def SHF_ALLOC : BitVec 64 := 2
/-- src/patch/patch.c:23-25 -/
def SHF_RELA_LIVEPATCH : BitVec 64 := 0x00100000

/-- `info->hdr->e_shnum` (offset 60 of `Elf64_Ehdr`). -/
def shnum (img : Image) : Option Nat := rd img 60 2
/-- `info->hdr->e_shoff` (offset 40 of `Elf64_Ehdr`). -/
def shoff (img : Image) : Option Nat := rd img 40 8
/-- `info->hdr->e_shstrndx` (offset 62 of `Elf64_Ehdr`). -/
def shstrndx (img : Image) : Option Nat := rd img 62 2

/-- `info->sechdrs[i]` with `sechdrs = hdr + e_shoff` (src/patch/patch.c:445).
Simplification: looking at one field counts as looking at the whole header. -/
def shdrAt (img : Image) (i : Nat) : Option Shdr :=
  match shoff img with
  | none => none
  | some o =>
    let b : BitVec 64 := BitVec.ofNat 64 o + BitVec.ofNat 64 (64 * i)
    if b.toNat + 64 ≤ img.length then
      match rd img b 4, rd img (b + 4) 4, rd img (b + 8) 8, rd img (b + 16) 8,
        rd img (b + 24) 8, rd img (b + 32) 8, rd img (b + 40) 4, rd img (b + 44) 4 with
      | some n, some t, some f, some a, some of, some sz, some l, some inf =>
        some ⟨n, t, BitVec.ofNat 64 f, BitVec.ofNat 64 a, BitVec.ofNat 64 of, BitVec.ofNat 64 sz,
          l, inf⟩
      | _, _, _, _, _, _, _, _ => none
    else none

/-- `strcmp(hdr + off, s) == 0` for a literal `s`: reads up to the first
difference. -/
def strEq (img : Image) (off : BitVec 64) : List Byte → Option Bool
  | [] =>
    match rd img off 1 with
    | none => none
    | some b => some (decide (b = 0))
  | c :: cs =>
    match rd img off 1 with
    | none => none
    | some b => if b = c.toNat then strEq img (off + 1) cs else some false

/-- The loop of `find_sec` (src/patch/patch.c:386-392) from index `i` with
`fuel` sections left. -/
def findSecFrom (img : Image) (strs : BitVec 64) (name : List Byte) : Nat → Nat → Option Nat
  | _, 0 => some 0
  | i, fuel + 1 =>
    match shdrAt img i with
    | none => none
    | some s =>
      match strEq img (strs + BitVec.ofNat 64 s.name) name with
      | none => none
      | some true => some i
      | some false => findSecFrom img strs name (i + 1) fuel

/-- `find_sec` (src/patch/patch.c:382-394); 0 means not found. -/
def findSec (img : Image) (strs : BitVec 64) (name : List Byte) : Option Nat :=
  match shnum img with
  | none => none
  | some n => findSecFrom img strs name 0 n

/-- Number of bytes up to and including the first NUL. -/
def afterNul : List Byte → Option Nat
  | [] => none
  | b :: bs => if b = 0 then some 1 else (afterNul bs).map (· + 1)

/-- `while (*(p++));` (src/patch/patch.c:407, 410). -/
def skipStr (img : Image) (p : BitVec 64) : Option (BitVec 64) :=
  (afterNul (img.drop p.toNat)).map fun k => p + BitVec.ofNat 64 k

/-- `parse_ulpatch_strtab` (src/patch/patch.c:396-414): where the names of the
patch function and the target function start. -/
def parseStrtab (img : Image) (p : BitVec 64) : Option (Except Int (BitVec 64 × BitVec 64)) :=
  match strEq img p (lit ".ULPATCH") with
  | none => none
  | some false => some (.error ENOENT)
  | some true =>
    match skipStr img p with
    | none => none
    | some src =>
      match skipStr img src with
      | none => none
      | some dst => some (.ok (src, dst))

/-- One hexadecimal digit of `%02x`. -/
def hexDigit (n : Nat) : Byte := if n < 10 then BitVec.ofNat 8 (48 + n) else BitVec.ofNat 8 (87 + n)

/-- The two characters `snprintf(p_buf, 3, "%02x", b)` writes
(src/elf/note.c:240). -/
def hex2 (b : Byte) : List Byte := [hexDigit (b.toNat / 16), hexDigit (b.toNat % 16)]

/-- `elf_strbuildid` (src/elf/note.c:229-245): the characters before the NUL, or
a refusal. -/
def elfStrbuildid (bid : List Byte) (bufLen : Nat) : Option (List Byte) :=
  if bufLen < bid.length * 2 + 1 then none else some (bid.flatMap hex2)

/-- What `setup_load_info` fills in (src/patch/patch.h:30-69); pointers are
offsets from `hdr`. -/
structure Info where
  secstrings : BitVec 64
  infoIdx : Nat
  ulpInfo : BitVec 64
  strtabIdx : Nat
  authorIdx : Nat
  licenseIdx : Nat
  buildIdIdx : Nat
  buildId : Option (List Byte)
  srcFunc : BitVec 64
  dstFunc : BitVec 64
  author : BitVec 64
  license : BitVec 64
  symIdx : Nat
  strIdx : Nat
  strtab : BitVec 64
  deriving DecidableEq, Repr

/-- The `switch (nhdr->n_type)` (src/patch/patch.c:507-525) for the note at `n`.
`n_descsz * 2 + 1` is computed in 32 bits; if it wraps, `elf_strbuildid` refuses
and the text is read uninitialised, which is the outcome `none`. -/
def buildIdText (img : Image) (n : BitVec 64) : Option (Option (List Byte)) :=
  match rd img n 4, rd img (n + 4) 4, rd img (n + 8) 4 with
  | some namesz, some descsz, some type =>
    if type = NT_GNU_BUILD_ID then
      let bid := n + 12 + BitVec.ofNat 64 namesz
      match elfStrbuildid ((img.drop bid.toNat).take descsz) ((descsz * 2 + 1) % 2 ^ 32) with
      | none => none
      | some t => if bid.toNat + descsz ≤ img.length then some (some t) else none
    else some none
  | _, _, _ => none

/-- The loop over the symbol tables (src/patch/patch.c:548-558): index, `sh_link`
and string table of the first `SHT_SYMTAB` section from index `i`. -/
def findSymtab (img : Image) : Nat → Nat → Option (Option (Nat × Nat × BitVec 64))
  | _, 0 => some none
  | i, fuel + 1 =>
    match shdrAt img i with
    | none => none
    | some s =>
      if s.type = SHT_SYMTAB then
        match shdrAt img s.link with
        | none => none
        | some t => some (some (i, s.link, t.offset))
      else findSymtab img (i + 1) fuel

/-- `setup_load_info` (src/patch/patch.c:435-570).  Simplification: the debug
dump of the string table (line 555) is in `LoadLog.loadLog`. -/
def setupLoadInfo (img : Image) : Option (Except Int Info) := do
  let strndx ← shstrndx img
  let strs := (← shdrAt img strndx).offset
  let ii ← findSec img strs (lit ".ulpatch.info")
  if ii = 0 then return .error EEXIST
  let ulpInfo := (← shdrAt img ii).offset
  let version ← rd img (ulpInfo + 56) 4
  if version ≠ 5 then return .error EINVAL
  let si ← findSec img strs (lit ".ulpatch.strtab")
  if si = 0 then return .error EEXIST
  let ulpStrtab := (← shdrAt img si).offset
  let ai ← findSec img strs (lit ".ulpatch.author")
  if ai = 0 then return .error EEXIST
  let author := (← shdrAt img ai).offset
  let li ← findSec img strs (lit ".ulpatch.license")
  if li = 0 then return .error EEXIST
  let license := (← shdrAt img li).offset
  let bi ← findSec img strs (lit ".note.gnu.build-id")
  if bi = 0 then return .error EEXIST
  let bsh ← shdrAt img bi
  if bsh.type ≠ SHT_NOTE then return .error EEXIST
  let text ← buildIdText img bsh.offset
  match ← parseStrtab img ulpStrtab with
  | .error _ => return .error ENOENT
  | .ok p =>
    let n ← shnum img
    match ← findSymtab img 1 (n - 1) with
    | none => return .error ENOEXEC
    | some st =>
      return .ok
        { secstrings := strs, infoIdx := ii, ulpInfo := ulpInfo, strtabIdx := si
          authorIdx := ai, licenseIdx := li, buildIdIdx := bi, buildId := text, srcFunc := p.1
          dstFunc := p.2, author := author, license := license, symIdx := st.1, strIdx := st.2.1
          strtab := st.2.2 }

/-- `ehdr_magic_ok` (src/elf/ehdr.c:14-24). -/
def magicOk (img : Image) : Option Bool :=
  match rd img 0 1, rd img 1 1, rd img 2 1, rd img 3 1 with
  | some a, some b, some c, some d =>
    some (decide (a = 0x7f) && decide (b = 0x45) && decide (c = 0x4c) && decide (d = 0x46))
  | _, _, _, _ => none

/-- `__chk_load_info_len` (src/patch/patch.c:177-186), true when it returns 0.
`e_shnum * sizeof(GElf_Shdr)` and `len - e_shoff` do not wrap here: the first
test has already excluded `e_shoff >= len`. -/
def chkLen (img : Image) : Option Bool :=
  match shoff img, shnum img with
  | some o, some n =>
    if o ≥ img.length then some false
    else some (decide ¬ n * 64 > img.length - o)
  | _, _ => none

/-- What the environment decides about `alloc_patch_file`'s file operations. -/
structure FileEnv where
  /-- `fexist(obj_from)` -/
  exist : Bool
  /-- `fmmap_shmem_create` succeeds -/
  mmap : Bool
  /-- `fmemcpy` copies everything -/
  copy : Bool

/-- `alloc_patch_file` (src/patch/patch.c:189-243) on a file with contents `file`:
the return value, and the image `info->hdr` points to if it is still mapped
(`release_load_info` unmaps it).  Lines 234-235 take the error exit with
`err == 0`.  Simplification: the file is smaller than 2 GiB (`fsize` is `int`)
and does not change between the size check and the copy. -/
def allocPatchFile (e : FileEnv) (file : Image) : Option (Int × Option Image) :=
  if e.exist = false then some (EEXIST, none)
  else if file.length < 64 then some (ENOEXEC, none)
  else if e.mmap = false then some (ENOMEM, none)
  else if e.copy = false then some (EFAULT, none)
  else
    match magicOk file with
    | none => none
    | some false => some (ENOENT, none)
    | some true =>
      match chkLen file with
      | none => none
      | some false => some (0, none)
      | some true => some (0, some file)

/-- `info->sechdrs` as a whole: all `e_shnum` headers. -/
def sechdrs (img : Image) : Option (List Shdr) :=
  match shnum img with
  | none => none
  | some n => (List.range n).mapM (shdrAt img)

/-- The loop body of `rewrite_section_headers` (src/patch/patch.c:580-605) for one
section; `len` is `info->len`, the sum wraps at 64 bits as in C. -/
def rewriteOne (img : Image) (strs targetHdr : BitVec 64) (s : Shdr) : Option (Except Int Shdr) :=
  if s.type ≠ SHT_NOBITS ∧ BitVec.ofNat 64 img.length < s.offset + s.size then some (.error ENOEXEC)
  else
    match (if s.type = SHT_NOBITS then some true
      else strEq img (strs + BitVec.ofNat 64 s.name) (lit ".bss")) with
    | none => none
    | some bss =>
      if bss = true ∧ 0 < s.size then some (.error EFAULT)
      else some (.ok { s with addr := targetHdr + s.offset })

/-- The loop of `rewrite_section_headers` over the sections from index 1 on. -/
def rewriteLoop (img : Image) (strs targetHdr : BitVec 64) :
    List Shdr → Option (Except Int (List Shdr))
  | [] => some (.ok [])
  | s :: ss =>
    match rewriteOne img strs targetHdr s with
    | none => none
    | some (.error e) => some (.error e)
    | some (.ok s') =>
      match rewriteLoop img strs targetHdr ss with
      | none => none
      | some (.error e) => some (.error e)
      | some (.ok ss') => some (.ok (s' :: ss'))

/-- `rewrite_section_headers` (src/patch/patch.c:572-614).  `infoIdx` is
`info->index.info`, valid since `find_sec` returned it. -/
def rewriteSectionHeaders (img : Image) (strs targetHdr : BitVec 64) (infoIdx : Nat) :
    List Shdr → Option (Except Int (List Shdr))
  | [] => none
  | s :: ss =>
    match rewriteLoop img strs targetHdr ss with
    | none => none
    | some (.error e) => some (.error e)
    | some (.ok ss') =>
      some (.ok (({ s with addr := 0 } :: ss').modify infoIdx fun t =>
        { t with flags := t.flags &&& ~~~SHF_ALLOC ||| SHF_RELA_LIVEPATCH }))

/-- A symbol as `simplify_symbols` sees it: its name, binding and type nibbles
of `st_info`, `st_shndx` and `st_value`. -/
structure PSym where
  name : List Byte
  bind : Nat
  type : Nat
  shndx : Nat
  value : BitVec 64
  deriving DecidableEq, Repr

def SHN_COMMON : Nat := 0xfff2
def SHN_ABS : Nat := 0xfff1
def SHN_UNDEF : Nat := 0
def STB_WEAK : Nat := 2

/-- One iteration of `simplify_symbols` (src/patch/patch.c:702-752).  `resolve` is
`resolve_symbol` in the target (0 = not found), `ret` the value so far. -/
def simplifyOne (secs : List Shdr) (resolve : List Byte → BitVec 64) (ret : Int) (s : PSym) :
    Option (PSym × Int) :=
  if s.shndx = SHN_COMMON then
    if (lit "__gnu_lto").isPrefixOf s.name then some (s, ret) else some (s, ENOEXEC)
  else if s.shndx = SHN_ABS then some (s, ret)
  else if s.shndx = SHN_UNDEF then
    let addr := resolve s.name
    if addr = 0 then
      if s.bind = STB_WEAK then some (s, ret) else some (s, ENOENT)
    else some ({ s with value := addr }, 0)
  else
    match secs[s.shndx]? with
    | none => none
    | some h => some ({ s with value := s.value + h.addr }, ret)

/-- The loop of `simplify_symbols`. -/
def simplifyLoop (secs : List Shdr) (resolve : List Byte → BitVec 64) :
    Int → List PSym → Option (List PSym × Int)
  | ret, [] => some ([], ret)
  | ret, s :: ss =>
    match simplifyOne secs resolve ret s with
    | none => none
    | some (s', ret') =>
      match simplifyLoop secs resolve ret' ss with
      | none => none
      | some (ss', r) => some (s' :: ss', r)

/-- `simplify_symbols` (src/patch/patch.c:687-756): the symbol at index 0 is
skipped.  Simplification: the symbol table and the names are decoded; a table
without even the null symbol is left alone. -/
def simplifySymbols (secs : List Shdr) (resolve : List Byte → BitVec 64) :
    List PSym → Option (List PSym × Int)
  | [] => some ([], 0)
  | s :: ss =>
    match simplifyLoop secs resolve 0 ss with
    | none => none
    | some (ss', r) => some (s :: ss', r)

/-- The loop of `apply_relocations` (src/patch/patch.c:770-795) over the sections
from index `i` on; `arch i st` is `arch_apply_relocate_add` for section `i`. -/
def applyRelocLoop {σ : Type} (arch : Nat → σ → Option (σ × Int)) (secs : List Shdr) :
    Nat → List Shdr → Int → σ → Option (σ × Int)
  | _, [], err, st => some (st, err)
  | i, s :: ss, err, st =>
    match secs[s.info]? with
    | none => applyRelocLoop arch secs (i + 1) ss err st
    | some t =>
      if t.flags &&& SHF_ALLOC = 0 then applyRelocLoop arch secs (i + 1) ss err st
      else if s.type = SHT_REL then some (st, ENOEXEC)
      else
        match (if s.type = SHT_RELA then arch i st else some (st, err)) with
        | none => none
        | some (st', err') =>
          if err' < 0 then some (st', err') else applyRelocLoop arch secs (i + 1) ss err' st'

/-- `apply_relocations` (src/patch/patch.c:765-798). -/
def applyRelocations {σ : Type} (arch : Nat → σ → Option (σ × Int)) (secs : List Shdr) (st : σ) :
    Option (σ × Int) :=
  applyRelocLoop arch secs 0 secs 0 st

/-- `struct ulpatch_info` (src/patch/meta.h:112-132). -/
structure ULPInfo where
  ulpId : BitVec 32
  target : BitVec 64
  patch : BitVec 64
  virtual : BitVec 64
  orig0 : BitVec 64
  orig1 : BitVec 64
  time : BitVec 64
  flags : BitVec 32
  version : BitVec 32
  pad : BitVec 32
  deriving DecidableEq, Repr

/-- The object representation of the packed record. -/
def ULPInfo.bytes (r : ULPInfo) : List Byte :=
  leBytes 4 (r.ulpId.setWidth 64) ++ leBytes 8 r.target ++ leBytes 8 r.patch ++ leBytes 8 r.virtual
    ++ leBytes 8 r.orig0 ++ leBytes 8 r.orig1 ++ leBytes 8 r.time
    ++ leBytes 4 (r.flags.setWidth 64) ++ leBytes 4 (r.version.setWidth 64)
    ++ leBytes 4 (r.pad.setWidth 64)

/-- Reading the record at offset `p`, as `load_ulp_info_from_vma` does
(src/patch/patch.c:295, a structure copy). -/
def readInfo (img : Image) (p : BitVec 64) : Option ULPInfo :=
  match rd img p 4, rd img (p + 4) 8, rd img (p + 12) 8, rd img (p + 20) 8, rd img (p + 28) 8,
    rd img (p + 36) 8, rd img (p + 44) 8, rd img (p + 52) 4, rd img (p + 56) 4, rd img (p + 60) 4 with
  | some a, some b, some c, some d, some e, some f, some g, some h, some i, some j =>
    some ⟨BitVec.ofNat 32 a, BitVec.ofNat 64 b, BitVec.ofNat 64 c, BitVec.ofNat 64 d,
      BitVec.ofNat 64 e, BitVec.ofNat 64 f, BitVec.ofNat 64 g, BitVec.ofNat 32 h,
      BitVec.ofNat 32 i, BitVec.ofNat 32 j⟩
  | _, _, _, _, _, _, _, _, _, _ => none

/-- The image with `bs` stored at offset `p` (stores through `info->ulp_info`). -/
def store (img : Image) (p : Nat) (bs : List Byte) : Image :=
  img.take p ++ bs ++ img.drop (p + bs.length)

/-- What the macro `ULPATCH_INFO(src, dst)` emits into `.ulpatch.strtab`
(src/patch/meta.h:41-46). -/
def macroStrtab (src dst : List Byte) : List Byte :=
  lit ".ULPATCH" ++ [0] ++ src ++ [0] ++ dst ++ [0]

/-- What the macro emits into `.ulpatch.info` (src/patch/meta.h:47-59). -/
def macroInfo : List Byte :=
  leBytes 4 0 ++ leBytes 8 0 ++ leBytes 8 0 ++ leBytes 8 0 ++ leBytes 8 0 ++ leBytes 8 0
    ++ leBytes 8 0 ++ leBytes 4 0 ++ leBytes 4 5 ++ [0x11, 0x22, 0x33, 0x44]

/-- The loop of `solve_patch_symbols` (src/patch/patch.c:829-837): the last symbol
called `src`. -/
def lastNamed (src : List Byte) : List PSym → Option PSym → Option PSym
  | [], acc => acc
  | s :: ss, acc => lastNamed src ss (if s.name = src then some s else acc)

/-- `solve_patch_symbols` (src/patch/patch.c:807-857): the new record and the new
`max_id`.  `find` is `find_task_sym` in the target. -/
def solvePatchSymbols (find : List Byte → Option (BitVec 64)) (src dst : List Byte)
    (syms : List PSym) (now : BitVec 64) (maxId : BitVec 32) (r : ULPInfo) :
    Except Int (ULPInfo × BitVec 32) :=
  match find dst with
  | none => .error ENOENT
  | some taddr =>
    match lastNamed src syms none with
    | none => .error ENOENT
    | some s =>
      .ok ({ r with ulpId := maxId + 1, target := taddr, patch := s.value, virtual := taddr
                    time := now }, maxId + 1)

end Ulp.Load
