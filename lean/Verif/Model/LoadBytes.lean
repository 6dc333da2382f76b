/-
`load_patch` up to the point where the target is touched, on the bytes of the
image (src/patch/patch.c:572-857 and both `arch_apply_relocate_add`).

`Load` and `X86Reloc` describe the same steps on decoded tables; here every step
reads the tables from the image as the steps before left it, and stores into it.
Pointers into the image are 64-bit offsets from `info->hdr`; a load or store
outside the image is undefined behaviour, the outcome `none`.
-/
import Verif.Model.Load
import Verif.Model.X86Reloc
import Verif.Model.A64Reloc
namespace Ulp.LoadBytes
open Load

/-- A store of `bs` at `hdr + off`. -/
def put (img : Image) (off : BitVec 64) (bs : List Byte) : Option Image :=
  if off.toNat + bs.length ≤ img.length then some (store img off.toNat bs) else none

/-- `&info->sechdrs[i]` when `info->sechdrs` is `hdr + tbl`. -/
def hdrPtr (tbl : BitVec 64) (i : Nat) : BitVec 64 := tbl + BitVec.ofNat 64 (64 * i)

/-- `info->sechdrs[i]`.  Simplification: looking at one field counts as looking at
the whole header. -/
def hdrAt (img : Image) (tbl : BitVec 64) (i : Nat) : Option Shdr :=
  let b := hdrPtr tbl i
  if b.toNat + 64 ≤ img.length then
    match rd img b 4, rd img (b + 4) 4, rd img (b + 8) 8, rd img (b + 16) 8,
      rd img (b + 24) 8, rd img (b + 32) 8, rd img (b + 40) 4, rd img (b + 44) 4 with
    | some n, some t, some f, some a, some of, some sz, some l, some inf =>
      some ⟨n, t, BitVec.ofNat 64 f, BitVec.ofNat 64 a, BitVec.ofNat 64 of, BitVec.ofNat 64 sz,
        l, inf⟩
    | _, _, _, _, _, _, _, _ => none
  else none

/-- The loop of `rewrite_section_headers` (src/patch/patch.c:579-605), which stores
`sh_addr` (offset 16) of one header after the other.  `e_shnum` has 16 bits, so
2^16 rounds are enough fuel. -/
def rewriteLoop (tbl strs th : BitVec 64) : Nat → Nat → Image → Option (Image × Int)
  | 0, _, _ => none
  | fuel + 1, i, img =>
    match shnum img with
    | none => none
    | some n =>
      if i < n then
        match hdrAt img tbl i with
        | none => none
        | some s =>
          match rewriteOne img strs th s with
          | none => none
          | some (.error e) => some (img, e)
          | some (.ok s') =>
            match put img (hdrPtr tbl i + 16) (leBytes 8 s'.addr) with
            | none => none
            | some img' => rewriteLoop tbl strs th fuel (i + 1) img'
      else some (img, 0)

/-- `rewrite_section_headers` (src/patch/patch.c:572-614).  The two updates of
`sh_flags` (lines 608-609, offset 8) are one store. -/
def rewriteHeaders (tbl strs th : BitVec 64) (infoIdx : Nat) (img : Image) : Option (Image × Int) :=
  match put img (hdrPtr tbl 0 + 16) (leBytes 8 0) with
  | none => none
  | some img0 =>
    match rewriteLoop tbl strs th (2 ^ 16) 1 img0 with
    | none => none
    | some (img1, e) =>
      if e ≠ 0 then some (img1, e)
      else
        match hdrAt img1 tbl infoIdx with
        | none => none
        | some s =>
          match put img1 (hdrPtr tbl infoIdx + 8)
              (leBytes 8 (s.flags &&& ~~~SHF_ALLOC ||| SHF_RELA_LIVEPATCH)) with
          | none => none
          | some img2 => some (img2, 0)

/-- `GElf_Sym` (`elf.h`), the fields the loader uses. -/
structure ESym where
  name : Nat
  info : Nat
  shndx : Nat
  value : BitVec 64
  deriving DecidableEq, Repr

/-- The 24-byte symbol table entry at `hdr + p`. -/
def symAt (img : Image) (p : BitVec 64) : Option ESym :=
  if p.toNat + 24 ≤ img.length then
    match rd img p 4, rd img (p + 4) 1, rd img (p + 6) 2, rd img (p + 8) 8 with
    | some n, some i, some x, some v => some ⟨n, i, x, BitVec.ofNat 64 v⟩
    | _, _, _, _ => none
  else none

/-- The C string at `hdr + p`. -/
def cstr (img : Image) (p : BitVec 64) : Option (List Byte) :=
  (afterNul (img.drop p.toNat)).map fun k => (img.drop p.toNat).take (k - 1)

/-- `resolve_symbol` (src/patch/patch.c:658-684) for a task opened with
`FTO_VMA_ELF_SYMBOLS`; `find` is `find_task_sym`. -/
def resolveSymbol (find : List Byte → Option (BitVec 64)) (name : List Byte) : BitVec 64 :=
  match find name with
  | some a => a
  | none => 0

/-- One iteration of `simplify_symbols` (src/patch/patch.c:702-752) for the entry at
`hdr + p`.  Simplification: names are read as a whole, and only where the result
depends on them (not for messages). -/
def simplifyOne (tbl strtab : BitVec 64) (find : List Byte → Option (BitVec 64)) (img : Image)
    (p : BitVec 64) (ret : Int) : Option (Image × Int) :=
  match symAt img p with
  | none => none
  | some s =>
    if s.shndx = SHN_COMMON then
      match cstr img (strtab + BitVec.ofNat 64 s.name) with
      | none => none
      | some nm => if (lit "__gnu_lto").isPrefixOf nm then some (img, ret) else some (img, ENOEXEC)
    else if s.shndx = SHN_ABS then some (img, ret)
    else if s.shndx = SHN_UNDEF then
      match cstr img (strtab + BitVec.ofNat 64 s.name) with
      | none => none
      | some nm =>
        let addr := resolveSymbol find nm
        if addr = 0 then
          if s.info / 16 = STB_WEAK then some (img, ret) else some (img, ENOENT)
        else
          match put img (p + 8) (leBytes 8 addr) with
          | none => none
          | some img' => some (img', 0)
    else
      match hdrAt img tbl s.shndx with
      | none => none
      | some h =>
        match put img (p + 8) (leBytes 8 (s.value + h.addr)) with
        | none => none
        | some img' => some (img', ret)

/-- The loop of `simplify_symbols`; `base` is where the table is.  Every round reads
another 24 bytes of the image, so its length is enough fuel. -/
def simplifyLoop (tbl strtab : BitVec 64) (find : List Byte → Option (BitVec 64)) (symIdx : Nat)
    (base : BitVec 64) : Nat → Nat → Image → Int → Option (Image × Int)
  | 0, _, _, _ => none
  | fuel + 1, i, img, ret =>
    match hdrAt img tbl symIdx with
    | none => none
    | some ss =>
      if i < ss.size.toNat / 24 then
        match simplifyOne tbl strtab find img (base + BitVec.ofNat 64 (24 * i)) ret with
        | none => none
        | some (img', ret') => simplifyLoop tbl strtab find symIdx base fuel (i + 1) img' ret'
      else some (img, ret)

/-- `simplify_symbols` (src/patch/patch.c:687-756). -/
def simplify (tbl strtab th : BitVec 64) (find : List Byte → Option (BitVec 64)) (symIdx : Nat)
    (img : Image) : Option (Image × Int) :=
  match hdrAt img tbl symIdx with
  | none => none
  | some ss => simplifyLoop tbl strtab find symIdx (ss.addr - th) (img.length + 1) 1 img 0

/-- What `arch_apply_relocate_add` does with one entry: `step ctx first st mem r s`,
where `first` is the addend of the first entry and `st` a local variable that
lives across the entries; and how many bytes at `loc` it may touch. -/
structure Machine where
  St : Type
  init : St
  step : RelaCtx → BitVec 64 → St → Mem → Rela → Sym → Mem × St × Int
  width : Nat → Nat

/-- x86_64: src/arch/x86_64/patch.c:77-197. -/
def x86 : Machine where
  St := Unit
  init := ()
  step c first _ m r s := ((X86Reloc.applyOne c first m r s).1, (), (X86Reloc.applyOne c first m r s).2)
  width t :=
    match X86Reloc.RType.ofNat t with
    | .r64 | .pc64 => 8
    | .none | .tpoff64 | .tpoff32 | .other _ => 0
    | _ => 4

/-- aarch64: src/arch/aarch64/patch.c:212-410; `junk` is the initial content of
`overflow_check`. -/
def a64 (junk : Bool) : Machine where
  St := Bool
  init := junk
  step c _ chk m r s :=
    match A64Reloc.table r.type with
    | none => (m, chk, RELOC_ENOEXEC)
    | some (a, nc) =>
      let p := A64Reloc.run a (A64Reloc.loc c r) (s.value + r.addend) m
      (p.1, chk && !nc, if (chk && !nc) && p.2 then RELOC_ENOEXEC else 0)
  width t :=
    match A64Reloc.table t with
    | none | some (.nothing, _) => 0
    | some (.data _ len, _) => len / 8
    | some (.movw _ _ _, _) | some (.imm _ _ _ _, _) => 4

/-- The 24-byte `Elf64_Rela` at `hdr + p`. -/
def relaAt (img : Image) (p : BitVec 64) : Option Rela :=
  if p.toNat + 24 ≤ img.length then
    match rd img p 8, rd img (p + 8) 8, rd img (p + 16) 8 with
    | some o, some i, some a => some ⟨BitVec.ofNat 64 o, i / 2 ^ 32, i % 2 ^ 32, BitVec.ofNat 64 a⟩
    | _, _, _ => none
  else none

/-- The host's memory, of which only the image at `hdr` is ever looked at. -/
def memOf (img : Image) (hdr : Addr) : Mem := Mem.write (fun _ => 0) hdr img

/-- The loop of `arch_apply_relocate_add` (src/arch/x86_64/patch.c:77-197,
src/arch/aarch64/patch.c:212-410) for relocation section `relsec`; `rel` is where
its entries are. -/
def relocLoop (M : Machine) (hdr th tbl rel : BitVec 64) (symIdx relsec : Nat) :
    Nat → Nat → M.St → Image → Option (Image × Int)
  | 0, _, _, _ => none
  | fuel + 1, i, st, img =>
    match hdrAt img tbl relsec with
    | none => none
    | some sh =>
      if i < sh.size.toNat / 24 then
        match hdrAt img tbl sh.info, relaAt img (rel + BitVec.ofNat 64 (24 * i)), relaAt img rel,
            hdrAt img tbl symIdx with
        | some t, some r, some r0, some ss =>
          match symAt img (ss.addr - th + BitVec.ofNat 64 (24 * r.sym)) with
          | none => none
          | some s =>
            if 0 < M.width r.type ∧ img.length < (t.addr - th + r.offset).toNat + M.width r.type then
              none
            else
              let x := M.step ⟨hdr, th, t.addr, [], []⟩ r0.addend st (memOf img hdr) r
                ⟨s.value, s.info % 16, s.shndx⟩
              if x.2.2 ≠ 0 then some (x.1.read hdr img.length, x.2.2)
              else relocLoop M hdr th tbl rel symIdx relsec fuel (i + 1) x.2.1
                (x.1.read hdr img.length)
        | _, _, _, _ => none
      else some (img, 0)

/-- `arch_apply_relocate_add`. -/
def relocSection (M : Machine) (hdr th tbl : BitVec 64) (symIdx relsec : Nat) (img : Image) :
    Option (Image × Int) :=
  match hdrAt img tbl relsec with
  | none => none
  | some sh => relocLoop M hdr th tbl (sh.addr - th) symIdx relsec (img.length + 1) 0 M.init img

/-- The loop of `apply_relocations` (src/patch/patch.c:771-795). -/
def applyLoop (M : Machine) (hdr th tbl : BitVec 64) (symIdx : Nat) :
    Nat → Nat → Image → Int → Option (Image × Int)
  | 0, _, _, _ => none
  | fuel + 1, i, img, err =>
    match shnum img with
    | none => none
    | some n =>
      if i < n then
        match hdrAt img tbl i with
        | none => none
        | some s =>
          if n ≤ s.info then applyLoop M hdr th tbl symIdx fuel (i + 1) img err
          else
            match hdrAt img tbl s.info with
            | none => none
            | some t =>
              if t.flags &&& SHF_ALLOC = 0 then applyLoop M hdr th tbl symIdx fuel (i + 1) img err
              else if s.type = SHT_REL then some (img, ENOEXEC)
              else
                match (if s.type = SHT_RELA then relocSection M hdr th tbl symIdx i img
                  else some (img, err)) with
                | none => none
                | some (img', err') =>
                  if err' < 0 then some (img', err')
                  else applyLoop M hdr th tbl symIdx fuel (i + 1) img' err'
      else some (img, err)

/-- `apply_relocations` (src/patch/patch.c:765-798). -/
def applyRelocs (M : Machine) (hdr th tbl : BitVec 64) (symIdx : Nat) (img : Image) :
    Option (Image × Int) :=
  applyLoop M hdr th tbl symIdx (2 ^ 16) 0 img 0

/-- The loop of `solve_patch_symbols` (src/patch/patch.c:829-837): the last symbol
whose name is the C string at `hdr + src`. -/
def findSrc (tbl strtab : BitVec 64) (symIdx : Nat) (base : BitVec 64) (src : List Byte)
    (img : Image) : Nat → Nat → Option ESym → Option (Option ESym)
  | 0, _, _ => none
  | fuel + 1, i, acc =>
    match hdrAt img tbl symIdx with
    | none => none
    | some ss =>
      if i < ss.size.toNat / 24 then
        match symAt img (base + BitVec.ofNat 64 (24 * i)) with
        | none => none
        | some s =>
          match cstr img (strtab + BitVec.ofNat 64 s.name) with
          | none => none
          | some nm => findSrc tbl strtab symIdx base src img fuel (i + 1) (if nm = src then some s else acc)
      else some acc

/-- `solve_patch_symbols` (src/patch/patch.c:807-857): the new image with the record
filled in, the record and the new `max_id`. -/
def solve (tbl : BitVec 64) (inf : Info) (find : List Byte → Option (BitVec 64)) (now : BitVec 64)
    (maxId : BitVec 32) (img : Image) : Option (Except Int (Image × ULPInfo × BitVec 32)) :=
  match cstr img inf.dstFunc with
  | none => none
  | some dst =>
    match find dst with
    | none => some (.error ENOENT)
    | some taddr =>
      match cstr img inf.srcFunc, hdrAt img tbl inf.symIdx with
      | some src, some ss =>
        match findSrc tbl inf.strtab inf.symIdx ss.offset src img (img.length + 1) 0 none with
        | none => none
        | some none => some (.error ENOENT)
        | some (some s) =>
          match readInfo img inf.ulpInfo with
          | none => none
          | some r =>
            let r' : ULPInfo := { r with ulpId := maxId + 1, target := taddr, patch := s.value
                                         virtual := taddr, time := now }
            match put img inf.ulpInfo r'.bytes with
            | none => none
            | some img' => some (.ok (img', r', maxId + 1))
      | _, _ => none

def EALREADY : Int := -114

/-- What `load_patch` knows from outside the image: where the image is in the host
and in the target, the target's symbols, the Build IDs and the largest number of
the live patches, the time. -/
structure Env where
  hdr : Addr
  th : Addr
  find : List Byte → Option (BitVec 64)
  bids : List (List Byte)
  maxId : BitVec 32
  now : BitVec 64

/-- A loaded patch: the image, what `setup_load_info` found, the record and the new
`max_id`. -/
structure Loaded where
  img : Image
  inf : Info
  record : ULPInfo
  maxId : BitVec 32

/-- `load_patch` (src/patch/patch.c:919-973) up to `kick_target_process`.  Without a
Build ID text, comparing it is undefined (`strcmp` of `NULL`) unless there is no
live patch. -/
def load (M : Machine) (E : Env) (img : Image) : Option (Except Int Loaded) :=
  match shoff img with
  | none => none
  | some o =>
    let tbl := BitVec.ofNat 64 o
    match setupLoadInfo img with
    | none => none
    | some (.error e) => some (.error e)
    | some (.ok inf) =>
      match (match inf.buildId with
        | some b => some (E.bids.contains b)
        | none => if E.bids.isEmpty then some false else none) with
      | none => none
      | some true => some (.error EALREADY)
      | some false =>
        match rewriteHeaders tbl inf.secstrings E.th inf.infoIdx img with
        | none => none
        | some (img1, e1) =>
          if e1 ≠ 0 then some (.error e1)
          else
            match simplify tbl inf.strtab E.th E.find inf.symIdx img1 with
            | none => none
            | some (img2, e2) =>
              if e2 < 0 then some (.error e2)
              else
                match applyRelocs M E.hdr E.th tbl inf.symIdx img2 with
                | none => none
                | some (img3, e3) =>
                  if e3 < 0 then some (.error e3)
                  else
                    match solve tbl inf E.find E.now E.maxId img3 with
                    | none => none
                    | some (.error e) => some (.error e)
                    | some (.ok (img4, r, mx)) => some (.ok ⟨img4, inf, r, mx⟩)

end Ulp.LoadBytes
