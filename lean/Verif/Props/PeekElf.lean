/-
C47: the load address of a mapped file.  C54: the headers kept for a mapping.
-/
import Verif.Model.PeekElf
import Verif.Spec.ElfHdr
import Verif.Props.Sym
import Verif.Proof.Mem
namespace Ulp.Peek
open Ulp.Load (lit)
open Ulp.Str (startswith)
open Ulp.VmaType (VmaType)
open Ulp.Align
open Ulp.ElfHdr

theorem field_mid (a c : List Byte) (n off : Nat) (v : BitVec 64) (h : a.length = off) :
    field (a ++ (leBytes n v ++ c)) off n = v.toNat % 256 ^ n := by
  rw [field, ← h, List.drop_left]
  have : (leBytes n v ++ c).take n = leBytes n v := by
    have := List.take_left (l₁ := leBytes n v) (l₂ := c)
    rwa [leBytes_length] at this
  rw [this, leNat_leBytes]

theorem field_first (c : List Byte) (n : Nat) (v : BitVec 64) :
    field (leBytes n v ++ c) 0 n = v.toNat % 256 ^ n := field_mid [] c n 0 v rfl

theorem Hdr_parse (h : Hdr) :
    (parseEhdr h.bytes).ident = [0x7f, 0x45, 0x4c, 0x46, 2, 1] ++ h.pad ∧
    (parseEhdr h.bytes).type = h.type.toNat ∧ (parseEhdr h.bytes).machine = h.machine.toNat ∧
    (parseEhdr h.bytes).version = 1 ∧ (parseEhdr h.bytes).phoff = h.phoff ∧
    (parseEhdr h.bytes).phnum = h.phnum.toNat := by
  have l1 := h.hpad
  have l2 := h.hentry
  have l3 := h.hmid
  refine ⟨?_, ?_, ?_, ?_, ?_, ?_⟩
  · have e : h.bytes = ([0x7f, 0x45, 0x4c, 0x46, 2, 1] ++ h.pad) ++ (leBytes 2 (h.type.setWidth 64) ++
        (leBytes 2 (h.machine.setWidth 64) ++ leBytes 4 1 ++ h.entry ++ leBytes 8 h.phoff ++ h.mid ++
        leBytes 2 (h.phnum.setWidth 64) ++ h.tail)) := by
      simp only [Hdr.bytes, List.append_assoc]
    change h.bytes.take 16 = _
    rw [e]
    have := List.take_left (l₁ := [0x7f, 0x45, 0x4c, 0x46, 2, 1] ++ h.pad) (l₂ := leBytes 2 (h.type.setWidth 64) ++
        (leBytes 2 (h.machine.setWidth 64) ++ leBytes 4 1 ++ h.entry ++ leBytes 8 h.phoff ++ h.mid ++
        leBytes 2 (h.phnum.setWidth 64) ++ h.tail))
    rwa [show (([0x7f, 0x45, 0x4c, 0x46, 2, 1] : List Byte) ++ h.pad).length = 16 by simp [l1]] at this
  · have e : h.bytes = ([0x7f, 0x45, 0x4c, 0x46, 2, 1] ++ h.pad) ++ (leBytes 2 (h.type.setWidth 64) ++
        (leBytes 2 (h.machine.setWidth 64) ++ leBytes 4 1 ++ h.entry ++ leBytes 8 h.phoff ++ h.mid ++
        leBytes 2 (h.phnum.setWidth 64) ++ h.tail)) := by
      simp only [Hdr.bytes, List.append_assoc]
    change field h.bytes 16 2 = _
    rw [e, field_mid _ _ _ _ _ (by simp [l1]), BitVec.toNat_setWidth]
    have := h.type.isLt
    omega
  · have e : h.bytes = ([0x7f, 0x45, 0x4c, 0x46, 2, 1] ++ h.pad ++ leBytes 2 (h.type.setWidth 64)) ++
        (leBytes 2 (h.machine.setWidth 64) ++ (leBytes 4 1 ++ h.entry ++ leBytes 8 h.phoff ++ h.mid ++
        leBytes 2 (h.phnum.setWidth 64) ++ h.tail)) := by
      simp only [Hdr.bytes, List.append_assoc]
    change field h.bytes 18 2 = _
    rw [e, field_mid _ _ _ _ _ (by simp [l1]), BitVec.toNat_setWidth]
    have := h.machine.isLt
    omega
  · have e : h.bytes = ([0x7f, 0x45, 0x4c, 0x46, 2, 1] ++ h.pad ++ leBytes 2 (h.type.setWidth 64) ++
        leBytes 2 (h.machine.setWidth 64)) ++ (leBytes 4 1 ++ (h.entry ++ leBytes 8 h.phoff ++ h.mid ++
        leBytes 2 (h.phnum.setWidth 64) ++ h.tail)) := by
      simp only [Hdr.bytes, List.append_assoc]
    change field h.bytes 20 4 = _
    rw [e, field_mid _ _ _ _ _ (by simp [l1])]
    rfl
  · have e : h.bytes = ([0x7f, 0x45, 0x4c, 0x46, 2, 1] ++ h.pad ++ leBytes 2 (h.type.setWidth 64) ++
        leBytes 2 (h.machine.setWidth 64) ++ leBytes 4 1 ++ h.entry) ++ (leBytes 8 h.phoff ++ (h.mid ++
        leBytes 2 (h.phnum.setWidth 64) ++ h.tail)) := by
      simp only [Hdr.bytes, List.append_assoc]
    change BitVec.ofNat 64 (field h.bytes 32 8) = _
    rw [e, field_mid _ _ _ _ _ (by simp [l1, l2])]
    apply BitVec.eq_of_toNat_eq
    rw [BitVec.toNat_ofNat]
    have := h.phoff.isLt
    omega
  · have e : h.bytes = ([0x7f, 0x45, 0x4c, 0x46, 2, 1] ++ h.pad ++ leBytes 2 (h.type.setWidth 64) ++
        leBytes 2 (h.machine.setWidth 64) ++ leBytes 4 1 ++ h.entry ++ leBytes 8 h.phoff ++ h.mid) ++
        (leBytes 2 (h.phnum.setWidth 64) ++ h.tail) := by
      simp only [Hdr.bytes, List.append_assoc]
    change field h.bytes 56 2 = _
    rw [e, field_mid _ _ _ _ _ (by simp [l1, l2, l3]), BitVec.toNat_setWidth]
    have := h.phnum.isLt
    omega

theorem Hdr_length (h : Hdr) : h.bytes.length = 64 := by
  simp [Hdr.bytes, h.hpad, h.hentry, h.hmid, h.htail]

theorem Seg_length (s : Seg) : s.bytes.length = 56 := by simp [Seg.bytes]

/-- The header as the code keeps it. -/
def ofSeg (s : Seg) : Phdr := ⟨s.type.toNat, s.flags, s.offset, s.vaddr, s.filesz, s.memsz, s.align⟩

theorem ofNat_mod8 (v : BitVec 64) : BitVec.ofNat 64 (v.toNat % 256 ^ 8) = v := by
  apply BitVec.eq_of_toNat_eq
  rw [BitVec.toNat_ofNat]
  have := v.isLt
  omega

theorem Seg_parse (s : Seg) : parsePhdr s.bytes = ofSeg s := by
  unfold parsePhdr ofSeg
  have f0 : field s.bytes 0 4 = s.type.toNat := by
    have e : s.bytes = leBytes 4 (s.type.setWidth 64) ++ (leBytes 4 (s.flags.setWidth 64) ++ leBytes 8 s.offset ++
      leBytes 8 s.vaddr ++ leBytes 8 s.paddr ++ leBytes 8 s.filesz ++ leBytes 8 s.memsz ++ leBytes 8 s.align) := by
      simp only [Seg.bytes, List.append_assoc]
    rw [e, field_first, BitVec.toNat_setWidth]
    have := s.type.isLt
    omega
  have f1 : BitVec.ofNat 32 (field s.bytes 4 4) = s.flags := by
    have e : s.bytes = leBytes 4 (s.type.setWidth 64) ++ (leBytes 4 (s.flags.setWidth 64) ++ (leBytes 8 s.offset ++
      leBytes 8 s.vaddr ++ leBytes 8 s.paddr ++ leBytes 8 s.filesz ++ leBytes 8 s.memsz ++ leBytes 8 s.align)) := by
      simp only [Seg.bytes, List.append_assoc]
    rw [e, field_mid _ _ _ _ _ (by simp), BitVec.toNat_setWidth]
    apply BitVec.eq_of_toNat_eq
    rw [BitVec.toNat_ofNat]
    have := s.flags.isLt
    omega
  have f2 : BitVec.ofNat 64 (field s.bytes 8 8) = s.offset := by
    have e : s.bytes = (leBytes 4 (s.type.setWidth 64) ++ leBytes 4 (s.flags.setWidth 64)) ++ (leBytes 8 s.offset ++
      (leBytes 8 s.vaddr ++ leBytes 8 s.paddr ++ leBytes 8 s.filesz ++ leBytes 8 s.memsz ++ leBytes 8 s.align)) := by
      simp only [Seg.bytes, List.append_assoc]
    rw [e, field_mid _ _ _ _ _ (by simp), ofNat_mod8]
  have f3 : BitVec.ofNat 64 (field s.bytes 16 8) = s.vaddr := by
    have e : s.bytes = (leBytes 4 (s.type.setWidth 64) ++ leBytes 4 (s.flags.setWidth 64) ++ leBytes 8 s.offset) ++
      (leBytes 8 s.vaddr ++ (leBytes 8 s.paddr ++ leBytes 8 s.filesz ++ leBytes 8 s.memsz ++ leBytes 8 s.align)) := by
      simp only [Seg.bytes, List.append_assoc]
    rw [e, field_mid _ _ _ _ _ (by simp), ofNat_mod8]
  have f4 : BitVec.ofNat 64 (field s.bytes 32 8) = s.filesz := by
    have e : s.bytes = (leBytes 4 (s.type.setWidth 64) ++ leBytes 4 (s.flags.setWidth 64) ++ leBytes 8 s.offset ++
      leBytes 8 s.vaddr ++ leBytes 8 s.paddr) ++ (leBytes 8 s.filesz ++ (leBytes 8 s.memsz ++ leBytes 8 s.align)) := by
      simp only [Seg.bytes, List.append_assoc]
    rw [e, field_mid _ _ _ _ _ (by simp), ofNat_mod8]
  have f5 : BitVec.ofNat 64 (field s.bytes 40 8) = s.memsz := by
    have e : s.bytes = (leBytes 4 (s.type.setWidth 64) ++ leBytes 4 (s.flags.setWidth 64) ++ leBytes 8 s.offset ++
      leBytes 8 s.vaddr ++ leBytes 8 s.paddr ++ leBytes 8 s.filesz) ++ (leBytes 8 s.memsz ++ leBytes 8 s.align) := by
      simp only [Seg.bytes, List.append_assoc]
    rw [e, field_mid _ _ _ _ _ (by simp), ofNat_mod8]
  have f6 : BitVec.ofNat 64 (field s.bytes 48 8) = s.align := by
    have e : s.bytes = (leBytes 4 (s.type.setWidth 64) ++ leBytes 4 (s.flags.setWidth 64) ++ leBytes 8 s.offset ++
      leBytes 8 s.vaddr ++ leBytes 8 s.paddr ++ leBytes 8 s.filesz ++ leBytes 8 s.memsz) ++ (leBytes 8 s.align ++ []) := by
      simp only [Seg.bytes, List.append_assoc, List.append_nil]
    rw [e, field_mid _ _ _ _ _ (by simp), ofNat_mod8]
  rw [f0, f1, f2, f3, f4, f5, f6]

theorem table_parse : ∀ ss : List Seg, parsePhdrs ss.length (table ss) = ss.map ofSeg
  | [] => rfl
  | s :: ss => by
    have h1 : (table (s :: ss)).take 56 = s.bytes := by
      have := List.take_left (l₁ := s.bytes) (l₂ := table ss)
      rwa [Seg_length] at this
    have h2 : (table (s :: ss)).drop 56 = table ss := by
      have := List.drop_left (l₁ := s.bytes) (l₂ := table ss)
      rwa [Seg_length] at this
    rw [List.length_cons, parsePhdrs, h1, h2, Seg_parse, table_parse ss, List.map_cons]

theorem table_length : ∀ ss : List Seg, (table ss).length = ss.length * 56
  | [] => rfl
  | s :: ss => by rw [table, List.length_append, Seg_length, table_length ss, List.length_cons]; omega

theorem scan_low (shift : Nat) (prot : BitVec 32) : ∀ (ps : List Phdr) (low : BitVec 64) (relro : Option Phdr)
    (sibs : List Area),
    let r := (scanPhdrs shift prot ps low relro sibs).1
    r ≤ low ∧ (∀ p ∈ ps, p.type = 1 → r ≤ p.vaddr) ∧ (r = low ∨ ∃ p ∈ ps, p.type = 1 ∧ r = p.vaddr)
  | [], low, relro, sibs => by
    refine ⟨BitVec.le_refl _, fun p hp => absurd hp (by simp), Or.inl rfl⟩
  | p :: ps, low, relro, sibs => by
    dsimp only
    rw [scanPhdrs]
    by_cases h1 : p.type = PT_LOAD
    · rw [if_pos h1]
      dsimp only
      obtain ⟨a, b, c⟩ := scan_low shift prot ps (if low ≤ p.vaddr then low else p.vaddr) (some p)
        (sibs.map fun s => if prot = 0 then s
          else if BitVec.shiftLeft s.pgoff shift = alignDown p.vaddr p.align then { s with voffset := p.vaddr } else s)
      generalize (scanPhdrs shift prot ps _ (some p) _).1 = r at a b c ⊢
      refine ⟨?_, ?_, ?_⟩
      · split at a
        · exact a
        · rename_i hh
          simp only [BitVec.le_def] at *
          omega
      · intro q hq hql
        rcases List.mem_cons.1 hq with rfl | hq
        · split at a
          · rename_i hh; exact BitVec.le_trans a hh
          · exact a
        · exact b q hq hql
      · rcases c with c | ⟨q, hq, hql, hv⟩
        · split at c
          · exact Or.inl c
          · exact Or.inr ⟨p, List.mem_cons_self, h1, c⟩
        · exact Or.inr ⟨q, List.mem_cons_of_mem _ hq, hql, hv⟩
    · rw [if_neg h1]
      have key : ∀ relro, (let r := (scanPhdrs shift prot ps low relro sibs).1
          r ≤ low ∧ (∀ q ∈ p :: ps, q.type = 1 → r ≤ q.vaddr) ∧
            (r = low ∨ ∃ q ∈ p :: ps, q.type = 1 ∧ r = q.vaddr)) := by
        intro relro
        obtain ⟨a, b, c⟩ := scan_low shift prot ps low relro sibs
        refine ⟨a, ?_, ?_⟩
        · intro q hq hql
          rcases List.mem_cons.1 hq with rfl | hq
          · exact absurd hql h1
          · exact b q hq hql
        · rcases c with c | ⟨q, hq, hql, hv⟩
          · exact Or.inl c
          · exact Or.inr ⟨q, List.mem_cons_of_mem _ hq, hql, hv⟩
      split
      · exact key _
      · exact key _

theorem match_keep (shift : Nat) (v : Area) (p : Phdr) (load : BitVec 64) (relro : Option Phdr) :
    (matchVmaPhdr shift v p load relro).elf = v.elf ∧ (matchVmaPhdr shift v p load relro).isElf = v.isElf ∧
    (matchVmaPhdr shift v p load relro).type = v.type ∧
    (matchVmaPhdr shift v p load relro).start = v.start ∧ (matchVmaPhdr shift v p load relro).name = v.name := by
  unfold matchVmaPhdr
  dsimp only
  split
  · split <;> exact ⟨rfl, rfl, rfl, rfl, rfl⟩
  · split <;> exact ⟨rfl, rfl, rfl, rfl, rfl⟩

theorem matchPhdrs_keep (shift : Nat) (load : BitVec 64) (relro : Option Phdr) :
    ∀ (ps : List Phdr) (v : Area) (sibs : List Area),
      (matchPhdrs shift load relro ps v sibs).1.elf = v.elf ∧
      (matchPhdrs shift load relro ps v sibs).1.isElf = v.isElf ∧
      (matchPhdrs shift load relro ps v sibs).1.type = v.type ∧
      (matchPhdrs shift load relro ps v sibs).1.start = v.start ∧
      (matchPhdrs shift load relro ps v sibs).1.name = v.name
  | [], v, sibs => ⟨rfl, rfl, rfl, rfl, rfl⟩
  | p :: ps, v, sibs => by
    rw [matchPhdrs]
    split
    · obtain ⟨a, b, c, d, e⟩ := matchPhdrs_keep shift load relro ps (matchVmaPhdr shift v p load relro)
        (sibs.map fun s => matchVmaPhdr shift s p load relro)
      obtain ⟨a', b', c', d', e'⟩ := match_keep shift v p load relro
      exact ⟨a.trans a', b.trans b', c.trans c', d.trans d', e.trans e'⟩
    · exact matchPhdrs_keep shift load relro ps v sibs

/-- A mapping of an ordinary file, not yet looked at. -/
structure Fresh (v : Area) : Prop where
  elf : v.elf = .null
  isElf : v.isElf = false
  etc : ¬ lit "/etc" <+: v.name
  sys : ¬ lit "/sys" <+: v.name
  type : v.type = .none ∨ v.type = .self ∨ v.type = .libc ∨ v.type = .ld ∨ v.type = .vdso ∨
    v.type = .libUnknown ∨ v.type = .anon ∨ v.type = .heap

/-- In the memory of the process, a file's ELF header is at the start of the mapping
`v`, with the program headers `segs`. -/
structure Shows (rd : BitVec 64 → Nat → Rd) (v : Area) (h : Hdr) (segs : List Seg) : Prop where
  hdr : rd v.start 64 = .got h.bytes
  tab : rd (v.start + h.phoff) (segs.length * 56) = .got (table segs)
  num : h.phnum.toNat = segs.length
  type : h.type ≠ 0
  machine : h.machine ≠ 0

theorem ehdr_ok_of (h : Hdr) (ht : h.type ≠ 0) (hm : h.machine ≠ 0) : ehdrOk (parseEhdr h.bytes) = true := by
  obtain ⟨a, b, c, d, -, -⟩ := Hdr_parse h
  have ne0 : ∀ x : BitVec 16, x ≠ 0 → x.toNat ≠ 0 := by
    intro x hx e
    exact hx (BitVec.eq_of_toNat_eq e)
  unfold ehdrOk ehdrMagicOk
  rw [a, b, c, d, if_neg (ne0 _ ht), if_neg (ne0 _ hm), if_neg (by decide)]
  rw [if_neg (by simp), if_neg (by simp)]
  simp

theorem peek_eq (shift : Nat) (rd : BitVec 64 → Nat → Rd) (ulp : Int) (v : Area) (sibs : List Area)
    (h : Hdr) (segs : List Seg) (hf : Fresh v) (hs : Shows rd v h segs) (hne : segs ≠ []) :
    peekElfHdrs shift rd true true ulp v sibs =
      some (peekDone shift (parseEhdr h.bytes) (segs.map ofSeg) { v with isElf := true } sibs
        (if v.type = .self then some (decide (h.type = 3)) else none)) := by
  obtain ⟨-, e1, -, -, e4, e5⟩ := Hdr_parse h
  have etc : startswith v.name (lit "/etc") = false := by
    cases hh : startswith v.name (lit "/etc") with
    | false => rfl
    | true => exact absurd (List.isPrefixOf_iff_prefix.1 hh) hf.etc
  have sys : startswith v.name (lit "/sys") = false := by
    cases hh : startswith v.name (lit "/sys") with
    | false => rfl
    | true => exact absurd (List.isPrefixOf_iff_prefix.1 hh) hf.sys
  have hnum : ¬ (segs.length = 0) := fun h => hne (List.length_eq_zero_iff.1 h)
  have ht3 : decide (h.type.toNat = ET_DYN) = decide (h.type = 3) := by
    by_cases hh : h.type = 3
    · rw [hh]; rfl
    · rw [decide_eq_false hh, decide_eq_false]
      intro e
      exact hh (BitVec.eq_of_toNat_eq e)
  have hl := Hdr_length h
  have htl := table_length segs
  have hok := ehdr_ok_of h hs.type hs.machine
  have body : (if (match v.elf with | .null => v.isElf | _ => true) = true then some (PeekRes.mk 0 v sibs none)
    else if (startswith v.name (lit "/etc") || startswith v.name (lit "/sys")) = true then
      some ⟨0, v, sibs, none⟩
    else
      match (match rd v.start 64 with
        | .failed => some (parseEhdr (List.replicate 64 0))
        | .got bs => if bs.length < 64 then none else some (parseEhdr bs)) with
      | none => some ⟨-11, v, sibs, none⟩
      | some e =>
        if (!ehdrOk e) = true then some ⟨0, v, sibs, none⟩
        else
          if (!true) = true then some ⟨-12, { v with isElf := true }, sibs, if v.type = .self then some (decide (e.type = ET_DYN)) else none⟩
          else if e.phnum = 0 then some (peekDone shift e [] { v with isElf := true } sibs (if v.type = .self then some (decide (e.type = ET_DYN)) else none))
          else if (!true) = true then some ⟨-12, { v with isElf := true, elf := .freed }, sibs, if v.type = .self then some (decide (e.type = ET_DYN)) else none⟩
          else
            match rd (v.start + e.phoff) (e.phnum * 56) with
            | .failed => none
            | .got bs =>
              if bs.length < e.phnum * 56 then some ⟨-11, { v with isElf := true, elf := .freed }, sibs, if v.type = .self then some (decide (e.type = ET_DYN)) else none⟩
              else some (peekDone shift e (parsePhdrs e.phnum bs) { v with isElf := true } sibs (if v.type = .self then some (decide (e.type = ET_DYN)) else none)))
      = some (peekDone shift (parseEhdr h.bytes) (segs.map ofSeg) { v with isElf := true } sibs
        (if v.type = .self then some (decide (h.type = 3)) else none)) := by
    rw [hf.elf, hf.isElf, etc, sys, hs.hdr]
    simp only [Bool.false_eq_true, if_false, Bool.or_self, hl, Nat.lt_irrefl, hok, Bool.not_true]
    rw [e5, hs.num, e4, if_neg hnum, hs.tab]
    simp only [htl, Nat.lt_irrefl, if_false, table_parse, e1, ht3]
  unfold peekElfHdrs
  rcases hf.type with h | h | h | h | h | h | h | h <;> rw [h] at body ⊢ <;> exact body

/-- The load address the code computes, for every header table and mapping. -/
theorem load_addr_eq (shift : Nat) (rd : BitVec 64 → Nat → Rd) (ulp : Int) (v : Area) (sibs : List Area)
    (h : Hdr) (segs : List Seg) (low : BitVec 64) (hf : Fresh v) (hs : Shows rd v h segs)
    (hlow : Lowest segs low) (hmax : low ≠ BitVec.allOnes 64) :
    ∃ r e, peekElfHdrs shift rd true true ulp v sibs = some r ∧ r.ret = 0 ∧ r.vma.isElf = true ∧
      r.vma.elf = .live e ∧ e.loadAddr = v.start - low ∧ r.vma.start = v.start ∧ r.vma.type = v.type := by
  obtain ⟨⟨s, hsm, hsl, hsv⟩, hmin⟩ := hlow
  have hne : segs ≠ [] := by intro e; rw [e] at hsm; simp at hsm
  rw [peek_eq shift rd ulp v sibs h segs hf hs hne]
  have hr := scan_low shift v.prot (segs.map ofSeg) (BitVec.allOnes 64) none sibs
  dsimp only at hr
  obtain ⟨-, hr2, hr3⟩ := hr
  have hlow : (scanPhdrs shift v.prot (segs.map ofSeg) (BitVec.allOnes 64) none sibs).1 = low := by
    have h1 := hr2 (ofSeg s) (List.mem_map.2 ⟨s, hsm, rfl⟩) (by rw [Seg.loadable] at hsl; simp [ofSeg, hsl])
    have h1 : (scanPhdrs shift v.prot (segs.map ofSeg) (BitVec.allOnes 64) none sibs).1 ≤ low := by
      rw [← hsv]; exact h1
    rcases hr3 with h2 | ⟨p, hp, hpt, hpv⟩
    · exfalso
      rw [h2] at h1
      apply hmax
      apply BitVec.eq_of_toNat_eq
      have := low.isLt
      simp only [BitVec.le_def, BitVec.toNat_allOnes] at h1 ⊢
      omega
    · obtain ⟨q, hq, rfl⟩ := List.mem_map.1 hp
      have hql : q.loadable := by
        rw [Seg.loadable]
        apply BitVec.eq_of_toNat_eq
        exact hpt
      have h3 := hmin q hq hql
      rw [hpv]
      rw [hpv] at h1
      exact BitVec.le_antisymm h1 h3
  unfold peekDone
  dsimp only
  rw [hlow, if_neg hmax]
  obtain ⟨a, b, c, d, -⟩ := matchPhdrs_keep shift (v.start - low)
    (scanPhdrs shift v.prot (segs.map ofSeg) (BitVec.allOnes 64) none sibs).2.1 (segs.map ofSeg)
    { v with isElf := true, isShareLib := shareLib { v with isElf := true } (parseEhdr h.bytes) (segs.map ofSeg),
             elf := .live ⟨parseEhdr h.bytes, segs.map ofSeg, v.start - low⟩ }
    (scanPhdrs shift v.prot (segs.map ofSeg) (BitVec.allOnes 64) none sibs).2.2
  exact ⟨_, _, rfl, rfl, b, a, rfl, d, c⟩

/-- **C47** (as computed).  For every mapping that shows an ELF header and every
program header table with a loadable segment, the load address is the start of
the mapping minus the lowest loadable address.  (An address of all ones stands for
"none" in the code.) -/
theorem C47_load_addr (shift : Nat) (rd : BitVec 64 → Nat → Rd) (ulp : Int) (v : Area) (sibs : List Area)
    (h : Hdr) (segs : List Seg) (low : BitVec 64) (hf : Fresh v) (hs : Shows rd v h segs)
    (hlow : Lowest segs low) (hmax : low ≠ BitVec.allOnes 64) :
    ∃ r e, peekElfHdrs shift rd true true ulp v sibs = some r ∧ r.ret = 0 ∧ r.vma.isElf = true ∧
      r.vma.elf = .live e ∧ e.loadAddr = v.start - low := by
  obtain ⟨r, e, h1, h2, h3, h4, h5, -, -⟩ := load_addr_eq shift rd ulp v sibs h segs low hf hs hlow hmax
  exact ⟨r, e, h1, h2, h3, h4, h5⟩

theorem dvd_pow_self' {k : Nat} (h : 0 < k) : 2 ∣ 2 ^ k := by
  obtain ⟨j, rfl⟩ : ∃ j, k = j + 1 := ⟨k - 1, by omega⟩
  exact ⟨2 ^ j, by rw [Nat.pow_succ, Nat.mul_comm]⟩

theorem lowest_unique {segs : List Seg} {a b : BitVec 64} (ha : Lowest segs a) (hb : Lowest segs b) : a = b := by
  obtain ⟨⟨s, h1, h2, rfl⟩, h3⟩ := ha
  obtain ⟨⟨t, h4, h5, rfl⟩, h6⟩ := hb
  exact BitVec.le_antisymm (h3 t h4 h5) (h6 s h1 h2)

/-- **C47**, partial: on the first mapping of a file, the load address is the bias with
which the kernel loaded it, if the lowest loadable address is at the start of a page.
Missing: files where it is not (`C47_unaligned`), and further mappings that show the
header (`C47_again`). -/
theorem C47_bias_partial (k : Nat) (hk : 0 < k ∧ k < 64) (rd : BitVec 64 → Nat → Rd) (ulp : Int) (v : Area)
    (sibs : List Area) (h : Hdr) (segs : List Seg) (bias : BitVec 64) (hf : Fresh v)
    (hs : Shows rd v h segs) (hfirst : FirstMapping k segs bias v.start)
    (hpage : ∀ low, Lowest segs low → 2 ^ k ∣ low.toNat) :
    ∃ r e, peekElfHdrs k rd true true ulp v sibs = some r ∧ r.ret = 0 ∧ r.vma.elf = .live e ∧
      e.loadAddr = bias := by
  obtain ⟨low, hlow, hst⟩ := hfirst
  have hd := hpage low hlow
  have hmax : low ≠ BitVec.allOnes 64 := by
    rintro rfl
    rw [BitVec.toNat_allOnes] at hd
    have h2 : 2 ∣ 2 ^ k := dvd_pow_self' hk.1
    have := Nat.dvd_trans h2 hd
    omega
  obtain ⟨r, e, h1, h2, -, h4, h5, -, -⟩ := load_addr_eq k rd ulp v sibs h segs low hf hs hlow hmax
  refine ⟨r, e, h1, h2, h4, ?_⟩
  rw [h5, hst, Nat.div_mul_cancel hd, BitVec.ofNat_toNat, BitVec.setWidth_eq, BitVec.add_sub_cancel]

/-- **C47** (symbols), partial in the same way: every symbol of such a file is found
at its address in the file plus the bias. -/
theorem C47_symbols_partial (k : Nat) (hk : 0 < k ∧ k < 64) (rd : BitVec 64 → Nat → Rd) (ulp : Int) (v : Area)
    (sibs : List Area) (h : Hdr) (segs : List Seg) (bias : BitVec 64) (hf : Fresh v)
    (hs : Shows rd v h segs) (hfirst : FirstMapping k segs bias v.start)
    (hpage : ∀ low, Lowest segs low → 2 ^ k ∣ low.toNat)
    (text data plt : List Sym.FileSym) (info : Nat → Sym.Info)
    (h0 : ∀ f ∈ text ++ data ++ plt, f.ptr ≠ 0) (hnd : ((text ++ data ++ plt).map Sym.FileSym.ptr).Nodup) :
    ∃ r e s, peekElfHdrs k rd true true ulp v sibs = some r ∧ r.vma.elf = .live e ∧
      Sym.loadAll (Sym.initSyms info) [⟨r.vma.isElf, true, false, e.loadAddr, text, data, plt⟩] = some s ∧
      ∀ name f, (text ++ data ++ plt).find? (fun f => f.name = name) = some f →
        ∃ extras, Sym.findTaskSym s name = some (f.ptr, extras) ∧ s.info f.ptr = ⟨name, bias + f.addr⟩ := by
  obtain ⟨low, hlow, hst⟩ := hfirst
  have hd := hpage low hlow
  have hmax : low ≠ BitVec.allOnes 64 := by
    rintro rfl
    rw [BitVec.toNat_allOnes] at hd
    have h2 : 2 ∣ 2 ^ k := dvd_pow_self' hk.1
    have := Nat.dvd_trans h2 hd
    omega
  obtain ⟨r, e, h1, -, h3, h4, h5, -, -⟩ := load_addr_eq k rd ulp v sibs h segs low hf hs hlow hmax
  have hb : e.loadAddr = bias := by
    rw [h5, hst, Nat.div_mul_cancel hd, BitVec.ofNat_toNat, BitVec.setWidth_eq, BitVec.add_sub_cancel]
  have hregs : [Sym.Mapping.mk r.vma.isElf true false e.loadAddr text data plt].flatMap Sym.Mapping.regs =
      (text ++ data ++ plt).map fun f => (⟨f.ptr, f.name, f.addr + bias⟩ : SymSpec.Reg) := by
    rw [h3, hb]
    simp [Sym.Mapping.regs]
  obtain ⟨s, hl, hn⟩ := Sym.C51_load_symbols info
    (vs := [⟨r.vma.isElf, true, false, e.loadAddr, text, data, plt⟩])
    (by
      rw [hregs]
      intro g hg
      obtain ⟨f, hf, rfl⟩ := List.mem_map.1 hg
      exact h0 f hf)
    (by
      rw [hregs, List.map_map]
      exact hnd)
  refine ⟨r, e, s, h1, h4, hl, ?_⟩
  intro name f hf
  have hn := hn name
  rw [hregs] at hn
  have hfind : ((text ++ data ++ plt).map fun f => (⟨f.ptr, f.name, f.addr + bias⟩ : SymSpec.Reg)).find?
      (fun r => r.name = name) = some ⟨f.ptr, f.name, f.addr + bias⟩ := by
    rw [List.find?_map]
    have : ((fun r : SymSpec.Reg => decide (r.name = name)) ∘ fun f : Sym.FileSym =>
        (⟨f.ptr, f.name, f.addr + bias⟩ : SymSpec.Reg)) = fun f => decide (f.name = name) := rfl
    rw [this, hf]
    rfl
  rw [hfind] at hn
  obtain ⟨extras, h6, h7⟩ := hn
  exact ⟨extras, h6, by rw [h7, BitVec.add_comm]⟩

/-! A program with two segments, at 0x400000 and at 0x4011b0, in pages of 4096 bytes.
The page with the ELF header is mapped twice. -/

def exHdr : Hdr :=
  ⟨List.replicate 10 0, 2, 62, List.replicate 8 0, 64, List.replicate 16 0, 2, List.replicate 6 0,
    rfl, rfl, rfl, rfl⟩

def exSegs (low : BitVec 64) : List Seg :=
  [⟨1, 5, 0, low, 0, 0x1b0, 0x1b0, 0x1000⟩, ⟨1, 6, 0x1b0, 0x4011b0, 0, 0x20, 0x20, 0x1000⟩]

/-- The memory of the process: the first page of the file at 0x400000 and 0x401000. -/
def exRd (low : BitVec 64) (a : BitVec 64) (n : Nat) : Rd :=
  if a = 0x400000 ∧ n = 64 ∨ a = 0x401000 ∧ n = 64 then .got exHdr.bytes
  else if a = 0x400040 ∧ n = 112 ∨ a = 0x401040 ∧ n = 112 then .got (table (exSegs low))
  else .failed

def exArea (start : BitVec 64) : Area :=
  ⟨start, start + 0x1000, 0, 5, lit "/bin/tiny", .self, false, false, none, .null, 0⟩

theorem exFresh (start : BitVec 64) : Fresh (exArea start) :=
  ⟨rfl, rfl,
    fun h => absurd (List.isPrefixOf_iff_prefix.2 h)
      (show ¬ (lit "/etc").isPrefixOf (lit "/bin/tiny") = true by decide),
    fun h => absurd (List.isPrefixOf_iff_prefix.2 h)
      (show ¬ (lit "/sys").isPrefixOf (lit "/bin/tiny") = true by decide), Or.inr (Or.inl rfl)⟩

theorem exShows1 (low : BitVec 64) : Shows (exRd low) (exArea 0x400000) exHdr (exSegs low) :=
  ⟨rfl, rfl, rfl, by decide, by decide⟩

theorem exShows2 (low : BitVec 64) : Shows (exRd low) (exArea 0x401000) exHdr (exSegs low) :=
  ⟨rfl, rfl, rfl, by decide, by decide⟩

theorem exLowest (low : BitVec 64) (h : low ≤ 0x4011b0) : Lowest (exSegs low) low := by
  refine ⟨⟨_, List.mem_cons_self, rfl, rfl⟩, ?_⟩
  intro s hs _
  simp only [exSegs, List.mem_cons, List.not_mem_nil, or_false] at hs
  rcases hs with rfl | rfl
  · exact BitVec.le_refl _
  · exact h

/-- The hypotheses of `C47_bias_partial` are met: the program loaded with bias 0. -/
example : Fresh (exArea 0x400000) ∧ Shows (exRd 0x400000) (exArea 0x400000) exHdr (exSegs 0x400000) ∧
    FirstMapping 12 (exSegs 0x400000) 0 (exArea 0x400000).start ∧
    ∀ low, Lowest (exSegs 0x400000) low → 2 ^ 12 ∣ low.toNat := by
  refine ⟨exFresh _, exShows1 _, ⟨_, exLowest _ (by decide), by decide⟩, ?_⟩
  intro low h
  rw [lowest_unique h (exLowest _ (by decide))]
  exact ⟨0x400, rfl⟩

/-- **Finding on C47**: a program whose lowest loadable address is not at the start of a
page (here 0x400040, mapped from 0x400000 on, with bias 0) gets a load address 64
bytes below the bias, and so do all its symbols. -/
theorem C47_unaligned :
    FirstMapping 12 (exSegs 0x400040) 0 (exArea 0x400000).start ∧
    Shows (exRd 0x400040) (exArea 0x400000) exHdr (exSegs 0x400040) ∧
    ∃ r e, peekElfHdrs 12 (exRd 0x400040) true true 0 (exArea 0x400000) [] = some r ∧
      r.vma.elf = .live e ∧ e.loadAddr = -0x40 ∧ e.loadAddr ≠ 0 := by
  refine ⟨⟨_, exLowest _ (by decide), by decide⟩, exShows1 _, ?_⟩
  obtain ⟨r, e, h1, -, -, h4, h5, -, -⟩ := load_addr_eq 12 (exRd 0x400040) 0 (exArea 0x400000) [] exHdr _ _
    (exFresh _) (exShows1 _) (exLowest 0x400040 (by decide)) (by decide)
  exact ⟨r, e, h1, h4, by rw [h5]; rfl, by rw [h5]; decide⟩

/-- **Finding on C47**: when a later mapping of the same file shows the header again,
because the page holding it is mapped twice, that mapping is taken for another
loaded file, 4096 bytes above the bias. -/
theorem C47_again :
    FirstMapping 12 (exSegs 0x400000) 0 (exArea 0x400000).start ∧
    ∃ r e, peekElfHdrs 12 (exRd 0x400000) true true 0 (exArea 0x401000) [exArea 0x400000] = some r ∧
      r.vma.elf = .live e ∧ e.loadAddr = 0x1000 := by
  refine ⟨⟨_, exLowest _ (by decide), by decide⟩, ?_⟩
  obtain ⟨r, e, h1, -, -, h4, h5, -, -⟩ := load_addr_eq 12 (exRd 0x400000) 0 (exArea 0x401000) [exArea 0x400000]
    exHdr _ _ (exFresh _) (exShows2 _) (exLowest 0x400000 (by decide)) (by decide)
  exact ⟨r, e, h1, h4, by rw [h5]; rfl⟩

/-! C54 -/

/-- Nothing is held for the mapping, or everything held is reachable to be freed:
closing the task frees it once, and nothing is left. -/
def ClosesCleanly (v : Area) : Prop :=
  ∃ v', vmaFreeElf v = some v' ∧ ∀ e, v'.elf ≠ .live e

theorem closes_of_live {v : Area} {e : ElfMem} (h1 : v.isElf = true) (h2 : v.elf = .live e) (h3 : v.type ≠ .ulpatch) :
    ClosesCleanly v := by
  refine ⟨{ v with elf := .freed }, ?_, fun e => by simp⟩
  unfold vmaFreeElf
  rw [h1, h2]
  simp [h3]

theorem closes_of_not {v : Area} (h1 : v.isElf = false) (h2 : v.elf = .null) : ClosesCleanly v := by
  refine ⟨v, ?_, fun e => by rw [h2]; simp⟩
  unfold vmaFreeElf
  rw [h1]
  rfl

theorem peekDone_closes (shift : Nat) (e : Ehdr) (ps : List Phdr) (v : Area) (sibs : List Area) (self : Option Bool)
    (h1 : v.isElf = true) (h3 : v.type ≠ .ulpatch) :
    ClosesCleanly (peekDone shift e ps v sibs self).vma := by
  unfold peekDone
  dsimp only
  split
  · exact closes_of_not rfl rfl
  · obtain ⟨a, b, c, -, -⟩ := matchPhdrs_keep shift
      (v.start - (scanPhdrs shift v.prot ps (BitVec.allOnes 64) none sibs).1)
      (scanPhdrs shift v.prot ps (BitVec.allOnes 64) none sibs).2.1 ps
      { v with isShareLib := shareLib v e ps, elf := .live ⟨e, ps, v.start - (scanPhdrs shift v.prot ps (BitVec.allOnes 64) none sibs).1⟩ }
      (scanPhdrs shift v.prot ps (BitVec.allOnes 64) none sibs).2.2
    exact closes_of_live (b.trans h1) a (fun h => h3 (c.symm.trans h))

/-- **C54**, partial: for every mapping of every kind, whatever the memory of the
process holds, if the reads deliver all bytes asked for and memory is available, then
looking for the headers is defined and closing the task afterwards frees what was
kept exactly once.  Missing: reads that fail (`C54_unread`) or are short
(`C54_short`), and failing allocations (`C54_no_memory`). -/
theorem C54_freed_once_partial (shift : Nat) (mem : Mem) (ulp : Int) (v : Area) (sibs : List Area)
    (he : v.elf = .null) (hi : v.isElf = false) :
    ∃ r, peekElfHdrs shift (fun a n => .got (mem.read a n)) true true ulp v sibs = some r ∧ ClosesCleanly r.vma := by
  have triv : ClosesCleanly v := closes_of_not hi he
  have len : ¬ (mem.read v.start 64).length < 64 := by simp
  have main : v.type ≠ .ulpatch →
    ∃ r, (if (match v.elf with | .null => v.isElf | _ => true) = true then some (PeekRes.mk 0 v sibs none)
    else if (startswith v.name (lit "/etc") || startswith v.name (lit "/sys")) = true then
      some ⟨0, v, sibs, none⟩
    else
      match (if (mem.read v.start 64).length < 64 then none else some (parseEhdr (mem.read v.start 64))) with
      | none => some ⟨-11, v, sibs, none⟩
      | some e =>
        if (!ehdrOk e) = true then some ⟨0, v, sibs, none⟩
        else
          if (!true) = true then some ⟨-12, { v with isElf := true }, sibs, if v.type = .self then some (decide (e.type = ET_DYN)) else none⟩
          else if e.phnum = 0 then some (peekDone shift e [] { v with isElf := true } sibs (if v.type = .self then some (decide (e.type = ET_DYN)) else none))
          else if (!true) = true then some ⟨-12, { v with isElf := true, elf := .freed }, sibs, if v.type = .self then some (decide (e.type = ET_DYN)) else none⟩
          else
              if (mem.read (v.start + e.phoff) (e.phnum * 56)).length < e.phnum * 56 then some ⟨-11, { v with isElf := true, elf := .freed }, sibs, if v.type = .self then some (decide (e.type = ET_DYN)) else none⟩
              else some (peekDone shift e (parsePhdrs e.phnum (mem.read (v.start + e.phoff) (e.phnum * 56))) { v with isElf := true } sibs (if v.type = .self then some (decide (e.type = ET_DYN)) else none)))
      = some r ∧ ClosesCleanly r.vma := by
    intro ht
    rw [he, hi, if_neg (by simp), if_neg len]
    dsimp only
    split
    · exact ⟨_, rfl, triv⟩
    · split
      · exact ⟨_, rfl, triv⟩
      · rw [if_neg (by simp)]
        split
        · exact ⟨_, rfl, peekDone_closes _ _ _ _ _ _ rfl ht⟩
        · rw [if_neg (by simp), if_neg (by simp)]
          exact ⟨_, rfl, peekDone_closes _ _ _ _ _ _ rfl ht⟩
  unfold peekElfHdrs
  cases hty : v.type <;> rw [hty] at main <;>
    first
    | exact ⟨_, rfl, triv⟩
    | exact main (by simp)

/-- Every kind of content is covered; here memory full of zeros, and a real header. -/
example : (∃ r, peekElfHdrs 12 (fun a n => .got (Mem.read (fun _ => 0) a n)) true true 0 (exArea 0x400000) [] = some r ∧
    ClosesCleanly r.vma) ∧ (exArea 0x400000).elf = .null :=
  ⟨C54_freed_once_partial 12 _ 0 _ _ rfl rfl, rfl⟩

/-- The example above with the second read changed. -/
def exRdBad (r : Rd) (a : BitVec 64) (n : Nat) : Rd :=
  if a = 0x400000 ∧ n = 64 then .got exHdr.bytes else r

/-- **Finding on C54**: if the read of the program headers fails, they are used without
ever having been written (−1 is not less than an unsigned size). -/
theorem C54_unread : peekElfHdrs 12 (exRdBad .failed) true true 0 (exArea 0x400000) [] = none := by
  decide +kernel

/-- **Finding on C54**: if that read is short, the headers are freed, the mapping keeps
pointing to them, and closing the task frees them again. -/
theorem C54_short :
    ∃ r, peekElfHdrs 12 (exRdBad (.got [])) true true 0 (exArea 0x400000) [] = some r ∧
      r.vma.elf = .freed ∧ vmaFreeElf r.vma = none := by
  refine ⟨_, rfl, rfl, rfl⟩

/-- **Finding on C54**: without memory for the structure, closing the task reads through
a null pointer. -/
theorem C54_no_memory :
    ∃ r, peekElfHdrs 12 (exRd 0x400000) false true 0 (exArea 0x400000) [] = some r ∧
      r.vma.elf = .null ∧ vmaFreeElf r.vma = none := by
  refine ⟨_, rfl, rfl, rfl⟩

end Ulp.Peek
