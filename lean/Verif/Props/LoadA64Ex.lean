/-
An aarch64 patch file, on which the hypotheses of C57 and C58 hold.
-/
import Verif.Props.LoadA64
namespace Ulp.LoadBytes
open Load PatchFile A64Insn A64Reloc

/-- `new_f` calls `printf` (`BL` at offset 0) and has the distance to itself at offset 8. -/
def akFile : Image :=
  [0x7f, 0x45, 0x4c, 0x46, 2, 1, 1, 0] ++ leBytes 8 0 ++ leBytes 8 0x00b70001 ++ leBytes 8 0
    ++ leBytes 8 0 ++ leBytes 8 442 ++ leBytes 8 0 ++ leBytes 4 0 ++ leBytes 2 10 ++ leBytes 2 9
    ++ [0, 0, 0, 0x94, 0xc0, 0x03, 0x5f, 0xd6, 0, 0, 0, 0, 0, 0, 0, 0]
    ++ macroStrtab (lit "new_f") (lit "old_f") ++ macroInfo ++ lit "Tao" ++ [0] ++ lit "GPL" ++ [0]
    ++ (leBytes 4 4 ++ leBytes 4 4 ++ leBytes 4 3 ++ lit "GNU" ++ [0] ++ [0xde, 0xad, 0xbe, 0xef])
    ++ (leBytes 8 0 ++ leBytes 8 0 ++ leBytes 8 0
      ++ leBytes 4 116 ++ [0x12, 0] ++ leBytes 2 1 ++ leBytes 8 0 ++ leBytes 8 16
      ++ leBytes 4 122 ++ [0x10, 0] ++ leBytes 2 0 ++ leBytes 8 0 ++ leBytes 8 0)
    ++ (leBytes 8 0 ++ leBytes 8 0x20000011b ++ leBytes 8 0
      ++ leBytes 8 8 ++ leBytes 8 0x100000104 ++ leBytes 8 0)
    ++ lkStrtab
    ++ lkHdr 0 0 0 0 0 0 0
    ++ lkHdr 1 1 6 64 16 0 0
    ++ lkHdr 7 4 64 265 48 8 1
    ++ lkHdr 18 1 2 80 21 0 0
    ++ lkHdr 34 1 3 101 64 0 0
    ++ lkHdr 48 1 2 165 4 0 0
    ++ lkHdr 64 1 2 169 4 0 0
    ++ lkHdr 81 7 2 173 20 0 0
    ++ lkHdr 100 2 0 193 72 9 1
    ++ lkHdr 108 3 0 313 129 0 0

def akRels (i : Nat) : List RelEntry :=
  if i = 2 then [⟨0, 2, 283, 0⟩, ⟨8, 1, 260, 0⟩] else []

theorem ak_describes : Describes akFile lkSecs := by
  refine ⟨by decide +kernel, num_of (by decide +kernel), 442, 9, ⟨lit ".strtab", 3, 0, 0, 313, 129, 0, 0⟩,
    num_of (by decide +kernel), num_of (by decide +kernel), rfl, ?_⟩
  intro i s hs
  match i, hs with
  | 0, hs => cases hs; exact header_of (k := 0) (by decide +kernel)
  | 1, hs => cases hs; exact header_of (k := 1) (by decide +kernel)
  | 2, hs => cases hs; exact header_of (k := 7) (by decide +kernel)
  | 3, hs => cases hs; exact header_of (k := 18) (by decide +kernel)
  | 4, hs => cases hs; exact header_of (k := 34) (by decide +kernel)
  | 5, hs => cases hs; exact header_of (k := 48) (by decide +kernel)
  | 6, hs => cases hs; exact header_of (k := 64) (by decide +kernel)
  | 7, hs => cases hs; exact header_of (k := 81) (by decide +kernel)
  | 8, hs => cases hs; exact header_of (k := 100) (by decide +kernel)
  | 9, hs => cases hs; exact header_of (k := 108) (by decide +kernel)
  | n + 10, hs => cases hs

theorem ak_laid : Laid akFile lkSecs 442 ⟨lit ".strtab", 3, 0, 0, 313, 129, 0, 0⟩ where
  describes := ak_describes
  tab := num_of (by decide +kernel)
  strsAt := ⟨9, num_of (by decide +kernel), rfl⟩
  strsType := rfl
  tabFrom := by decide
  tabTo := by decide +kernel
  inside i s hs _ := by
    have := all_of (secs := lkSecs) (p := fun _ s => decide (s.offset + s.size ≤ akFile.length))
      (by decide +kernel) hs
    exact of_decide_eq_true this
  headers i s k hs hk := by
    have := all_of (secs := lkSecs)
      (p := fun _ s => decide (s.size = 0 ∨ 64 ≤ s.offset ∧ s.offset + s.size ≤ 442))
      (by decide +kernel) hs
    have := of_decide_eq_true this
    obtain ⟨_, h1, h2⟩ := hk
    omega
  apart i j s t k hs ht h1 h2 := by
    have := all_of (secs := lkSecs) (p := fun i s => decide (∀ j : Fin 10, ∀ t, lkSecs[j.val]? = some t →
      i = j.val ∨ s.offset + s.size ≤ t.offset ∨ t.offset + t.size ≤ s.offset)) (by
        simp only [List.all_eq_true]
        intro x hx
        rw [decide_eq_true_eq]
        intro j t ht
        have key : (lkSecs.zipIdx.all fun x => lkSecs.zipIdx.all fun y => decide (x.2 = y.2 ∨
          x.1.offset + x.1.size ≤ y.1.offset ∨ y.1.offset + y.1.size ≤ x.1.offset)) = true := by
          decide +kernel
        rw [List.all_eq_true] at key
        have := all_of (p := fun j t => decide (x.2 = j ∨
          x.1.offset + x.1.size ≤ t.offset ∨ t.offset + t.size ≤ x.1.offset)) (key x hx) ht
        exact of_decide_eq_true this) hs
    have := of_decide_eq_true this ⟨j, (List.getElem?_eq_some_iff.1 ht).1⟩ t ht
    obtain ⟨_, h3, h4⟩ := h1
    obtain ⟨_, h5, h6⟩ := h2
    dsimp only at this
    omega
  names i s hs := by
    match i, hs with
    | 0, hs => cases hs; exact ⟨0, num_of (by decide +kernel), str_of (by decide +kernel), by decide +kernel⟩
    | 1, hs => cases hs; exact ⟨1, num_of (by decide +kernel), str_of (by decide +kernel), by decide +kernel⟩
    | 2, hs => cases hs; exact ⟨7, num_of (by decide +kernel), str_of (by decide +kernel), by decide +kernel⟩
    | 3, hs => cases hs; exact ⟨18, num_of (by decide +kernel), str_of (by decide +kernel), by decide +kernel⟩
    | 4, hs => cases hs; exact ⟨34, num_of (by decide +kernel), str_of (by decide +kernel), by decide +kernel⟩
    | 5, hs => cases hs; exact ⟨48, num_of (by decide +kernel), str_of (by decide +kernel), by decide +kernel⟩
    | 6, hs => cases hs; exact ⟨64, num_of (by decide +kernel), str_of (by decide +kernel), by decide +kernel⟩
    | 7, hs => cases hs; exact ⟨81, num_of (by decide +kernel), str_of (by decide +kernel), by decide +kernel⟩
    | 8, hs => cases hs; exact ⟨100, num_of (by decide +kernel), str_of (by decide +kernel), by decide +kernel⟩
    | 9, hs => cases hs; exact ⟨108, num_of (by decide +kernel), str_of (by decide +kernel), by decide +kernel⟩
    | n + 10, hs => cases hs

theorem ak_readable : Readable akFile lkSecs := by
  refine ⟨?_, ?_, ?_, ?_⟩
  · intro s hs
    cases Has.unique lk_info hs
    decide +kernel
  · intro s hs
    cases Has.unique lk_strtab hs
    exact ⟨lit ".ULPATCH", lit "new_f", lit "old_f", str_of (by decide +kernel),
      str_of (by decide +kernel), str_of (by decide +kernel)⟩
  · intro s hs
    cases Has.unique lk_note hs
    exact ⟨4, 4, 3, num_of (by decide +kernel), num_of (by decide +kernel),
      num_of (by decide +kernel), by decide, by decide +kernel⟩
  · intro i s hs ht
    have := all_of (secs := lkSecs) (p := fun _ s => decide (s.link < lkSecs.length)) (by decide +kernel) hs
    exact of_decide_eq_true this

theorem ak_meta : Meta akFile lkSecs (lit "new_f") (lit "old_f") := by
  refine ⟨?_, ?_, ?_⟩
  · intro s hs
    cases Has.unique lk_info hs
    exact ⟨rfl, by decide⟩
  · intro s hs
    cases Has.unique lk_strtab hs
    exact ⟨rfl, lit ".ULPATCH", str_of (by decide +kernel), str_of (by decide +kernel),
      str_of (by decide +kernel), by decide +kernel⟩
  · intro s hs
    cases Has.unique lk_note hs
    exact num_of (by decide +kernel)

theorem ak_symbols : Symbols akFile lkSecs 8 ⟨lit ".symtab", 2, 0, 0, 193, 72, 9, 1⟩ ⟨lit ".strtab", 3, 0, 0, 313, 129, 0, 0⟩ lkSyms where
  sec := rfl
  pos := by decide
  type := rfl
  first j t h0 hj ht := by
    have := all_of (secs := lkSecs) (p := fun j t => decide (8 ≤ j ∨ t.type ≠ 2)) (by decide +kernel) ht
    have := of_decide_eq_true this
    omega
  link := rfl
  strType := rfl
  count := rfl
  entries k s hs := by
    match k, hs with
    | 0, hs => cases hs; exact ⟨⟨0, num_of (by decide +kernel), str_of (by decide +kernel), by decide +kernel⟩,
        num_of (by decide +kernel), num_of (by decide +kernel), num_of (by decide +kernel)⟩
    | 1, hs => cases hs; exact ⟨⟨116, num_of (by decide +kernel), str_of (by decide +kernel), by decide +kernel⟩,
        num_of (by decide +kernel), num_of (by decide +kernel), num_of (by decide +kernel)⟩
    | 2, hs => cases hs; exact ⟨⟨122, num_of (by decide +kernel), str_of (by decide +kernel), by decide +kernel⟩,
        num_of (by decide +kernel), num_of (by decide +kernel), num_of (by decide +kernel)⟩
    | n + 3, hs => cases hs
  sections := by
    intro s hs
    have : (lkSyms.all fun s => decide (s.shndx < lkSecs.length)) = true := by decide
    exact .inl (of_decide_eq_true (List.all_eq_true.1 this s hs))

/-- The relocations of the file. -/
theorem ak_reloc {i k : Nat} {t : Sec} {r : RelEntry} (h : Reloc lkSecs akRels i k t r) :
    i = 2 ∧ t = ⟨lit ".text", 1, 6, 0, 64, 16, 0, 0⟩ ∧
      ((k = 0 ∧ r = ⟨0, 2, 283, 0⟩) ∨ (k = 1 ∧ r = ⟨8, 1, 260, 0⟩)) := by
  obtain ⟨s, h1, h2, h3, h4, h5, h6⟩ := h
  have := all_of (secs := lkSecs) (p := fun i s => decide (s.type = 4 → i = 2)) (by decide +kernel) h1
  have := of_decide_eq_true this h2
  subst this
  cases h1
  cases h3
  refine ⟨rfl, rfl, ?_⟩
  match k, h6 with
  | 0, h6 => cases h6; exact .inl ⟨rfl, rfl⟩
  | 1, h6 => cases h6; exact .inr ⟨rfl, rfl⟩
  | n + 2, h6 => cases h6

theorem ak_relocs : Relocs Psabi.a64Width akFile lkSecs lkSyms.length akRels where
  null s hs := by cases hs; exact ⟨rfl, by decide⟩
  count i s hs ht := by
    have := all_of (secs := lkSecs) (p := fun i s => decide (s.type = 4 → i = 2)) (by decide +kernel) hs
    have := of_decide_eq_true this ht
    subst this
    cases hs; rfl
  entries i k s r hs ht hr := by
    have := all_of (secs := lkSecs) (p := fun i s => decide (s.type = 4 → i = 2)) (by decide +kernel) hs
    have := of_decide_eq_true this ht
    subst this
    cases hs
    match k, hr with
    | 0, hr => cases hr; exact ⟨num_of (by decide +kernel), num_of (by decide +kernel), by decide,
        num_of (by decide +kernel)⟩
    | 1, hr => cases hr; exact ⟨num_of (by decide +kernel), num_of (by decide +kernel), by decide,
        num_of (by decide +kernel)⟩
    | n + 2, hr => cases hr
  syms i k t r h := by
    obtain ⟨_, _, ⟨_, rfl⟩ | ⟨_, rfl⟩⟩ := ak_reloc h <;> decide
  fits i k t r h := by
    obtain ⟨_, rfl, ⟨_, rfl⟩ | ⟨_, rfl⟩⟩ := ak_reloc h <;> decide
  target i k t r h := by
    obtain ⟨_, rfl, _⟩ := ak_reloc h
    refine ⟨by decide, by decide, by decide, by decide, ?_⟩
    rintro ⟨_, _, _, h, _⟩
    exact absurd h (by decide)
  disjoint i k t r i' k' t' r' h h' hne a b ha hb := by
    obtain ⟨rfl, rfl, ⟨rfl, rfl⟩ | ⟨rfl, rfl⟩⟩ := ak_reloc h <;>
    obtain ⟨rfl, rfl, ⟨rfl, rfl⟩ | ⟨rfl, rfl⟩⟩ := ak_reloc h' <;>
    first
    | exact absurd rfl hne
    | (simp only [Psabi.a64Width] at ha hb; dsimp only; omega)

theorem ak_complete : Complete akFile lkSecs :=
  ⟨⟨_, lk_info⟩, ⟨_, lk_info, num_of (by decide +kernel)⟩, ⟨_, lk_strtab⟩, ⟨_, lk_author⟩,
    ⟨_, lk_license⟩, ⟨_, lk_note, rfl⟩, ⟨_, lk_strtab, str_of (by decide +kernel)⟩,
    8, _, by decide, rfl, rfl⟩

/-- The file is loaded, with the image at the same address in the tool and elsewhere. -/
theorem ak_loads (junk : Bool) {hdr : Addr} (hh : hdr = 0x10000000 ∨ hdr = 0x12000000) :
    ∃ L, load (a64 junk) { lkEnv with hdr := hdr } akFile = some (.ok L) := by
  refine C57_a64_accepted ak_laid ak_readable ak_meta ak_symbols ak_relocs _ junk ak_complete ?_ ?_ ?_ ?_ ?_
    (show lkEnv.find (lit "old_f") ≠ none by decide +kernel) ⟨_, List.mem_cons_of_mem _ (List.mem_cons_self ..), rfl⟩
  · rintro t ⟨s, n, d, h1, h2, h3, h4, h5⟩
    cases Has.unique lk_note h1
    cases h2.unique (num_of (v := 4) (by decide +kernel))
    cases h3.unique (num_of (v := 4) (by decide +kernel))
    intro ht
    cases List.mem_singleton.1 ht
    obtain ⟨b, hi, lo, e1, e2, e3, h, l, e4, e5, e6, e7, e8⟩ := h5 3 (by decide)
    rw [show akFile[173 + 12 + 4 + 3]? = some 0xef by decide +kernel] at e1
    cases e1
    rw [show (lit "deadbeee")[2 * 3 + 1]? = some 0x65 by decide +kernel] at e3
    cases e3
    cases show l = 15 by simp at e6; omega
    exact absurd e8 (by decide)
  · intro j s _ hs
    have := all_of (secs := lkSecs) (p := fun _ s => decide (s.type ≠ 8 ∧ s.name ≠ ascii ".bss"))
      (by decide +kernel) hs
    have := of_decide_eq_true this
    rintro ⟨h | h, _⟩
    · exact this.1 h
    · exact this.2 h
  · intro k s h0 hs
    match k, hs, h0 with
    | 1, hs, _ => cases hs; exact ⟨by decide, fun h => absurd h (by decide)⟩
    | 2, hs, _ => cases hs; exact ⟨by decide, fun _ => .inl ⟨0x10100000, (show lkEnv.find (lit "printf") = some 0x10100000 by decide +kernel), by decide⟩⟩
    | n + 3, hs, _ => cases hs
  · rintro ⟨i, s, t, h1, h2, _⟩
    have := all_of (secs := lkSecs) (p := fun _ s => decide (s.type ≠ 9)) (by decide +kernel) h1
    exact of_decide_eq_true this h2
  · intro i k t r h s S hs hS
    obtain ⟨rfl, rfl, ⟨rfl, rfl⟩ | ⟨rfl, rfl⟩⟩ := ak_reloc h
    · rcases lk_addr hs hS (by decide) with ⟨h, _⟩ | ⟨_, rfl⟩
      · exact absurd h (by decide)
      · refine ⟨.sap, rfl, ?_⟩
        intro lo hi hl
        cases (show some (lo, hi) = some (-2^27, 2^27) from hl.symm)
        rcases hh with rfl | rfl <;> decide
    · rcases lk_addr hs hS (by decide) with ⟨_, rfl⟩ | ⟨h, _⟩
      · exact ⟨.sap, rfl, fun lo hi hl => by cases hl⟩
      · exact absurd h (by decide)

theorem ak_call : Reloc lkSecs akRels 2 0 ⟨lit ".text", 1, 6, 0, 64, 16, 0, 0⟩ ⟨0, 2, 283, 0⟩ :=
  ⟨_, rfl, rfl, rfl, rfl, (by rintro ⟨_, _, _, h, _⟩; exact absurd h (by decide)), rfl⟩

theorem ak_dist : Reloc lkSecs akRels 2 1 ⟨lit ".text", 1, 6, 0, 64, 16, 0, 0⟩ ⟨8, 1, 260, 0⟩ :=
  ⟨_, rfl, rfl, rfl, rfl, (by rintro ⟨_, _, _, h, _⟩; exact absurd h (by decide)), rfl⟩

/-- The image has `BL` with the distance (in words) from the tool's image to `printf`. -/
example (junk : Bool) : ∃ L, load (a64 junk) { lkEnv with hdr := 0x12000000 } akFile = some (.ok L) ∧
    ∃ w' : BitVec 32, Num L.img 64 4 w'.toNat ∧
      A64.Field.imm26.Updated 0x94000000 w' (((0x10100000 - 0x12000040 : BitVec 64).extractLsb' 2 26).setWidth 64) := by
  obtain ⟨L, hL⟩ := ak_loads junk (.inr rfl)
  obtain ⟨s, S, h1, h2, h3⟩ := C57_a64_insns_partial ak_laid ak_readable ak_meta ak_symbols ak_relocs _ junk L hL
    2 0 _ _ ak_call
  rcases lk_addr h1 h2 (by decide) with ⟨h, _⟩ | ⟨_, rfl⟩
  · exact absurd h (by decide)
  obtain ⟨w', e1, e2⟩ := (h3 .sap rfl).2 rfl 0x94000000 (num_of (by decide +kernel)) ⟨by decide, fun h => absurd rfl h⟩
  exact ⟨L, hL, w', e1, e2.field _ _ _ rfl⟩

/-- With the tool's image at the target's address all is well. -/
example (junk : Bool) : ∃ L, load (a64 junk) { lkEnv with hdr := 0x10000000 } akFile = some (.ok L) ∧
    Num L.img 72 8 (2 ^ 64 - 8) := by
  obtain ⟨L, hL⟩ := ak_loads junk (.inl rfl)
  obtain ⟨s, S, h1, h2, h3⟩ := C57_a64_same_partial ak_laid ak_readable ak_meta ak_symbols ak_relocs _ junk L hL rfl
    2 1 _ _ ak_dist
  rcases lk_addr h1 h2 (by decide) with ⟨_, rfl⟩ | ⟨h, _⟩
  · exact ⟨L, hL, (h3 .sap rfl).1 8 rfl⟩
  · exact absurd h (by decide)

/-- Elsewhere the distance is wrong. -/
example (junk : Bool) : ∃ L, load (a64 junk) { lkEnv with hdr := 0x12000000 } akFile = some (.ok L) ∧
    ¬ Num L.img 72 8 (2 ^ 64 - 8) := by
  obtain ⟨L, hL⟩ := ak_loads junk (.inr rfl)
  refine ⟨L, hL, ?_⟩
  exact C57_a64_prel_wrong ak_laid ak_readable ak_meta ak_symbols ak_relocs _ junk L hL (by decide) 2 1 _ _ ak_dist rfl
    ⟨lit "new_f", 0x12, 1, 0⟩ rfl 0x10000040
    (SymAddr.defined (k := 1) (s := ⟨lit "new_f", 0x12, 1, 0⟩) (t := ⟨lit ".text", 1, 6, 0, 64, 16, 0, 0⟩)
      (by decide) (by decide) (by decide) (by decide) rfl)

theorem ap_applied (junk : Bool) {hdr : Addr} (hh : hdr = 0x10000000 ∨ hdr = 0x12000000) :
    ∃ w1, patchFile (a64 junk) { pfWorld with arch := .aarch64 } Patch.allOk hdr lkEnv.find 77 akFile pfEnv =
    some (w1, 0) := by
  have ho := Patch.openTask_ok Patch.allOk { pfWorld with arch := .aarch64 } true (fun _ _ => rfl) (by decide)
  refine C58_applied (a64 junk) ak_laid (a64_lawful junk) ak_readable ak_meta ak_symbols
    (relocs_mono (a64_width_le junk) ak_relocs) ho rfl
    ⟨rfl, rfl, rfl, by decide, rfl, rfl, by decide +kernel, rfl, rfl⟩ rfl (by decide) ?_
  have : sessionEnv { ulps := pfWorld.maps, maxId := Patch.maxOf pfWorld.maps 0, ftoProc := true }
      hdr 0x10000000 lkEnv.find 77 = { lkEnv with hdr := hdr } := by
    unfold sessionEnv lkEnv
    congr 1
  rw [this]
  exact ak_loads junk hh

theorem ak_length : akFile.length = lkFile.length := by decide +kernel

theorem ak_printf : SymAddr lkSecs 0x10000000 lkEnv.find 2 ⟨lit "printf", 0x10, 0, 0⟩ 0x10100000 :=
  SymAddr.found (by decide) rfl (by decide +kernel) (by decide)

/-- The new function calls `printf` at 0x10100000. -/
example (junk : Bool) : ∃ w1, patchFile (a64 junk) { pfWorld with arch := .aarch64 } Patch.allOk 0x10000000
      lkEnv.find 77 akFile pfEnv = some (w1, 0) ∧
    ∀ cpu : A64.Cpu, cpu.pc = 0x10000040 → cpu.mem = w1.mem →
      ∃ c', A64.step cpu = some c' ∧ c'.pc = 0x10100000 ∧ c'.x 30 = 0x10000044 := by
  obtain ⟨w1, h⟩ := ap_applied junk (hdr := 0x10000000) (.inl rfl)
  refine ⟨w1, h, fun cpu hpc hmem => ?_⟩
  obtain ⟨c', e1, e2, e3, _⟩ := C58_a64_call_partial ak_laid ak_readable ak_meta ak_symbols ak_relocs junk
    (by decide) rfl (by rw [ak_length]; exact pf_sep) h ak_call rfl rfl ak_printf
    (insn := 0x94000000) (num_of (by decide +kernel)) rfl cpu hpc hmem
    (by rw [hpc]; decide) (by rw [hpc]; decide) (by rw [hpc]; decide)
  refine ⟨c', e1, e2, ?_⟩
  rw [e3, hpc]
  rfl

/-- Unless the tool had the image elsewhere. -/
example (junk : Bool) : ∃ w1, patchFile (a64 junk) { pfWorld with arch := .aarch64 } Patch.allOk 0x12000000
      lkEnv.find 77 akFile pfEnv = some (w1, 0) ∧
    ∀ cpu : A64.Cpu, cpu.pc = 0x10000040 → cpu.mem = w1.mem →
      ∃ c', A64.step cpu = some c' ∧ c'.pc ≠ 0x10100000 := by
  obtain ⟨w1, h⟩ := ap_applied junk (hdr := 0x12000000) (.inr rfl)
  refine ⟨w1, h, fun cpu hpc hmem => ?_⟩
  exact C58_a64_call_wrong ak_laid ak_readable ak_meta ak_symbols ak_relocs junk
    (by decide) rfl (by rw [ak_length]; exact pf_sep) h (by decide) ak_call rfl rfl ak_printf
    (insn := 0x94000000) (num_of (by decide +kernel)) rfl
    (by decide) (by decide) (by decide) cpu hpc hmem

end Ulp.LoadBytes
