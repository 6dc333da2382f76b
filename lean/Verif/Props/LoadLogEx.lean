/-
A patch file that is loaded without debug messages only, for C121.
-/
import Verif.Props.LoadLog
namespace Ulp.LoadLog
open Load LoadBytes PatchFile

/-- A patch with five symbols that have no name, and with the string table at its end,
7 bytes before the end of a page. -/
def dbFile : Image :=
  [[0x7f, 0x45, 0x4c, 0x46, 2, 1, 1, 0], leBytes 8 0, leBytes 8 0x003e0001, leBytes 8 0,
    leBytes 8 0, leBytes 8 3320, leBytes 8 0, leBytes 4 0, leBytes 2 10, leBytes 2 9,
    [0x31, 0xc0, 0xc3, 0x90, 0x90, 0x90, 0x90, 0x90, 0, 0, 0, 0, 0, 0, 0, 0],
    macroStrtab (lit "new_f") (lit "old_f"), macroInfo, lit "Tao", [0], lit "GPL", [0],
    leBytes 4 4, leBytes 4 4, leBytes 4 3, lit "GNU", [0], [0xde, 0xad, 0xbe, 0xef],
    leBytes 8 0, leBytes 8 0, leBytes 8 0,
    leBytes 4 116, [0x12, 0], leBytes 2 1, leBytes 8 0, leBytes 8 16,
    leBytes 4 0, [0, 0], leBytes 2 1, leBytes 8 0, leBytes 8 0,
    leBytes 4 0, [0, 0], leBytes 2 1, leBytes 8 1, leBytes 8 0,
    leBytes 4 0, [0, 0], leBytes 2 1, leBytes 8 2, leBytes 8 0,
    leBytes 4 0, [0, 0], leBytes 2 1, leBytes 8 3, leBytes 8 0,
    leBytes 4 0, [0, 0], leBytes 2 1, leBytes 8 4, leBytes 8 0,
    List.replicate 2959 0,
    lkHdr 0 0 0 0 0 0 0,
    lkHdr 1 1 6 64 16 0 0,
    lkHdr 7 4 64 361 0 8 1,
    lkHdr 18 1 2 80 21 0 0,
    lkHdr 34 1 3 101 64 0 0,
    lkHdr 48 1 2 165 4 0 0,
    lkHdr 64 1 2 169 4 0 0,
    lkHdr 81 7 2 173 20 0 0,
    lkHdr 100 2 0 193 168 9 1,
    lkHdr 108 3 0 3960 129 0 0,
    lkStrtab].flatten

/-- Its section table. -/
def dbSecs : List Sec :=
  [⟨lit "", 0, 0, 0, 0, 0, 0, 0⟩,
   ⟨lit ".text", 1, 6, 0, 64, 16, 0, 0⟩,
   ⟨lit ".rela.text", 4, 64, 0, 361, 0, 8, 1⟩,
   ⟨lit ".ulpatch.strtab", 1, 2, 0, 80, 21, 0, 0⟩,
   ⟨lit ".ulpatch.info", 1, 3, 0, 101, 64, 0, 0⟩,
   ⟨lit ".ulpatch.author", 1, 2, 0, 165, 4, 0, 0⟩,
   ⟨lit ".ulpatch.license", 1, 2, 0, 169, 4, 0, 0⟩,
   ⟨lit ".note.gnu.build-id", 7, 2, 0, 173, 20, 0, 0⟩,
   ⟨lit ".symtab", 2, 0, 0, 193, 168, 9, 1⟩,
   ⟨lit ".strtab", 3, 0, 0, 3960, 129, 0, 0⟩]

def dbSyms : List SymEntry :=
  [⟨[], 0, 0, 0⟩, ⟨lit "new_f", 0x12, 1, 0⟩, ⟨[], 0, 1, 0⟩, ⟨[], 0, 1, 1⟩, ⟨[], 0, 1, 2⟩, ⟨[], 0, 1, 3⟩, ⟨[], 0, 1, 4⟩]

theorem db_describes : Describes dbFile dbSecs := by
  refine ⟨by decide +kernel, num_of (by decide +kernel), 3320, 9, ⟨lit ".strtab", 3, 0, 0, 3960, 129, 0, 0⟩,
    num_of (by decide +kernel), num_of (by decide +kernel), rfl, ?_⟩
  intro i s hs
  match i, hs with
  | 0, hs => cases hs; exact header_of (k := 0) (by decide +kernel)
  | 1, hs => cases hs; exact header_of (k := 1) (by decide +kernel)
  | 2, hs => cases hs; exact header_of (k := 7) (by decide +kernel)
  | 3, hs => cases hs; exact header_of (k := 18) (by decide +kernel)
  | 4, hs => cases hs; exact header_of (k := 34) (by decide +kernel)
  | 5, hs => cases hs; exact header_of (k := 48) (by decide +kernel)
  | 6, hs => cases hs; exact header_of (k := 64) (by decide +kernel)
  | 7, hs => cases hs; exact header_of (k := 81) (by decide +kernel)
  | 8, hs => cases hs; exact header_of (k := 100) (by decide +kernel)
  | 9, hs => cases hs; exact header_of (k := 108) (by decide +kernel)
  | n + 10, hs => cases hs

theorem db_strtab : Has dbSecs ".ulpatch.strtab"
    ⟨lit ".ulpatch.strtab", 1, 2, 0, 80, 21, 0, 0⟩ :=
  has_of 3 (by decide) rfl rfl (by decide +kernel)
theorem db_info : Has dbSecs ".ulpatch.info"
    ⟨lit ".ulpatch.info", 1, 3, 0, 101, 64, 0, 0⟩ :=
  has_of 4 (by decide) rfl rfl (by decide +kernel)
theorem db_author : Has dbSecs ".ulpatch.author"
    ⟨lit ".ulpatch.author", 1, 2, 0, 165, 4, 0, 0⟩ :=
  has_of 5 (by decide) rfl rfl (by decide +kernel)
theorem db_license : Has dbSecs ".ulpatch.license"
    ⟨lit ".ulpatch.license", 1, 2, 0, 169, 4, 0, 0⟩ :=
  has_of 6 (by decide) rfl rfl (by decide +kernel)
theorem db_note : Has dbSecs ".note.gnu.build-id"
    ⟨lit ".note.gnu.build-id", 7, 2, 0, 173, 20, 0, 0⟩ :=
  has_of 7 (by decide) rfl rfl (by decide +kernel)

theorem db_laid : Laid dbFile dbSecs 3320 ⟨lit ".strtab", 3, 0, 0, 3960, 129, 0, 0⟩ where
  describes := db_describes
  tab := num_of (by decide +kernel)
  strsAt := ⟨9, num_of (by decide +kernel), rfl⟩
  strsType := rfl
  tabFrom := by decide
  tabTo := by decide +kernel
  inside i s hs _ := by
    have := all_of (secs := dbSecs) (p := fun _ s => decide (s.offset + s.size ≤ dbFile.length))
      (by decide +kernel) hs
    exact of_decide_eq_true this
  headers i s k hs hk := by
    have := all_of (secs := dbSecs)
      (p := fun _ s => decide (s.size = 0 ∨ 64 ≤ s.offset ∧
        (s.offset + s.size ≤ 3320 ∨ 3960 ≤ s.offset)))
      (by decide +kernel) hs
    have := of_decide_eq_true this
    obtain ⟨_, h1, h2⟩ := hk
    have : dbSecs.length = 10 := rfl
    omega
  apart i j s t k hs ht h1 h2 := by
    have := all_of (secs := dbSecs) (p := fun i s => decide (∀ j : Fin 10, ∀ t, dbSecs[j.val]? = some t →
      i = j.val ∨ s.offset + s.size ≤ t.offset ∨ t.offset + t.size ≤ s.offset)) (by
        simp only [List.all_eq_true]
        intro x hx
        rw [decide_eq_true_eq]
        intro j t ht
        have key : (dbSecs.zipIdx.all fun x => dbSecs.zipIdx.all fun y => decide (x.2 = y.2 ∨
          x.1.offset + x.1.size ≤ y.1.offset ∨ y.1.offset + y.1.size ≤ x.1.offset)) = true := by
          decide +kernel
        rw [List.all_eq_true] at key
        have := all_of (p := fun j t => decide (x.2 = j ∨
          x.1.offset + x.1.size ≤ t.offset ∨ t.offset + t.size ≤ x.1.offset)) (key x hx) ht
        exact of_decide_eq_true this) hs
    have := of_decide_eq_true this ⟨j, (List.getElem?_eq_some_iff.1 ht).1⟩ t ht
    obtain ⟨_, h3, h4⟩ := h1
    obtain ⟨_, h5, h6⟩ := h2
    dsimp only at this
    omega
  names i s hs := by
    match i, hs with
    | 0, hs => cases hs; exact ⟨0, num_of (by decide +kernel), str_of (by decide +kernel), by decide +kernel⟩
    | 1, hs => cases hs; exact ⟨1, num_of (by decide +kernel), str_of (by decide +kernel), by decide +kernel⟩
    | 2, hs => cases hs; exact ⟨7, num_of (by decide +kernel), str_of (by decide +kernel), by decide +kernel⟩
    | 3, hs => cases hs; exact ⟨18, num_of (by decide +kernel), str_of (by decide +kernel), by decide +kernel⟩
    | 4, hs => cases hs; exact ⟨34, num_of (by decide +kernel), str_of (by decide +kernel), by decide +kernel⟩
    | 5, hs => cases hs; exact ⟨48, num_of (by decide +kernel), str_of (by decide +kernel), by decide +kernel⟩
    | 6, hs => cases hs; exact ⟨64, num_of (by decide +kernel), str_of (by decide +kernel), by decide +kernel⟩
    | 7, hs => cases hs; exact ⟨81, num_of (by decide +kernel), str_of (by decide +kernel), by decide +kernel⟩
    | 8, hs => cases hs; exact ⟨100, num_of (by decide +kernel), str_of (by decide +kernel), by decide +kernel⟩
    | 9, hs => cases hs; exact ⟨108, num_of (by decide +kernel), str_of (by decide +kernel), by decide +kernel⟩
    | n + 10, hs => cases hs

theorem db_readable : Readable dbFile dbSecs := by
  refine ⟨?_, ?_, ?_, ?_⟩
  · intro s hs
    cases Has.unique db_info hs
    decide +kernel
  · intro s hs
    cases Has.unique db_strtab hs
    exact ⟨lit ".ULPATCH", lit "new_f", lit "old_f", str_of (by decide +kernel),
      str_of (by decide +kernel), str_of (by decide +kernel)⟩
  · intro s hs
    cases Has.unique db_note hs
    exact ⟨4, 4, 3, num_of (by decide +kernel), num_of (by decide +kernel),
      num_of (by decide +kernel), by decide, by decide +kernel⟩
  · intro i s hs ht
    have := all_of (secs := dbSecs) (p := fun _ s => decide (s.link < dbSecs.length)) (by decide +kernel) hs
    exact of_decide_eq_true this

theorem db_meta : Meta dbFile dbSecs (lit "new_f") (lit "old_f") := by
  refine ⟨?_, ?_, ?_⟩
  · intro s hs
    cases Has.unique db_info hs
    exact ⟨rfl, by decide⟩
  · intro s hs
    cases Has.unique db_strtab hs
    exact ⟨rfl, lit ".ULPATCH", str_of (by decide +kernel), str_of (by decide +kernel),
      str_of (by decide +kernel), by decide +kernel⟩
  · intro s hs
    cases Has.unique db_note hs
    exact num_of (by decide +kernel)

theorem db_symbols : Symbols dbFile dbSecs 8 ⟨lit ".symtab", 2, 0, 0, 193, 168, 9, 1⟩ ⟨lit ".strtab", 3, 0, 0, 3960, 129, 0, 0⟩ dbSyms where
  sec := rfl
  pos := by decide
  type := rfl
  first j t h0 hj ht := by
    have := all_of (secs := dbSecs) (p := fun j t => decide (8 ≤ j ∨ t.type ≠ 2)) (by decide +kernel) ht
    have := of_decide_eq_true this
    omega
  link := rfl
  strType := rfl
  count := rfl
  entries k s hs := by
    match k, hs with
    | 0, hs => cases hs; exact ⟨⟨0, num_of (by decide +kernel), str_of (by decide +kernel), by decide +kernel⟩,
        num_of (by decide +kernel), num_of (by decide +kernel), num_of (by decide +kernel)⟩
    | 1, hs => cases hs; exact ⟨⟨116, num_of (by decide +kernel), str_of (by decide +kernel), by decide +kernel⟩,
        num_of (by decide +kernel), num_of (by decide +kernel), num_of (by decide +kernel)⟩
    | 2, hs => cases hs; exact ⟨⟨0, num_of (by decide +kernel), str_of (by decide +kernel), by decide +kernel⟩,
        num_of (by decide +kernel), num_of (by decide +kernel), num_of (by decide +kernel)⟩
    | 3, hs => cases hs; exact ⟨⟨0, num_of (by decide +kernel), str_of (by decide +kernel), by decide +kernel⟩,
        num_of (by decide +kernel), num_of (by decide +kernel), num_of (by decide +kernel)⟩
    | 4, hs => cases hs; exact ⟨⟨0, num_of (by decide +kernel), str_of (by decide +kernel), by decide +kernel⟩,
        num_of (by decide +kernel), num_of (by decide +kernel), num_of (by decide +kernel)⟩
    | 5, hs => cases hs; exact ⟨⟨0, num_of (by decide +kernel), str_of (by decide +kernel), by decide +kernel⟩,
        num_of (by decide +kernel), num_of (by decide +kernel), num_of (by decide +kernel)⟩
    | 6, hs => cases hs; exact ⟨⟨0, num_of (by decide +kernel), str_of (by decide +kernel), by decide +kernel⟩,
        num_of (by decide +kernel), num_of (by decide +kernel), num_of (by decide +kernel)⟩
    | n + 7, hs => cases hs
  sections := by
    intro s hs
    have : (dbSyms.all fun s => decide (s.shndx < dbSecs.length)) = true := by decide
    exact .inl (of_decide_eq_true (List.all_eq_true.1 this s hs))

/-- The file has no relocations. -/
theorem db_reloc {i k : Nat} {t : Sec} {r : RelEntry} (h : Reloc dbSecs (fun _ => []) i k t r) : False := by
  obtain ⟨s, h1, h2, h3, h4, h5, h6⟩ := h
  cases h6

theorem db_relocs : Relocs Psabi.x86Width dbFile dbSecs dbSyms.length (fun _ => []) where
  null s hs := by cases hs; exact ⟨rfl, by decide⟩
  count i s hs ht := by
    have := all_of (secs := dbSecs) (p := fun i s => decide (s.type = 4 → i = 2)) (by decide +kernel) hs
    have := of_decide_eq_true this ht
    subst this
    cases hs; rfl
  entries i k s r hs ht hr := by cases hr
  syms i k t r h := (db_reloc h).elim
  fits i k t r h := (db_reloc h).elim
  target i k t r h := (db_reloc h).elim
  disjoint i k t r i' k' t' r' h := (db_reloc h).elim

theorem db_complete : Complete dbFile dbSecs :=
  ⟨⟨_, db_info⟩, ⟨_, db_info, num_of (by decide +kernel)⟩, ⟨_, db_strtab⟩, ⟨_, db_author⟩,
    ⟨_, db_license⟩, ⟨_, db_note, rfl⟩, ⟨_, db_strtab, str_of (by decide +kernel)⟩,
    8, _, by decide, rfl, rfl⟩

/-- The file is loaded. -/
theorem db_loads : ∃ L, load x86 lkEnv dbFile = some (.ok L) := by
  refine C57_x86_accepted db_laid db_readable db_meta db_symbols db_relocs _ db_complete ?_ ?_ ?_ ?_ ?_
    (show lkEnv.find (lit "old_f") ≠ none by decide +kernel) ⟨_, List.mem_cons_of_mem _ (List.mem_cons_self ..), rfl⟩
  · rintro t ⟨s, n, d, h1, h2, h3, h4, h5⟩
    cases Has.unique db_note h1
    cases h2.unique (num_of (v := 4) (by decide +kernel))
    cases h3.unique (num_of (v := 4) (by decide +kernel))
    intro ht
    cases List.mem_singleton.1 ht
    obtain ⟨b, hi, lo, e1, e2, e3, h, l, e4, e5, e6, e7, e8⟩ := h5 3 (by decide)
    rw [show dbFile[173 + 12 + 4 + 3]? = some 0xef by decide +kernel] at e1
    cases e1
    rw [show (lit "deadbeee")[2 * 3 + 1]? = some 0x65 by decide +kernel] at e3
    cases e3
    cases show l = 15 by simp at e6; omega
    exact absurd e8 (by decide)
  · intro j s _ hs
    have := all_of (secs := dbSecs) (p := fun _ s => decide (s.type ≠ 8 ∧ s.name ≠ ascii ".bss"))
      (by decide +kernel) hs
    have := of_decide_eq_true this
    rintro ⟨h | h, _⟩
    · exact this.1 h
    · exact this.2 h
  · intro k s h0 hs
    have : (dbSyms.drop 1).all (fun s => decide (s.shndx = 1)) = true := by decide
    have h1 : s.shndx = 1 := by
      refine of_decide_eq_true (List.all_eq_true.1 this s (List.mem_iff_getElem?.2 ⟨k - 1, ?_⟩))
      rw [List.getElem?_drop, show 1 + (k - 1) = k by omega]; exact hs
    exact ⟨fun h => absurd (h1.symm.trans h) (by decide), fun h => absurd (h1.symm.trans h) (by decide)⟩
  · rintro ⟨i, s, t, h1, h2, _⟩
    have := all_of (secs := dbSecs) (p := fun _ s => decide (s.type ≠ 9)) (by decide +kernel) h1
    exact of_decide_eq_true this h2
  · intro i k t r h; exact (db_reloc h).elim

/-- C121 does not hold: a file that is loaded without debug messages makes the loader read
memory behind its mapping with them. -/
theorem C121_violated : (∃ L, loadLog 3 x86 lkEnv dbFile = some ([], .ok L)) ∧
    loadLog 7 x86 lkEnv dbFile = none := by
  refine ⟨?_, C121_overread db_laid db_readable db_complete db_symbols x86 lkEnv 7 (by decide) (by decide)
    (by decide) (by decide +kernel)⟩
  obtain ⟨L, hL⟩ := db_loads
  refine ⟨L, ?_⟩
  rw [C121_quiet db_laid db_readable db_symbols x86 lkEnv 3 (by decide), hL]; rfl

end Ulp.LoadLog
