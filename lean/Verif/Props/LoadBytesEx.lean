/-
A patch file with relocations, on which the hypotheses of C57 hold.
-/
import Verif.Props.LoadBytes
import Verif.Props.LoadEx
namespace Ulp.LoadBytes
open Load PatchFile

/-- One section header. -/
def lkHdr (name type flags offset size link info : BitVec 64) : List Byte :=
  leBytes 4 name ++ leBytes 4 type ++ leBytes 8 flags ++ leBytes 8 0 ++ leBytes 8 offset
    ++ leBytes 8 size ++ leBytes 4 link ++ leBytes 4 info ++ leBytes 8 1 ++ leBytes 8 0

def lkStrtab : List Byte :=
  lit "" ++ [0]
    ++ lit ".text" ++ [0]
    ++ lit ".rela.text" ++ [0]
    ++ lit ".ulpatch.strtab" ++ [0]
    ++ lit ".ulpatch.info" ++ [0]
    ++ lit ".ulpatch.author" ++ [0]
    ++ lit ".ulpatch.license" ++ [0]
    ++ lit ".note.gnu.build-id" ++ [0]
    ++ lit ".symtab" ++ [0]
    ++ lit ".strtab" ++ [0]
    ++ lit "new_f" ++ [0]
    ++ lit "printf" ++ [0]

/-- `new_f` calls `printf` (`call` at offset 0) and has its own address at offset 8. -/
def lkFile : Image :=
  [0x7f, 0x45, 0x4c, 0x46, 2, 1, 1, 0] ++ leBytes 8 0 ++ leBytes 8 0x003e0001 ++ leBytes 8 0
    ++ leBytes 8 0 ++ leBytes 8 442 ++ leBytes 8 0 ++ leBytes 4 0 ++ leBytes 2 10 ++ leBytes 2 9
    ++ [0xe8, 0, 0, 0, 0, 0xc3, 0x90, 0x90, 0, 0, 0, 0, 0, 0, 0, 0]
    ++ macroStrtab (lit "new_f") (lit "old_f") ++ macroInfo ++ lit "Tao" ++ [0] ++ lit "GPL" ++ [0]
    ++ (leBytes 4 4 ++ leBytes 4 4 ++ leBytes 4 3 ++ lit "GNU" ++ [0] ++ [0xde, 0xad, 0xbe, 0xef])
    ++ (leBytes 8 0 ++ leBytes 8 0 ++ leBytes 8 0
      ++ leBytes 4 116 ++ [0x12, 0] ++ leBytes 2 1 ++ leBytes 8 0 ++ leBytes 8 16
      ++ leBytes 4 122 ++ [0x10, 0] ++ leBytes 2 0 ++ leBytes 8 0 ++ leBytes 8 0)
    ++ (leBytes 8 1 ++ leBytes 8 0x200000004 ++ leBytes 8 (-4)
      ++ leBytes 8 8 ++ leBytes 8 0x100000001 ++ leBytes 8 0)
    ++ lkStrtab
    ++ lkHdr 0 0 0 0 0 0 0
    ++ lkHdr 1 1 6 64 16 0 0
    ++ lkHdr 7 4 64 265 48 8 1
    ++ lkHdr 18 1 2 80 21 0 0
    ++ lkHdr 34 1 3 101 64 0 0
    ++ lkHdr 48 1 2 165 4 0 0
    ++ lkHdr 64 1 2 169 4 0 0
    ++ lkHdr 81 7 2 173 20 0 0
    ++ lkHdr 100 2 0 193 72 9 1
    ++ lkHdr 108 3 0 313 129 0 0

/-- Its section table. -/
def lkSecs : List Sec :=
  [⟨lit "", 0, 0, 0, 0, 0, 0, 0⟩,
   ⟨lit ".text", 1, 6, 0, 64, 16, 0, 0⟩,
   ⟨lit ".rela.text", 4, 64, 0, 265, 48, 8, 1⟩,
   ⟨lit ".ulpatch.strtab", 1, 2, 0, 80, 21, 0, 0⟩,
   ⟨lit ".ulpatch.info", 1, 3, 0, 101, 64, 0, 0⟩,
   ⟨lit ".ulpatch.author", 1, 2, 0, 165, 4, 0, 0⟩,
   ⟨lit ".ulpatch.license", 1, 2, 0, 169, 4, 0, 0⟩,
   ⟨lit ".note.gnu.build-id", 7, 2, 0, 173, 20, 0, 0⟩,
   ⟨lit ".symtab", 2, 0, 0, 193, 72, 9, 1⟩,
   ⟨lit ".strtab", 3, 0, 0, 313, 129, 0, 0⟩]

def lkSyms : List SymEntry :=
  [⟨[], 0, 0, 0⟩, ⟨lit "new_f", 0x12, 1, 0⟩, ⟨lit "printf", 0x10, 0, 0⟩]

def lkRels (i : Nat) : List RelEntry :=
  if i = 2 then [⟨1, 2, 4, 2 ^ 64 - 4⟩, ⟨8, 1, 1, 0⟩] else []

theorem lk_describes : Describes lkFile lkSecs := by
  refine ⟨by decide +kernel, num_of (by decide +kernel), 442, 9, ⟨lit ".strtab", 3, 0, 0, 313, 129, 0, 0⟩,
    num_of (by decide +kernel), num_of (by decide +kernel), rfl, ?_⟩
  intro i s hs
  match i, hs with
  | 0, hs => cases hs; exact header_of (k := 0) (by decide +kernel)
  | 1, hs => cases hs; exact header_of (k := 1) (by decide +kernel)
  | 2, hs => cases hs; exact header_of (k := 7) (by decide +kernel)
  | 3, hs => cases hs; exact header_of (k := 18) (by decide +kernel)
  | 4, hs => cases hs; exact header_of (k := 34) (by decide +kernel)
  | 5, hs => cases hs; exact header_of (k := 48) (by decide +kernel)
  | 6, hs => cases hs; exact header_of (k := 64) (by decide +kernel)
  | 7, hs => cases hs; exact header_of (k := 81) (by decide +kernel)
  | 8, hs => cases hs; exact header_of (k := 100) (by decide +kernel)
  | 9, hs => cases hs; exact header_of (k := 108) (by decide +kernel)
  | n + 10, hs => cases hs

theorem lk_strtab : Has lkSecs ".ulpatch.strtab"
    ⟨lit ".ulpatch.strtab", 1, 2, 0, 80, 21, 0, 0⟩ :=
  has_of 3 (by decide) rfl rfl (by decide +kernel)
theorem lk_info : Has lkSecs ".ulpatch.info"
    ⟨lit ".ulpatch.info", 1, 3, 0, 101, 64, 0, 0⟩ :=
  has_of 4 (by decide) rfl rfl (by decide +kernel)
theorem lk_author : Has lkSecs ".ulpatch.author"
    ⟨lit ".ulpatch.author", 1, 2, 0, 165, 4, 0, 0⟩ :=
  has_of 5 (by decide) rfl rfl (by decide +kernel)
theorem lk_license : Has lkSecs ".ulpatch.license"
    ⟨lit ".ulpatch.license", 1, 2, 0, 169, 4, 0, 0⟩ :=
  has_of 6 (by decide) rfl rfl (by decide +kernel)
theorem lk_note : Has lkSecs ".note.gnu.build-id"
    ⟨lit ".note.gnu.build-id", 7, 2, 0, 173, 20, 0, 0⟩ :=
  has_of 7 (by decide) rfl rfl (by decide +kernel)

/-- A property of every section, checked one by one. -/
theorem all_of {secs : List Sec} {p : Nat → Sec → Bool}
    (h : (secs.zipIdx.all fun x => p x.2 x.1) = true) {i : Nat} {s : Sec} (hs : secs[i]? = some s) :
    p i s = true := by
  rw [List.all_eq_true] at h
  refine h (s, i) (List.mem_iff_getElem?.2 ⟨i, ?_⟩)
  rw [List.getElem?_zipIdx, hs]; simp

theorem lk_laid : Laid lkFile lkSecs 442 ⟨lit ".strtab", 3, 0, 0, 313, 129, 0, 0⟩ where
  describes := lk_describes
  tab := num_of (by decide +kernel)
  strsAt := ⟨9, num_of (by decide +kernel), rfl⟩
  strsType := rfl
  tabFrom := by decide
  tabTo := by decide +kernel
  inside i s hs _ := by
    have := all_of (secs := lkSecs) (p := fun _ s => decide (s.offset + s.size ≤ lkFile.length))
      (by decide +kernel) hs
    exact of_decide_eq_true this
  headers i s k hs hk := by
    have := all_of (secs := lkSecs)
      (p := fun _ s => decide (s.size = 0 ∨ 64 ≤ s.offset ∧ s.offset + s.size ≤ 442))
      (by decide +kernel) hs
    have := of_decide_eq_true this
    obtain ⟨_, h1, h2⟩ := hk
    omega
  apart i j s t k hs ht h1 h2 := by
    have := all_of (secs := lkSecs) (p := fun i s => decide (∀ j : Fin 10, ∀ t, lkSecs[j.val]? = some t →
      i = j.val ∨ s.offset + s.size ≤ t.offset ∨ t.offset + t.size ≤ s.offset)) (by
        simp only [List.all_eq_true]
        intro x hx
        rw [decide_eq_true_eq]
        intro j t ht
        have key : (lkSecs.zipIdx.all fun x => lkSecs.zipIdx.all fun y => decide (x.2 = y.2 ∨
          x.1.offset + x.1.size ≤ y.1.offset ∨ y.1.offset + y.1.size ≤ x.1.offset)) = true := by
          decide +kernel
        rw [List.all_eq_true] at key
        have := all_of (p := fun j t => decide (x.2 = j ∨
          x.1.offset + x.1.size ≤ t.offset ∨ t.offset + t.size ≤ x.1.offset)) (key x hx) ht
        exact of_decide_eq_true this) hs
    have := of_decide_eq_true this ⟨j, (List.getElem?_eq_some_iff.1 ht).1⟩ t ht
    obtain ⟨_, h3, h4⟩ := h1
    obtain ⟨_, h5, h6⟩ := h2
    dsimp only at this
    omega
  names i s hs := by
    match i, hs with
    | 0, hs => cases hs; exact ⟨0, num_of (by decide +kernel), str_of (by decide +kernel), by decide +kernel⟩
    | 1, hs => cases hs; exact ⟨1, num_of (by decide +kernel), str_of (by decide +kernel), by decide +kernel⟩
    | 2, hs => cases hs; exact ⟨7, num_of (by decide +kernel), str_of (by decide +kernel), by decide +kernel⟩
    | 3, hs => cases hs; exact ⟨18, num_of (by decide +kernel), str_of (by decide +kernel), by decide +kernel⟩
    | 4, hs => cases hs; exact ⟨34, num_of (by decide +kernel), str_of (by decide +kernel), by decide +kernel⟩
    | 5, hs => cases hs; exact ⟨48, num_of (by decide +kernel), str_of (by decide +kernel), by decide +kernel⟩
    | 6, hs => cases hs; exact ⟨64, num_of (by decide +kernel), str_of (by decide +kernel), by decide +kernel⟩
    | 7, hs => cases hs; exact ⟨81, num_of (by decide +kernel), str_of (by decide +kernel), by decide +kernel⟩
    | 8, hs => cases hs; exact ⟨100, num_of (by decide +kernel), str_of (by decide +kernel), by decide +kernel⟩
    | 9, hs => cases hs; exact ⟨108, num_of (by decide +kernel), str_of (by decide +kernel), by decide +kernel⟩
    | n + 10, hs => cases hs

theorem lk_readable : Readable lkFile lkSecs := by
  refine ⟨?_, ?_, ?_, ?_⟩
  · intro s hs
    cases Has.unique lk_info hs
    decide +kernel
  · intro s hs
    cases Has.unique lk_strtab hs
    exact ⟨lit ".ULPATCH", lit "new_f", lit "old_f", str_of (by decide +kernel),
      str_of (by decide +kernel), str_of (by decide +kernel)⟩
  · intro s hs
    cases Has.unique lk_note hs
    exact ⟨4, 4, 3, num_of (by decide +kernel), num_of (by decide +kernel),
      num_of (by decide +kernel), by decide, by decide +kernel⟩
  · intro i s hs ht
    have := all_of (secs := lkSecs) (p := fun _ s => decide (s.link < lkSecs.length)) (by decide +kernel) hs
    exact of_decide_eq_true this

theorem lk_meta : Meta lkFile lkSecs (lit "new_f") (lit "old_f") := by
  refine ⟨?_, ?_, ?_⟩
  · intro s hs
    cases Has.unique lk_info hs
    exact ⟨rfl, by decide⟩
  · intro s hs
    cases Has.unique lk_strtab hs
    exact ⟨rfl, lit ".ULPATCH", str_of (by decide +kernel), str_of (by decide +kernel),
      str_of (by decide +kernel), by decide +kernel⟩
  · intro s hs
    cases Has.unique lk_note hs
    exact num_of (by decide +kernel)

theorem lk_symbols : Symbols lkFile lkSecs 8 ⟨lit ".symtab", 2, 0, 0, 193, 72, 9, 1⟩ ⟨lit ".strtab", 3, 0, 0, 313, 129, 0, 0⟩ lkSyms where
  sec := rfl
  pos := by decide
  type := rfl
  first j t h0 hj ht := by
    have := all_of (secs := lkSecs) (p := fun j t => decide (8 ≤ j ∨ t.type ≠ 2)) (by decide +kernel) ht
    have := of_decide_eq_true this
    omega
  link := rfl
  strType := rfl
  count := rfl
  entries k s hs := by
    match k, hs with
    | 0, hs => cases hs; exact ⟨⟨0, num_of (by decide +kernel), str_of (by decide +kernel), by decide +kernel⟩,
        num_of (by decide +kernel), num_of (by decide +kernel), num_of (by decide +kernel)⟩
    | 1, hs => cases hs; exact ⟨⟨116, num_of (by decide +kernel), str_of (by decide +kernel), by decide +kernel⟩,
        num_of (by decide +kernel), num_of (by decide +kernel), num_of (by decide +kernel)⟩
    | 2, hs => cases hs; exact ⟨⟨122, num_of (by decide +kernel), str_of (by decide +kernel), by decide +kernel⟩,
        num_of (by decide +kernel), num_of (by decide +kernel), num_of (by decide +kernel)⟩
    | n + 3, hs => cases hs
  sections := by
    intro s hs
    have : (lkSyms.all fun s => decide (s.shndx < lkSecs.length)) = true := by decide
    exact .inl (of_decide_eq_true (List.all_eq_true.1 this s hs))

/-- The relocations of the file. -/
theorem lk_reloc {i k : Nat} {t : Sec} {r : RelEntry} (h : Reloc lkSecs lkRels i k t r) :
    i = 2 ∧ t = ⟨lit ".text", 1, 6, 0, 64, 16, 0, 0⟩ ∧
      ((k = 0 ∧ r = ⟨1, 2, 4, 2 ^ 64 - 4⟩) ∨ (k = 1 ∧ r = ⟨8, 1, 1, 0⟩)) := by
  obtain ⟨s, h1, h2, h3, h4, h5, h6⟩ := h
  have := all_of (secs := lkSecs) (p := fun i s => decide (s.type = 4 → i = 2)) (by decide +kernel) h1
  have := of_decide_eq_true this h2
  subst this
  cases h1
  cases h3
  refine ⟨rfl, rfl, ?_⟩
  match k, h6 with
  | 0, h6 => cases h6; exact .inl ⟨rfl, rfl⟩
  | 1, h6 => cases h6; exact .inr ⟨rfl, rfl⟩
  | n + 2, h6 => cases h6

theorem lk_relocs : Relocs Psabi.x86Width lkFile lkSecs lkSyms.length lkRels where
  null s hs := by cases hs; exact ⟨rfl, by decide⟩
  count i s hs ht := by
    have := all_of (secs := lkSecs) (p := fun i s => decide (s.type = 4 → i = 2)) (by decide +kernel) hs
    have := of_decide_eq_true this ht
    subst this
    cases hs; rfl
  entries i k s r hs ht hr := by
    have := all_of (secs := lkSecs) (p := fun i s => decide (s.type = 4 → i = 2)) (by decide +kernel) hs
    have := of_decide_eq_true this ht
    subst this
    cases hs
    match k, hr with
    | 0, hr => cases hr; exact ⟨num_of (by decide +kernel), num_of (by decide +kernel), by decide,
        num_of (by decide +kernel)⟩
    | 1, hr => cases hr; exact ⟨num_of (by decide +kernel), num_of (by decide +kernel), by decide,
        num_of (by decide +kernel)⟩
    | n + 2, hr => cases hr
  syms i k t r h := by
    obtain ⟨_, _, ⟨_, rfl⟩ | ⟨_, rfl⟩⟩ := lk_reloc h <;> decide
  fits i k t r h := by
    obtain ⟨_, rfl, ⟨_, rfl⟩ | ⟨_, rfl⟩⟩ := lk_reloc h <;> decide
  target i k t r h := by
    obtain ⟨_, rfl, _⟩ := lk_reloc h
    refine ⟨by decide, by decide, by decide, by decide, ?_⟩
    rintro ⟨_, _, _, h, _⟩
    exact absurd h (by decide)
  disjoint i k t r i' k' t' r' h h' hne a b ha hb := by
    obtain ⟨rfl, rfl, ⟨rfl, rfl⟩ | ⟨rfl, rfl⟩⟩ := lk_reloc h <;>
    obtain ⟨rfl, rfl, ⟨rfl, rfl⟩ | ⟨rfl, rfl⟩⟩ := lk_reloc h' <;>
    first
    | exact absurd rfl hne
    | (simp only [Psabi.x86Width] at ha hb; dsimp only; omega)

theorem lk_complete : Complete lkFile lkSecs :=
  ⟨⟨_, lk_info⟩, ⟨_, lk_info, num_of (by decide +kernel)⟩, ⟨_, lk_strtab⟩, ⟨_, lk_author⟩,
    ⟨_, lk_license⟩, ⟨_, lk_note, rfl⟩, ⟨_, lk_strtab, str_of (by decide +kernel)⟩,
    8, _, by decide, rfl, rfl⟩

/-- A target that has `old_f` and `printf` and one live patch. -/
def lkEnv : Env where
  hdr := 0x7f0000000000
  th := 0x10000000
  find n := if n = lit "old_f" then some 0x401000 else if n = lit "printf" then some 0x10100000 else none
  bids := [lit "deadbeee"]
  maxId := 3
  now := 77

theorem lk_addr {k : Nat} {s : SymEntry} {S : BitVec 64} (hk : lkSyms[k]? = some s)
    (h : SymAddr lkSecs lkEnv.th lkEnv.find k s S) (h0 : 0 < k) :
    (k = 1 ∧ S = 0x10000040) ∨ (k = 2 ∧ S = 0x10100000) := by
  match k, hk, h0 with
  | 1, hk, _ =>
    cases hk
    refine .inl ⟨rfl, ?_⟩
    cases h with
    | reserved _ h => exact absurd h (by decide)
    | found _ h => exact absurd h (by decide)
    | unknown _ h => exact absurd h (by decide)
    | defined _ _ _ _ h => cases h; rfl
  | 2, hk, _ =>
    cases hk
    refine .inr ⟨rfl, ?_⟩
    cases h with
    | reserved _ h => exact absurd h (by decide)
    | found _ _ h _ => exact (Option.some.inj (h.symm.trans (by decide +kernel))).trans rfl
    | unknown _ _ h => exact absurd h (by decide +kernel)
    | defined _ h => exact absurd rfl h
  | n + 3, hk, _ => cases hk

/-- The file is loaded, if its Build ID is not that of a live patch. -/
theorem lk_loads_with (bids : List (List Byte)) (mx : BitVec 32) (hb : ∀ t, BuildIdText lkFile lkSecs t → t ∉ bids) :
    ∃ L, load x86 { lkEnv with bids := bids, maxId := mx } lkFile = some (.ok L) := by
  refine C57_x86_accepted lk_laid lk_readable lk_meta lk_symbols lk_relocs _ lk_complete hb ?_ ?_ ?_ ?_
    (show lkEnv.find (lit "old_f") ≠ none by decide +kernel) ⟨_, List.mem_cons_of_mem _ (List.mem_cons_self ..), rfl⟩
  · intro j s _ hs
    have := all_of (secs := lkSecs) (p := fun _ s => decide (s.type ≠ 8 ∧ s.name ≠ ascii ".bss"))
      (by decide +kernel) hs
    have := of_decide_eq_true this
    rintro ⟨h | h, _⟩
    · exact this.1 h
    · exact this.2 h
  · intro k s h0 hs
    match k, hs, h0 with
    | 1, hs, _ => cases hs; exact ⟨by decide, fun h => absurd h (by decide)⟩
    | 2, hs, _ =>
      cases hs
      exact ⟨by decide, fun _ => .inl ⟨0x10100000,
        show lkEnv.find (lit "printf") = some 0x10100000 by decide +kernel, by decide⟩⟩
    | n + 3, hs, _ => cases hs
  · rintro ⟨i, s, t, h1, h2, _⟩
    have := all_of (secs := lkSecs) (p := fun _ s => decide (s.type ≠ 9)) (by decide +kernel) h1
    exact of_decide_eq_true this h2
  · intro i k t r h s S hs hS
    obtain ⟨rfl, rfl, ⟨rfl, rfl⟩ | ⟨rfl, rfl⟩⟩ := lk_reloc h
    · rcases lk_addr hs hS (by decide) with ⟨h, _⟩ | ⟨_, rfl⟩
      · exact absurd h (by decide)
      · exact ⟨4, _, rfl, by simp only [Psabi.x86Fits]; decide, num_of (by decide +kernel)⟩
    · rcases lk_addr hs hS (by decide) with ⟨_, rfl⟩ | ⟨h, _⟩
      · exact ⟨8, _, rfl, trivial, num_of (by decide +kernel)⟩
      · exact absurd h (by decide)

/-- The file is loaded. -/
theorem lk_loads : ∃ L, load x86 lkEnv lkFile = some (.ok L) := by
  have h := lk_loads_with [lit "deadbeee"] 3 ?_
  · rw [show ({ lkEnv with bids := [lit "deadbeee"], maxId := 3 } : Env) = lkEnv from rfl] at h
    exact h
  rintro t ⟨s, n, d, h1, h2, h3, h4, h5⟩
  cases Has.unique lk_note h1
  cases h2.unique (num_of (v := 4) (by decide +kernel))
  cases h3.unique (num_of (v := 4) (by decide +kernel))
  intro ht
  cases List.mem_singleton.1 ht
  obtain ⟨b, hi, lo, e1, e2, e3, h, l, e4, e5, e6, e7, e8⟩ := h5 3 (by decide)
  rw [show lkFile[173 + 12 + 4 + 3]? = some 0xef by decide +kernel] at e1
  cases e1
  rw [show (lit "deadbeee")[2 * 3 + 1]? = some 0x65 by decide +kernel] at e3
  cases e3
  cases show l = 15 by simp at e6; omega
  exact absurd e8 (by decide)

/-- In the image the call reaches `printf` (relative to the byte after it), the
pointer is the address of `new_f`, and the record has the addresses of the two
functions. -/
example : ∃ L, load x86 lkEnv lkFile = some (.ok L) ∧
    Num L.img 65 4 (0x10100000 - 0x10000045) ∧ Num L.img 72 8 0x10000040 ∧
    Num L.img (101 + 4) 8 0x401000 ∧ Num L.img (101 + 12) 8 0x10000040 := by
  obtain ⟨L, hL⟩ := lk_loads
  obtain ⟨res, h1, _, h2⟩ := C57_x86_linked lk_laid lk_readable lk_meta lk_symbols lk_relocs lkEnv
  rw [hL] at h1; cases h1
  obtain ⟨a, ha, hl⟩ := h2 L rfl
  cases ha.symm.trans (show lkEnv.find (lit "old_f") = some 0x401000 by decide +kernel)
  refine ⟨L, hL, ?_, ?_, ?_, ?_⟩
  · obtain ⟨s, S, hs, hS, hv⟩ := hl.fields 2 0 _ ⟨1, 2, 4, 2 ^ 64 - 4⟩
      ⟨_, rfl, rfl, rfl, rfl, (by rintro ⟨_, _, _, h, _⟩; exact absurd h (by decide)), rfl⟩
    rcases lk_addr hs hS (by decide) with ⟨h, _⟩ | ⟨_, rfl⟩
    · exact absurd h (by decide)
    · exact hv 4 _ rfl
  · obtain ⟨s, S, hs, hS, hv⟩ := hl.fields 2 1 _ ⟨8, 1, 1, 0⟩
      ⟨_, rfl, rfl, rfl, rfl, (by rintro ⟨_, _, _, h, _⟩; exact absurd h (by decide)), rfl⟩
    rcases lk_addr hs hS (by decide) with ⟨_, rfl⟩ | ⟨h, _⟩
    · exact hv 8 _ rfl
    · exact absurd h (by decide)
  · obtain ⟨inf, k, s, S, h1, _, _, _, h2, _⟩ := hl.record
    cases Has.unique lk_info h1
    exact h2
  · obtain ⟨inf, k, s, S, h1, h3, h4, _, _, h2, _⟩ := hl.record
    cases Has.unique lk_info h1
    obtain ⟨h5, h6, _⟩ := h3
    match k, h5 with
    | 0, h5 => cases h5; exact absurd h6 (by decide)
    | k + 1, h5 =>
      rcases lk_addr h5 h4 (by omega) with ⟨_, rfl⟩ | ⟨h, _⟩
      · exact h2
      · cases h; cases h5; exact absurd h6 (by decide)

/-- Loading it when it is live already is refused. -/
example : ∃ e, load x86 { lkEnv with bids := [lit "deadbeef"] } lkFile = some (.error e) ∧ e < 0 := by
  refine C57_live_refused x86 x86_lawful lk_laid lk_readable lk_meta lk_symbols
    (x86_width ▸ lk_relocs) _ (lit "deadbeef") ?_ (List.mem_singleton.2 rfl)
  refine ⟨_, 4, 4, lk_note, num_of (by decide +kernel), num_of (by decide +kernel), by decide, ?_⟩
  intro i hi
  match i, hi with
  | 0, _ => exact ⟨0xde, 0x64, 0x65, by decide +kernel, by decide, by decide, 13, 14, by decide, by decide, by decide, by decide, by decide⟩
  | 1, _ => exact ⟨0xad, 0x61, 0x64, by decide +kernel, by decide, by decide, 10, 13, by decide, by decide, by decide, by decide, by decide⟩
  | 2, _ => exact ⟨0xbe, 0x62, 0x65, by decide +kernel, by decide, by decide, 11, 14, by decide, by decide, by decide, by decide, by decide⟩
  | 3, _ => exact ⟨0xef, 0x65, 0x66, by decide +kernel, by decide, by decide, 14, 15, by decide, by decide, by decide, by decide, by decide⟩

end Ulp.LoadBytes
