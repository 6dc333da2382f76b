/-
An object with the names of the tracing object of `ulftrace`.
-/
import Verif.Props.Trace
namespace Ulp.LoadBytes
open Load PatchFile

def trStrtab : List Byte :=
  lit "" ++ [0]
    ++ lit ".text" ++ [0]
    ++ lit ".rela.text" ++ [0]
    ++ lit ".ulpatch.strtab" ++ [0]
    ++ lit ".ulpatch.info" ++ [0]
    ++ lit ".ulpatch.author" ++ [0]
    ++ lit ".ulpatch.license" ++ [0]
    ++ lit ".note.gnu.build-id" ++ [0]
    ++ lit ".symtab" ++ [0]
    ++ lit ".strtab" ++ [0]
    ++ lit "_ftrace_mcount" ++ [0]
    ++ lit "mcount_entry" ++ [0]

/-- An object with the names of the tracing object (src/objects/ftrace/mcount.c:73-77):
`_ftrace_mcount` calls `mcount_entry`. -/
def trFile : Image :=
  [0x7f, 0x45, 0x4c, 0x46, 2, 1, 1, 0] ++ leBytes 8 0 ++ leBytes 8 0x003e0001 ++ leBytes 8 0
    ++ leBytes 8 0 ++ leBytes 8 467 ++ leBytes 8 0 ++ leBytes 4 0 ++ leBytes 2 10 ++ leBytes 2 9
    ++ [0xe8, 0, 0, 0, 0, 0xc3, 0x90, 0x90, 0, 0, 0, 0, 0, 0, 0, 0]
    ++ macroStrtab (lit "mcount") (lit "_ftrace_mcount") ++ macroInfo ++ lit "Tao" ++ [0] ++ lit "GPL" ++ [0]
    ++ (leBytes 4 4 ++ leBytes 4 4 ++ leBytes 4 3 ++ lit "GNU" ++ [0] ++ [0xde, 0xad, 0xbe, 0xef])
    ++ (leBytes 8 0 ++ leBytes 8 0 ++ leBytes 8 0
      ++ leBytes 4 116 ++ [0x12, 0] ++ leBytes 2 1 ++ leBytes 8 0 ++ leBytes 8 16
      ++ leBytes 4 131 ++ [0x10, 0] ++ leBytes 2 0 ++ leBytes 8 0 ++ leBytes 8 0)
    ++ (leBytes 8 1 ++ leBytes 8 0x200000004 ++ leBytes 8 (-4)
      ++ leBytes 8 8 ++ leBytes 8 0x100000001 ++ leBytes 8 0)
    ++ trStrtab
    ++ lkHdr 0 0 0 0 0 0 0
    ++ lkHdr 1 1 6 64 16 0 0
    ++ lkHdr 7 4 64 275 48 8 1
    ++ lkHdr 18 1 2 80 31 0 0
    ++ lkHdr 34 1 3 111 64 0 0
    ++ lkHdr 48 1 2 175 4 0 0
    ++ lkHdr 64 1 2 179 4 0 0
    ++ lkHdr 81 7 2 183 20 0 0
    ++ lkHdr 100 2 0 203 72 9 1
    ++ lkHdr 108 3 0 323 144 0 0

/-- Its section table. -/
def trSecs : List Sec :=
  [⟨lit "", 0, 0, 0, 0, 0, 0, 0⟩,
   ⟨lit ".text", 1, 6, 0, 64, 16, 0, 0⟩,
   ⟨lit ".rela.text", 4, 64, 0, 275, 48, 8, 1⟩,
   ⟨lit ".ulpatch.strtab", 1, 2, 0, 80, 31, 0, 0⟩,
   ⟨lit ".ulpatch.info", 1, 3, 0, 111, 64, 0, 0⟩,
   ⟨lit ".ulpatch.author", 1, 2, 0, 175, 4, 0, 0⟩,
   ⟨lit ".ulpatch.license", 1, 2, 0, 179, 4, 0, 0⟩,
   ⟨lit ".note.gnu.build-id", 7, 2, 0, 183, 20, 0, 0⟩,
   ⟨lit ".symtab", 2, 0, 0, 203, 72, 9, 1⟩,
   ⟨lit ".strtab", 3, 0, 0, 323, 144, 0, 0⟩]

def trSyms : List SymEntry :=
  [⟨[], 0, 0, 0⟩, ⟨lit "_ftrace_mcount", 0x12, 1, 0⟩, ⟨lit "mcount_entry", 0x10, 0, 0⟩]

def trRels (i : Nat) : List RelEntry :=
  if i = 2 then [⟨1, 2, 4, 2 ^ 64 - 4⟩, ⟨8, 1, 1, 0⟩] else []

theorem tr_describes : Describes trFile trSecs := by
  refine ⟨by decide +kernel, num_of (by decide +kernel), 467, 9, ⟨lit ".strtab", 3, 0, 0, 323, 144, 0, 0⟩,
    num_of (by decide +kernel), num_of (by decide +kernel), rfl, ?_⟩
  intro i s hs
  match i, hs with
  | 0, hs => cases hs; exact header_of (k := 0) (by decide +kernel)
  | 1, hs => cases hs; exact header_of (k := 1) (by decide +kernel)
  | 2, hs => cases hs; exact header_of (k := 7) (by decide +kernel)
  | 3, hs => cases hs; exact header_of (k := 18) (by decide +kernel)
  | 4, hs => cases hs; exact header_of (k := 34) (by decide +kernel)
  | 5, hs => cases hs; exact header_of (k := 48) (by decide +kernel)
  | 6, hs => cases hs; exact header_of (k := 64) (by decide +kernel)
  | 7, hs => cases hs; exact header_of (k := 81) (by decide +kernel)
  | 8, hs => cases hs; exact header_of (k := 100) (by decide +kernel)
  | 9, hs => cases hs; exact header_of (k := 108) (by decide +kernel)
  | n + 10, hs => cases hs

theorem tr_strtab : Has trSecs ".ulpatch.strtab"
    ⟨lit ".ulpatch.strtab", 1, 2, 0, 80, 31, 0, 0⟩ :=
  has_of 3 (by decide) rfl rfl (by decide +kernel)
theorem tr_info : Has trSecs ".ulpatch.info"
    ⟨lit ".ulpatch.info", 1, 3, 0, 111, 64, 0, 0⟩ :=
  has_of 4 (by decide) rfl rfl (by decide +kernel)
theorem tr_author : Has trSecs ".ulpatch.author"
    ⟨lit ".ulpatch.author", 1, 2, 0, 175, 4, 0, 0⟩ :=
  has_of 5 (by decide) rfl rfl (by decide +kernel)
theorem tr_license : Has trSecs ".ulpatch.license"
    ⟨lit ".ulpatch.license", 1, 2, 0, 179, 4, 0, 0⟩ :=
  has_of 6 (by decide) rfl rfl (by decide +kernel)
theorem tr_note : Has trSecs ".note.gnu.build-id"
    ⟨lit ".note.gnu.build-id", 7, 2, 0, 183, 20, 0, 0⟩ :=
  has_of 7 (by decide) rfl rfl (by decide +kernel)

theorem tr_laid : Laid trFile trSecs 467 ⟨lit ".strtab", 3, 0, 0, 323, 144, 0, 0⟩ where
  describes := tr_describes
  tab := num_of (by decide +kernel)
  strsAt := ⟨9, num_of (by decide +kernel), rfl⟩
  strsType := rfl
  tabFrom := by decide
  tabTo := by decide +kernel
  inside i s hs _ := by
    have := all_of (secs := trSecs) (p := fun _ s => decide (s.offset + s.size ≤ trFile.length))
      (by decide +kernel) hs
    exact of_decide_eq_true this
  headers i s k hs hk := by
    have := all_of (secs := trSecs)
      (p := fun _ s => decide (s.size = 0 ∨ 64 ≤ s.offset ∧ s.offset + s.size ≤ 467))
      (by decide +kernel) hs
    have := of_decide_eq_true this
    obtain ⟨_, h1, h2⟩ := hk
    omega
  apart i j s t k hs ht h1 h2 := by
    have := all_of (secs := trSecs) (p := fun i s => decide (∀ j : Fin 10, ∀ t, trSecs[j.val]? = some t →
      i = j.val ∨ s.offset + s.size ≤ t.offset ∨ t.offset + t.size ≤ s.offset)) (by
        simp only [List.all_eq_true]
        intro x hx
        rw [decide_eq_true_eq]
        intro j t ht
        have key : (trSecs.zipIdx.all fun x => trSecs.zipIdx.all fun y => decide (x.2 = y.2 ∨
          x.1.offset + x.1.size ≤ y.1.offset ∨ y.1.offset + y.1.size ≤ x.1.offset)) = true := by
          decide +kernel
        rw [List.all_eq_true] at key
        have := all_of (p := fun j t => decide (x.2 = j ∨
          x.1.offset + x.1.size ≤ t.offset ∨ t.offset + t.size ≤ x.1.offset)) (key x hx) ht
        exact of_decide_eq_true this) hs
    have := of_decide_eq_true this ⟨j, (List.getElem?_eq_some_iff.1 ht).1⟩ t ht
    obtain ⟨_, h3, h4⟩ := h1
    obtain ⟨_, h5, h6⟩ := h2
    dsimp only at this
    omega
  names i s hs := by
    match i, hs with
    | 0, hs => cases hs; exact ⟨0, num_of (by decide +kernel), str_of (by decide +kernel), by decide +kernel⟩
    | 1, hs => cases hs; exact ⟨1, num_of (by decide +kernel), str_of (by decide +kernel), by decide +kernel⟩
    | 2, hs => cases hs; exact ⟨7, num_of (by decide +kernel), str_of (by decide +kernel), by decide +kernel⟩
    | 3, hs => cases hs; exact ⟨18, num_of (by decide +kernel), str_of (by decide +kernel), by decide +kernel⟩
    | 4, hs => cases hs; exact ⟨34, num_of (by decide +kernel), str_of (by decide +kernel), by decide +kernel⟩
    | 5, hs => cases hs; exact ⟨48, num_of (by decide +kernel), str_of (by decide +kernel), by decide +kernel⟩
    | 6, hs => cases hs; exact ⟨64, num_of (by decide +kernel), str_of (by decide +kernel), by decide +kernel⟩
    | 7, hs => cases hs; exact ⟨81, num_of (by decide +kernel), str_of (by decide +kernel), by decide +kernel⟩
    | 8, hs => cases hs; exact ⟨100, num_of (by decide +kernel), str_of (by decide +kernel), by decide +kernel⟩
    | 9, hs => cases hs; exact ⟨108, num_of (by decide +kernel), str_of (by decide +kernel), by decide +kernel⟩
    | n + 10, hs => cases hs

theorem tr_readable : Readable trFile trSecs := by
  refine ⟨?_, ?_, ?_, ?_⟩
  · intro s hs
    cases Has.unique tr_info hs
    decide +kernel
  · intro s hs
    cases Has.unique tr_strtab hs
    exact ⟨lit ".ULPATCH", lit "mcount", lit "_ftrace_mcount", str_of (by decide +kernel),
      str_of (by decide +kernel), str_of (by decide +kernel)⟩
  · intro s hs
    cases Has.unique tr_note hs
    exact ⟨4, 4, 3, num_of (by decide +kernel), num_of (by decide +kernel),
      num_of (by decide +kernel), by decide, by decide +kernel⟩
  · intro i s hs ht
    have := all_of (secs := trSecs) (p := fun _ s => decide (s.link < trSecs.length)) (by decide +kernel) hs
    exact of_decide_eq_true this

theorem tr_meta : Meta trFile trSecs (lit "mcount") (lit "_ftrace_mcount") := by
  refine ⟨?_, ?_, ?_⟩
  · intro s hs
    cases Has.unique tr_info hs
    exact ⟨rfl, by decide⟩
  · intro s hs
    cases Has.unique tr_strtab hs
    exact ⟨rfl, lit ".ULPATCH", str_of (by decide +kernel), str_of (by decide +kernel),
      str_of (by decide +kernel), by decide +kernel⟩
  · intro s hs
    cases Has.unique tr_note hs
    exact num_of (by decide +kernel)

theorem tr_symbols : Symbols trFile trSecs 8 ⟨lit ".symtab", 2, 0, 0, 203, 72, 9, 1⟩ ⟨lit ".strtab", 3, 0, 0, 323, 144, 0, 0⟩ trSyms where
  sec := rfl
  pos := by decide
  type := rfl
  first j t h0 hj ht := by
    have := all_of (secs := trSecs) (p := fun j t => decide (8 ≤ j ∨ t.type ≠ 2)) (by decide +kernel) ht
    have := of_decide_eq_true this
    omega
  link := rfl
  strType := rfl
  count := rfl
  entries k s hs := by
    match k, hs with
    | 0, hs => cases hs; exact ⟨⟨0, num_of (by decide +kernel), str_of (by decide +kernel), by decide +kernel⟩,
        num_of (by decide +kernel), num_of (by decide +kernel), num_of (by decide +kernel)⟩
    | 1, hs => cases hs; exact ⟨⟨116, num_of (by decide +kernel), str_of (by decide +kernel), by decide +kernel⟩,
        num_of (by decide +kernel), num_of (by decide +kernel), num_of (by decide +kernel)⟩
    | 2, hs => cases hs; exact ⟨⟨131, num_of (by decide +kernel), str_of (by decide +kernel), by decide +kernel⟩,
        num_of (by decide +kernel), num_of (by decide +kernel), num_of (by decide +kernel)⟩
    | n + 3, hs => cases hs
  sections := by
    intro s hs
    have : (trSyms.all fun s => decide (s.shndx < trSecs.length)) = true := by decide
    exact .inl (of_decide_eq_true (List.all_eq_true.1 this s hs))

/-- The relocations of the file. -/
theorem tr_reloc {i k : Nat} {t : Sec} {r : RelEntry} (h : Reloc trSecs trRels i k t r) :
    i = 2 ∧ t = ⟨lit ".text", 1, 6, 0, 64, 16, 0, 0⟩ ∧
      ((k = 0 ∧ r = ⟨1, 2, 4, 2 ^ 64 - 4⟩) ∨ (k = 1 ∧ r = ⟨8, 1, 1, 0⟩)) := by
  obtain ⟨s, h1, h2, h3, h4, h5, h6⟩ := h
  have := all_of (secs := trSecs) (p := fun i s => decide (s.type = 4 → i = 2)) (by decide +kernel) h1
  have := of_decide_eq_true this h2
  subst this
  cases h1
  cases h3
  refine ⟨rfl, rfl, ?_⟩
  match k, h6 with
  | 0, h6 => cases h6; exact .inl ⟨rfl, rfl⟩
  | 1, h6 => cases h6; exact .inr ⟨rfl, rfl⟩
  | n + 2, h6 => cases h6

theorem tr_relocs : Relocs Psabi.x86Width trFile trSecs trSyms.length trRels where
  null s hs := by cases hs; exact ⟨rfl, by decide⟩
  count i s hs ht := by
    have := all_of (secs := trSecs) (p := fun i s => decide (s.type = 4 → i = 2)) (by decide +kernel) hs
    have := of_decide_eq_true this ht
    subst this
    cases hs; rfl
  entries i k s r hs ht hr := by
    have := all_of (secs := trSecs) (p := fun i s => decide (s.type = 4 → i = 2)) (by decide +kernel) hs
    have := of_decide_eq_true this ht
    subst this
    cases hs
    match k, hr with
    | 0, hr => cases hr; exact ⟨num_of (by decide +kernel), num_of (by decide +kernel), by decide,
        num_of (by decide +kernel)⟩
    | 1, hr => cases hr; exact ⟨num_of (by decide +kernel), num_of (by decide +kernel), by decide,
        num_of (by decide +kernel)⟩
    | n + 2, hr => cases hr
  syms i k t r h := by
    obtain ⟨_, _, ⟨_, rfl⟩ | ⟨_, rfl⟩⟩ := tr_reloc h <;> decide
  fits i k t r h := by
    obtain ⟨_, rfl, ⟨_, rfl⟩ | ⟨_, rfl⟩⟩ := tr_reloc h <;> decide
  target i k t r h := by
    obtain ⟨_, rfl, _⟩ := tr_reloc h
    refine ⟨by decide, by decide, by decide, by decide, ?_⟩
    rintro ⟨_, _, _, h, _⟩
    exact absurd h (by decide)
  disjoint i k t r i' k' t' r' h h' hne a b ha hb := by
    obtain ⟨rfl, rfl, ⟨rfl, rfl⟩ | ⟨rfl, rfl⟩⟩ := tr_reloc h <;>
    obtain ⟨rfl, rfl, ⟨rfl, rfl⟩ | ⟨rfl, rfl⟩⟩ := tr_reloc h' <;>
    first
    | exact absurd rfl hne
    | (simp only [Psabi.x86Width] at ha hb; dsimp only; omega)

theorem tr_complete : Complete trFile trSecs :=
  ⟨⟨_, tr_info⟩, ⟨_, tr_info, num_of (by decide +kernel)⟩, ⟨_, tr_strtab⟩, ⟨_, tr_author⟩,
    ⟨_, tr_license⟩, ⟨_, tr_note, rfl⟩, ⟨_, tr_strtab, str_of (by decide +kernel)⟩,
    8, _, by decide, rfl, rfl⟩

theorem tr_plain : Plain trFile trSecs trRels := by
  refine ⟨?_, ?_, ?_, ?_⟩
  · intro s hs
    cases Load.Has.unique tr_author hs
    exact ⟨rfl, lit "Tao", str_of (by decide +kernel), by decide⟩
  · intro s hs
    cases Load.Has.unique tr_license hs
    exact ⟨rfl, lit "GPL", str_of (by decide +kernel), by decide⟩
  · intro s hs
    cases Load.Has.unique tr_note hs
    exact ⟨4, 4, num_of (by decide +kernel), num_of (by decide +kernel), by decide⟩
  · intro i k t r hr
    obtain ⟨-, rfl, -⟩ := tr_reloc hr
    refine ⟨?_, ?_, ?_⟩ <;> (rintro ⟨_, -, -, h, -⟩; revert h; decide)

/-! ### The examples -/

def trParts : Parts :=
  ⟨trSecs, 467, ⟨lit ".strtab", 3, 0, 0, 323, 144, 0, 0⟩, 8, ⟨lit ".symtab", 2, 0, 0, 203, 72, 9, 1⟩,
    ⟨lit ".strtab", 3, 0, 0, 323, 144, 0, 0⟩, trSyms, trRels, lit "mcount", lit "_ftrace_mcount"⟩

theorem tr_made : WellMade Psabi.x86Width trFile trParts :=
  ⟨List.isPrefixOf_iff_prefix.1 (by decide +kernel), tr_laid, tr_readable, tr_meta, tr_symbols, tr_relocs, tr_plain⟩

theorem tr_bid : BuildIdText trFile trSecs (textOf "deadbeef") := by
  refine ⟨_, 4, 4, tr_note, num_of (by decide +kernel), num_of (by decide +kernel), by decide, ?_⟩
  intro i hi
  match i, hi with
  | 0, _ => exact ⟨0xde, 0x64, 0x65, by decide +kernel, by decide, by decide, 13, 14, by decide, by decide, by decide, by decide, by decide⟩
  | 1, _ => exact ⟨0xad, 0x61, 0x64, by decide +kernel, by decide, by decide, 10, 13, by decide, by decide, by decide, by decide, by decide⟩
  | 2, _ => exact ⟨0xbe, 0x62, 0x65, by decide +kernel, by decide, by decide, 11, 14, by decide, by decide, by decide, by decide, by decide⟩
  | 3, _ => exact ⟨0xef, 0x65, 0x66, by decide +kernel, by decide, by decide, 14, 15, by decide, by decide, by decide, by decide, by decide⟩

theorem tr_len : trFile.length = 1107 := by decide +kernel

/-- `ulftrace` after the patch of `fhCmds` was applied: this patch is taken out. -/
example : ∃ w rs st w' r, runFiles x86 fhWorld [fhPatch pfEnv] = some (w, rs) ∧ AllDo [] [fhPatch pfEnv] rs st ∧
    Holds Psabi.x86Width Psabi.x86 fhR fhWorld.mem w st ∧
    runFile x86 w (.trace Patch.allOk 0x7f0000000000 lkEnv.find 77 (lit "old_f") trFile
      { pfEnv with mmap := .created 0x10002000 } ⟨.ok, some 16, .done⟩) = some (w', r) ∧
    ((st = [] ∧ r = -2 ∧ Holds Psabi.x86Width Psabi.x86 fhR fhWorld.mem w' []) ∨
      ∃ v rest, st = v :: rest ∧ r = 0 ∧ Holds Psabi.x86Width Psabi.x86 fhR fhWorld.mem w' rest) := by
  refine C120_takes_out_x86 fhR fhWorld _ _ _ _ _ _ _ _ _ rfl (by decide) fh_first
    (show lkEnv.find (lit "old_f") = some 0x401000 by decide +kernel) ?_ tr_made rfl
    (show lkEnv.find (lit "_ftrace_mcount") = none by decide +kernel) rfl rfl rfl
  intro w1 rs1 hr1
  obtain ⟨w, rs, st, h1, -, h2, h3⟩ := C119_x86_partial fhR fhWorld [fhPatch pfEnv] rfl (by decide) fh_first
  rw [hr1] at h1
  cases h1
  refine ⟨fun _ => rfl, rfl, .inr (.inr ⟨16, by decide, rfl⟩), ⟨rfl, by exact nofun⟩, ⟨?_, ?_⟩, trParts, tr_made, tr_bid, ?_⟩
  · intro i hi
    rw [tr_len] at hi
    unfold fhR
    rw [BitVec.toNat_add, BitVec.toNat_ofNat, show (0x10002000 : BitVec 64).toNat = 0x10002000 from rfl]
    omega
  · intro m hm i j hi hj he
    have hm' : m.len = 1082 ∧ m.start = 0x10000000 := by
      obtain ⟨v, hv, rfl⟩ := List.mem_map.1 (h3.maps.mem_iff.2 hm)
      cases h2 with
      | cons hd ha =>
        cases ha
        cases hd with
        | patched hg =>
          rcases List.mem_cons.1 hv with rfl | hv
          · obtain ⟨rd, hdr, e, q1, q2, -⟩ := hg
            injection q1 with _ _ _ _ q3 q4
            subst q4
            injection q2 with q2
            exact ⟨by change v.file.length = 1082; rw [← q3, lk_len], q2.symm⟩
          · cases hv
        | refused _ => cases hv
    rw [tr_len] at hi
    rw [hm'.1] at hj
    rw [hm'.2] at he
    have := congrArg BitVec.toNat he
    rw [BitVec.toNat_add, BitVec.toNat_add, BitVec.toNat_ofNat, BitVec.toNat_ofNat,
      show (0x10002000 : BitVec 64).toNat = 0x10002000 from rfl,
      show (0x10000000 : BitVec 64).toNat = 0x10000000 from rfl] at this
    omega
  · intro t ht
    change lkEnv.find (lit "_ftrace_mcount") = some t at ht
    rw [show lkEnv.find (lit "_ftrace_mcount") = none by decide +kernel] at ht
    cases ht

/-- `ulftrace` with an object that can be loaded: a processor that comes to `old_f` goes on in `new_f`. -/
theorem tr_installed : ∃ w1, runFile x86 pfWorld (.trace Patch.allOk 0x7f0000000000 lkEnv.find 77 (lit "printf") lkFile pfEnv
      ⟨.ok, some 16, .done⟩) = some (w1, -2) ∧
    ∀ cpu : X86.Cpu, cpu.rip = 0x401000 → cpu.mem = w1.mem → X86.step cpu = some { cpu with rip := 0x10000040 } := by
  obtain ⟨w1, h⟩ := pf_applied
  obtain ⟨h1, t, ht, h2⟩ := C120_x86_partial lk_laid lk_readable lk_meta lk_symbols lk_relocs rfl (by decide) rfl pf_sep
    (fun _ => rfl) (by decide) (by decide) h
    (show lkEnv.find (lit "printf") = some 0x10100000 by decide +kernel) ⟨.ok, some 16, .done⟩
  refine ⟨w1, h1, ?_⟩
  rw [show lkEnv.find (lit "old_f") = some 0x401000 by decide +kernel] at ht
  cases ht
  refine h2 1 ⟨lit "new_f", 0x12, 1, 0⟩ _ ⟨rfl, rfl, ?_⟩ ?_
  · intro k' s' hk' hs'
    match k', hk', hs' with
    | 2, _, hs' => cases hs'; decide
    | n + 3, _, hs' => cases hs'
  · exact SymAddr.defined (k := 1) (s := ⟨lit "new_f", 0x12, 1, 0⟩) (t := ⟨lit ".text", 1, 6, 0, 64, 16, 0, 0⟩)
      (by decide) (by decide) (by decide) (by decide) rfl

end Ulp.LoadBytes
