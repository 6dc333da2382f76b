/-
A small complete patch file, on which the hypotheses of C19-C21 hold.
-/
import Verif.Props.Load
namespace Ulp.Load
open PatchFile LoadSpec

/-- One section header. -/
def exHdr (name type flags offset size link : BitVec 64) : List Byte :=
  leBytes 4 name ++ leBytes 4 type ++ leBytes 8 flags ++ leBytes 8 0 ++ leBytes 8 offset
    ++ leBytes 8 size ++ leBytes 4 link ++ leBytes 4 0 ++ leBytes 8 1 ++ leBytes 8 0

def exStrtab : List Byte :=
  lit "" ++ [0] ++ lit ".ulpatch.strtab" ++ [0] ++ lit ".ulpatch.info" ++ [0] ++ lit ".ulpatch.author" ++ [0] ++ lit ".ulpatch.license" ++ [0] ++ lit ".note.gnu.build-id" ++ [0] ++ lit ".symtab" ++ [0] ++ lit ".strtab" ++ [0] ++ lit "new_f" ++ [0]

/-- A patch file with the two functions `new_f` and `old_f`. -/
def exFile : Image :=
  [0x7f, 0x45, 0x4c, 0x46, 2, 1, 1, 0] ++ leBytes 8 0 ++ leBytes 8 0x003e0001 ++ leBytes 8 0
    ++ leBytes 8 0 ++ leBytes 8 330 ++ leBytes 8 0 ++ leBytes 4 0 ++ leBytes 2 8 ++ leBytes 2 7
    ++ macroStrtab (lit "new_f") (lit "old_f") ++ macroInfo ++ lit "Tao" ++ [0] ++ lit "GPL" ++ [0]
    ++ (leBytes 4 4 ++ leBytes 4 4 ++ leBytes 4 3 ++ lit "GNU" ++ [0] ++ [0xde, 0xad, 0xbe, 0xef])
    ++ (leBytes 8 0 ++ leBytes 8 0 ++ leBytes 8 0
      ++ leBytes 4 99 ++ [0x12, 0] ++ leBytes 2 1 ++ leBytes 8 0 ++ leBytes 8 4)
    ++ exStrtab
    ++ exHdr 0 0 0 0 0 0
    ++ exHdr 1 1 2 64 21 0
    ++ exHdr 17 1 3 85 64 0
    ++ exHdr 31 1 2 149 4 0
    ++ exHdr 47 1 2 153 4 0
    ++ exHdr 64 7 2 157 20 0
    ++ exHdr 83 2 0 177 48 7
    ++ exHdr 91 3 0 225 105 0

/-- Its section table. -/
def exSecs : List Sec :=
  [⟨lit "", 0, 0, 0, 0, 0, 0, 0⟩,
   ⟨lit ".ulpatch.strtab", 1, 2, 0, 64, 21, 0, 0⟩,
   ⟨lit ".ulpatch.info", 1, 3, 0, 85, 64, 0, 0⟩,
   ⟨lit ".ulpatch.author", 1, 2, 0, 149, 4, 0, 0⟩,
   ⟨lit ".ulpatch.license", 1, 2, 0, 153, 4, 0, 0⟩,
   ⟨lit ".note.gnu.build-id", 7, 2, 0, 157, 20, 0, 0⟩,
   ⟨lit ".symtab", 2, 0, 0, 177, 48, 7, 0⟩,
   ⟨lit ".strtab", 3, 0, 0, 225, 105, 0, 0⟩]

theorem num_of {f : List Byte} {off n v : Nat}
    (h : off + n ≤ f.length ∧ leNat ((f.drop off).take n) = v) : Num f off n v :=
  h.2 ▸ Num.of_le h.1

theorem str_of {f : List Byte} {off : Nat} {s : List Byte}
    (h : (s.contains 0 = false) ∧ (s ++ [0]).isPrefixOf (f.drop off) = true) : Str f off s :=
  ⟨fun hh => (by have := List.contains_iff_mem.2 hh; rw [h.1] at this; cases this),
    List.isPrefixOf_iff_prefix.1 h.2⟩

/-- A check of `Header`. -/
def headerB (f : List Byte) (strs h k : Nat) (s : Sec) : Bool :=
  decide (leNat ((f.drop h).take 4) = k) &&
  (!s.name.contains 0 && (s.name ++ [0]).isPrefixOf (f.drop (strs + k))) &&
  decide (leNat ((f.drop (h + 4)).take 4) = s.type) &&
  decide (leNat ((f.drop (h + 8)).take 8) = s.flags) &&
  decide (leNat ((f.drop (h + 16)).take 8) = s.addr) &&
  decide (leNat ((f.drop (h + 24)).take 8) = s.offset) &&
  decide (leNat ((f.drop (h + 32)).take 8) = s.size) &&
  decide (leNat ((f.drop (h + 40)).take 4) = s.link) &&
  decide (leNat ((f.drop (h + 44)).take 4) = s.info) && decide (h + 64 ≤ f.length)

theorem header_of {f : List Byte} {strs h k : Nat} {s : Sec} (hb : headerB f strs h k s = true) :
    Header f strs h s := by
  unfold headerB at hb
  simp only [Bool.and_eq_true, decide_eq_true_eq, Bool.not_eq_true'] at hb
  obtain ⟨⟨⟨⟨⟨⟨⟨⟨⟨h1, h2⟩, h3⟩, h4⟩, h5⟩, h6⟩, h7⟩, h8⟩, h9⟩, h10⟩ := hb
  exact ⟨⟨k, num_of ⟨by omega, h1⟩, str_of h2⟩, num_of ⟨by omega, h3⟩, num_of ⟨by omega, h4⟩,
    num_of ⟨by omega, h5⟩, num_of ⟨by omega, h6⟩, num_of ⟨by omega, h7⟩, num_of ⟨by omega, h8⟩,
    num_of ⟨by omega, h9⟩, h10⟩

theorem exFile_describes : Describes exFile exSecs := by
  refine ⟨by decide +kernel, num_of (by decide +kernel), 330, 7, ⟨lit ".strtab", 3, 0, 0, 225, 105, 0, 0⟩,
    num_of (by decide +kernel), num_of (by decide +kernel), rfl, ?_⟩
  intro i s hs
  match i, hs with
  | 0, hs => cases hs; exact header_of (k := 0) (by decide +kernel)
  | 1, hs => cases hs; exact header_of (k := 1) (by decide +kernel)
  | 2, hs => cases hs; exact header_of (k := 17) (by decide +kernel)
  | 3, hs => cases hs; exact header_of (k := 31) (by decide +kernel)
  | 4, hs => cases hs; exact header_of (k := 47) (by decide +kernel)
  | 5, hs => cases hs; exact header_of (k := 64) (by decide +kernel)
  | 6, hs => cases hs; exact header_of (k := 83) (by decide +kernel)
  | 7, hs => cases hs; exact header_of (k := 91) (by decide +kernel)
  | n + 8, hs => cases hs

theorem has_of {secs : List Sec} {n : String} {s : Sec} (i : Nat) (hi : 0 < i)
    (h1 : secs[i]? = some s) (h2 : s.name = ascii n)
    (h3 : ((secs.take i).all fun t => t.name != ascii n) = true) : Has secs n s := by
  refine ⟨i, hi, h1, h2, ?_⟩
  intro j t hj ht
  rw [List.all_eq_true] at h3
  have := h3 t (List.mem_of_getElem? (i := j) (by rw [List.getElem?_take_of_lt hj]; exact ht))
  simpa using this

theorem ex_strtab : Has exSecs ".ulpatch.strtab" ⟨lit ".ulpatch.strtab", 1, 2, 0, 64, 21, 0, 0⟩ :=
  has_of 1 (by decide) rfl rfl (by decide +kernel)
theorem ex_info : Has exSecs ".ulpatch.info" ⟨lit ".ulpatch.info", 1, 3, 0, 85, 64, 0, 0⟩ :=
  has_of 2 (by decide) rfl rfl (by decide +kernel)
theorem ex_author : Has exSecs ".ulpatch.author" ⟨lit ".ulpatch.author", 1, 2, 0, 149, 4, 0, 0⟩ :=
  has_of 3 (by decide) rfl rfl (by decide +kernel)
theorem ex_license : Has exSecs ".ulpatch.license" ⟨lit ".ulpatch.license", 1, 2, 0, 153, 4, 0, 0⟩ :=
  has_of 4 (by decide) rfl rfl (by decide +kernel)
theorem ex_note : Has exSecs ".note.gnu.build-id" ⟨lit ".note.gnu.build-id", 7, 2, 0, 157, 20, 0, 0⟩ :=
  has_of 5 (by decide) rfl rfl (by decide +kernel)

theorem exFile_readable : Readable exFile exSecs := by
  refine ⟨?_, ?_, ?_, ?_⟩
  · intro s hs
    cases Has.unique ex_info hs
    decide +kernel
  · intro s hs
    cases Has.unique ex_strtab hs
    exact ⟨lit ".ULPATCH", lit "new_f", lit "old_f", str_of (by decide +kernel),
      str_of (by decide +kernel), str_of (by decide +kernel)⟩
  · intro s hs
    cases Has.unique ex_note hs
    exact ⟨4, 4, 3, num_of (by decide +kernel), num_of (by decide +kernel),
      num_of (by decide +kernel), by decide, by decide +kernel⟩
  · intro i s hs ht
    match i, hs with
    | 0, hs => cases hs; revert ht; decide
    | 1, hs => cases hs; revert ht; decide
    | 2, hs => cases hs; revert ht; decide
    | 3, hs => cases hs; revert ht; decide
    | 4, hs => cases hs; revert ht; decide
    | 5, hs => cases hs; revert ht; decide
    | 6, hs => cases hs; revert ht; decide
    | 7, hs => cases hs; revert ht; decide
    | n + 8, hs => cases hs

theorem exFile_complete : Complete exFile exSecs :=
  ⟨⟨_, ex_info⟩, ⟨_, ex_info, num_of (by decide +kernel)⟩, ⟨_, ex_strtab⟩, ⟨_, ex_author⟩,
    ⟨_, ex_license⟩, ⟨_, ex_note, rfl⟩, ⟨_, ex_strtab, str_of (by decide +kernel)⟩,
    6, _, by decide, rfl, rfl⟩

/-- The hypotheses of C19 and C20 hold of this file, and it is accepted. -/
example : ∃ i, setupLoadInfo exFile = some (.ok i) :=
  (C19_accepts_iff exFile exSecs exFile_describes exFile_readable).2 exFile_complete

example : ∃ i, setupLoadInfo exFile = some (.ok i) ∧ Str exFile i.srcFunc.toNat (lit "new_f") ∧
    Str exFile i.dstFunc.toNat (lit "old_f") :=
  C20_names_roundtrip exFile exSecs exFile_describes exFile_readable exFile_complete _ _ (by decide)
    (by decide) _ ex_strtab (List.isPrefixOf_iff_prefix.1 (by decide +kernel))

/-- A missing piece: without its magic the string section is refused. -/
example : code <$> setupLoadInfo (store exFile 64 [0]) = some (-2) := by decide +kernel

example : readInfo (store exFile 85 (ULPInfo.bytes ⟨3, 0x401000, 0x7f00, 0x401000, 1, 2, 3, 0, 5, 9⟩))
    (BitVec.ofNat 64 85) = some ⟨3, 0x401000, 0x7f00, 0x401000, 1, 2, 3, 0, 5, 9⟩ :=
  (C20_record_roundtrip exFile 85 _ (by decide +kernel) (by decide +kernel)).1

/-- The file is accepted by the checks before. -/
example : allocPatchFile ⟨true, true, true⟩ exFile = some (0, some exFile) := by decide +kernel

/-- Cut in the middle of its section table, the file is not refused (C21). -/
example : allocPatchFile ⟨true, true, true⟩ (exFile.take 430) = some (0, none) :=
  C21_table_past_end_not_refused _ (by decide +kernel) (by decide +kernel)
    (List.isPrefixOf_iff_prefix.1 (by decide +kernel))
    ⟨330, 8, num_of (by decide +kernel), num_of (by decide +kernel), .inr (by decide +kernel)⟩

/-- C21 does not hold: a file that passes the checks of `alloc_patch_file` and
makes `setup_load_info` read outside the image (section name table index out of
range). -/
theorem C21_reads_outside : ∃ file img, allocPatchFile ⟨true, true, true⟩ file = some (0, some img) ∧
    setupLoadInfo img = none :=
  ⟨store exFile 62 [9, 0], store exFile 62 [9, 0], by decide +kernel, by decide +kernel⟩

/-- C21 does not hold: `sh_offset + sh_size` wraps; here for a section table
entry of the file above. -/
example : rewriteOne exFile 225 0x7f0000000000
      ⟨0, 1, 2, 0, BitVec.ofNat 64 exFile.length, -BitVec.ofNat 64 exFile.length, 0, 0⟩
    = some (.ok ⟨0, 1, 2, 0x7f0000000000 + BitVec.ofNat 64 exFile.length,
        BitVec.ofNat 64 exFile.length, -BitVec.ofNat 64 exFile.length, 0, 0⟩) :=
  (C21_wrapping_section_accepted exFile 225 0x7f0000000000
    ⟨0, 1, 2, 0, BitVec.ofNat 64 exFile.length, -BitVec.ofNat 64 exFile.length, 0, 0⟩
    (by decide +kernel) (by dsimp only) (by dsimp only)
    (by decide +kernel) (by decide) (by decide +kernel)).1

/-- A section table with a RELA section for a loadable section, one for the
bookkeeping section and one for a section that is not loadable. -/
def exTab : List Shdr :=
  [⟨0, 0, 0, 0, 0, 0, 0, 0⟩, ⟨0, 1, 6, 0, 64, 16, 0, 0⟩, ⟨0, 1, 3, 0, 85, 64, 0, 0⟩,
   ⟨0, 1, 0, 0, 64, 16, 0, 0⟩, ⟨0, 4, 0, 0, 64, 24, 0, 1⟩, ⟨0, 4, 0, 0, 64, 24, 0, 2⟩,
   ⟨0, 4, 0, 0, 64, 24, 0, 3⟩, ⟨0, 4, 0, 0, 64, 24, 0, 99⟩]

/-- Only section 4 is relocated. -/
example : (match rewriteSectionHeaders exFile 225 0x7f0000000000 2 exTab with
    | some (.ok secs') => applyRelocations (fun i st => some (st ++ [i], 0)) secs' []
    | _ => none) = some ([4], 0) := by
  decide +kernel

example : Reloc exTab 4 4 ∧ Reloc exTab 4 5 ∧ ¬ Reloc exTab 4 6 :=
  ⟨⟨_, rfl, rfl, _, rfl, rfl⟩, ⟨_, rfl, rfl, _, rfl, rfl⟩, by
    rintro ⟨s, h, _, t, ht, hb⟩
    cases h; cases ht
    exact absurd hb (by decide)⟩

/-- A symbol table with an unresolved symbol: refused if it is last, accepted if
a resolved one follows (C22). -/
def exSyms : List PSym :=
  [⟨[], 0, 0, 0, 0⟩, ⟨lit "new_f", 1, 2, 1, 4⟩, ⟨lit "printf", 1, 0, 0, 0⟩, ⟨lit "nowhere", 1, 0, 0, 0⟩]

def exResolve (n : List Byte) : BitVec 64 :=
  if n = lit "printf" then 0x7fff00001000 else 0

example : ∃ syms', simplifySymbols exTab exResolve exSyms = some (syms', -2) := ⟨_, rfl⟩

example : Bad exResolve ⟨lit "nowhere", 1, 0, 0, 0⟩ := .inl ⟨rfl, by decide, rfl⟩

example : ∃ syms', simplifySymbols exTab exResolve (exSyms ++ [⟨lit "printf", 1, 0, 0, 0⟩])
    = some (syms', 0) := ⟨_, rfl⟩

example : elfStrbuildid [0xde, 0xad, 0x0f] 7 = some (lit "dead0f") := by decide +kernel

example : solvePatchSymbols (fun n => if n = lit "old_f" then some 0x401000 else none) (lit "new_f")
    (lit "old_f") exSyms 99 3 ⟨0, 0, 0, 0, 0, 0, 0, 0, 5, 0x44332211⟩
    = .ok (⟨4, 0x401000, 4, 0x401000, 0, 0, 99, 0, 5, 0x44332211⟩, 4) := rfl

end Ulp.Load
