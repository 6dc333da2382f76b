/-
C99: the table of mappings (src/task/vma.c:407-480), from `/proc/PID/maps` to the text.
-/
import Verif.Props.Listing
import Verif.Props.MapsFile
import Verif.Props.VmaType
namespace Ulp.Listing
open Ulp.Load (lit)
open Ulp.MapKind (text shown First rules Decimal)
open Ulp.ProcMaps (hex zeros Mapping file)
open Ulp.MapsFile (readMaps mapInfo MapInfo Rec SameNumbers Plain)
open Ulp.ListingSpec

def extra (x : Role) : Extra := ⟨x.elf, x.lib, x.phdr, x.leader, x.voffset⟩

theorem typeName (t : VmaType.VmaType) : VmaType.vmaTypeName t = text (shown t) := by
  cases t <;> decide

/-- The rows of the table, each with its kind and letters. -/
def rowsOf (l : List Mapping) (kinds : List VmaType.VmaType) (roles : List Role) : List (List Byte) :=
  List.zipWith (fun m kx => mapRow m kx.1 kx.2) l (kinds.zip roles)

theorem printVma_eq {shift : Nat} {m : Mapping} {v : MapInfo} {perms : List Byte} {x : Role} {first : Bool}
    (h1 : v.start.toNat = m.start) (h2 : v.stop.toNat = m.stop) (h3 : perms = m.perms)
    (h4 : (v.pgoff <<< shift).toNat = m.offset) (h5 : v.name = m.name) :
    printVma shift first v perms (extra x) = (if first then mapHead else []) ++ mapRow m v.type x := by
  have e16 : ∀ n, lx16 n = zeros 16 (hex n) := fun n => by unfold lx16 zeros; rw [lx_eq]
  have eh : vmaHead = mapHead := by decide
  unfold printVma
  rw [h1, h2, h3, h4, h5, typeName, e16, e16, e16, e16, eh]
  unfold mapRow Role.letters
  simp only [List.append_assoc]
  rfl

theorem vmaLoop_ok {shift : Nat} : ∀ (l : List Mapping) (vs : List (MapInfo × List Byte × Role))
    (_ : vs.length = l.length)
    (_ : ∀ (i : Nat) m v, l[i]? = some m → vs[i]? = some v → v.1.start.toNat = m.start ∧
      v.1.stop.toNat = m.stop ∧ v.2.1 = m.perms ∧ (v.1.pgoff <<< shift).toNat = m.offset ∧ v.1.name = m.name)
    (first : Bool),
    vmaLoop shift first (vs.map fun v => (v.1, v.2.1, extra v.2.2)) =
      (if first ∧ l ≠ [] then mapHead else []) ++
        (rowsOf l (vs.map fun v => v.1.type) (vs.map fun v => v.2.2)).flatten
  | [], vs, hl, _, first => by
    obtain rfl := List.length_eq_zero_iff.1 hl
    simp [vmaLoop, rowsOf]
  | m :: l, [], hl, _, _ => by simp at hl
  | m :: l, v :: vs, hl, h, first => by
    obtain ⟨h1, h2, h3, h4, h5⟩ := h 0 m v rfl rfl
    rw [List.map_cons, vmaLoop]
    dsimp only
    rw [printVma_eq h1 h2 h3 h4 h5, vmaLoop_ok l vs (by simpa using hl)
      (fun i m' v' a b => h (i + 1) m' v' (by simpa using a) (by simpa using b)) false]
    simp [rowsOf]

/-- **C99, partial.**  For the mappings of any process, with names that can be recorded and
offsets that are multiples of the page size: what `ultask --vmas` prints is a head, two lines
for each mapping in the order of `/proc/PID/maps`, with its start, end, permissions, offset
and name as there and its kind by the rules of C45, and the explanation of the letters.
Missing: the columns are not in line for one kind (`C99_vclock`); other names, see C55. -/
theorem C99_table_partial (l : List Mapping) (shift pid : Nat) (pidText exe : List Byte)
    (hp : Decimal pid pidText)
    (h : ∀ m ∈ l, m.InRange ∧ Plain m.name ∧ m.offset % 2 ^ shift = 0 ∧ m.name.getLast? ≠ some 47)
    (roles : List Role) (hr : roles.length = l.length) :
    ∃ (rs : List Rec) (vs : List MapInfo) (kinds : List VmaType.VmaType),
      readMaps (file l) = some (rs, 0) ∧ rs.mapM (mapInfo shift pid exe) = some vs ∧
      kinds.length = l.length ∧
      (∀ (i : Nat) m k, l[i]? = some m → kinds[i]? = some k → First (rules pidText exe m.name) k) ∧
      printVmaRoot shift (vs.zip ((rs.map Rec.perms).zip (roles.map extra))) =
        (if l = [] then [] else mapHead) ++ (rowsOf l kinds roles).flatten ++ mapFoot := by
  obtain ⟨rs, e, hlen, hget⟩ := MapsFile.C55_names_partial l fun m hm => ⟨(h m hm).1, (h m hm).2.1⟩
  have hinfo : ∀ (i : Nat) r, rs[i]? = some r → ∃ m v, l[i]? = some m ∧ mapInfo shift pid exe r = some v ∧
      SameNumbers r m ∧ r.name = m.name ∧ v.start = r.start ∧ v.stop = r.stop ∧ v.name = r.name ∧
      v.pgoff.toNat = m.offset / 2 ^ shift ∧ v.type = VmaType.getVmaType pid exe r.name := by
    intro i r hi
    have hil : i < l.length := by
      rw [← hlen]; exact (List.getElem?_eq_some_iff.1 hi).1
    obtain ⟨r', hr', hsame, hname⟩ := hget i l[i] (List.getElem?_eq_getElem hil)
    rw [hi] at hr'
    injection hr' with hr'
    subst hr'
    obtain ⟨v, q1, q2, q3, q4, _, _, _, q5, q6⟩ := MapsFile.C55_prot shift pid exe _ r hsame
    exact ⟨_, v, List.getElem?_eq_getElem hil, q1, hsame, hname, q2, q3, q4, q5, q6⟩
  have hex : ∃ vs, rs.mapM (mapInfo shift pid exe) = some vs ∧ vs.length = rs.length ∧
      ∀ (i : Nat) r, rs[i]? = some r → vs[i]? = mapInfo shift pid exe r := by
    have hall : ∀ r ∈ rs, ∃ v, mapInfo shift pid exe r = some v := by
      intro r hr
      obtain ⟨i, hi⟩ := List.getElem?_of_mem hr
      obtain ⟨_, v, _, q, _⟩ := hinfo i r hi
      exact ⟨v, q⟩
    clear hinfo hget hlen e
    induction rs with
    | nil => exact ⟨[], rfl, rfl, by simp⟩
    | cons r rs ih =>
      obtain ⟨vs, q1, q2, q3⟩ := ih fun r' hr' => hall r' (by simp [hr'])
      obtain ⟨v, hv⟩ := hall r (by simp)
      refine ⟨v :: vs, by rw [List.mapM_cons, hv, q1]; rfl, by simp [q2], ?_⟩
      intro i r' hi
      cases i with
      | zero => simp only [List.getElem?_cons_zero, Option.some.injEq] at hi ⊢; rw [← hi, hv]
      | succ i => simp only [List.getElem?_cons_succ] at hi ⊢; exact q3 i r' hi
  obtain ⟨vs, e2, hvl, hvg⟩ := hex
  have hall : ∀ (i : Nat) m v, l[i]? = some m → vs[i]? = some v → ∃ r, rs[i]? = some r ∧
      v.start.toNat = m.start ∧ v.stop.toNat = m.stop ∧ r.perms = m.perms ∧
      (v.pgoff <<< shift).toNat = m.offset ∧ v.name = m.name ∧
      v.type = VmaType.getVmaType pid exe m.name := by
    intro i m v hm hv
    have hir : i < rs.length := by rw [← hvl]; exact (List.getElem?_eq_some_iff.1 hv).1
    obtain ⟨m', v', q1, q2, q3, q4, q5, q6, q7, q8, q9⟩ := hinfo i rs[i] (List.getElem?_eq_getElem hir)
    rw [hm] at q1
    injection q1 with q1
    subst q1
    have := hvg i rs[i] (List.getElem?_eq_getElem hir)
    rw [q2, hv] at this
    injection this with this
    subst this
    obtain ⟨s1, s2, s3, s4, s5, s6, s7⟩ := q3
    refine ⟨rs[i], List.getElem?_eq_getElem hir, by rw [q5, s1], by rw [q6, s2], s3, ?_, by rw [q7, q4],
      by rw [q9, q4]⟩
    have hdiv := (h m (List.mem_of_getElem? hm)).2.2.1
    have hlt : m.offset < 2 ^ 64 := by rw [← s4]; exact (rs[i]).off.isLt
    rw [BitVec.toNat_shiftLeft, q8, Nat.shiftLeft_eq, Nat.div_mul_cancel (Nat.dvd_of_mod_eq_zero hdiv),
      Nat.mod_eq_of_lt hlt]
  refine ⟨rs, vs, vs.map MapInfo.type, e, e2, by rw [List.length_map, hvl, hlen], ?_, ?_⟩
  · intro i m k hm hk
    rw [List.getElem?_map] at hk
    cases hv : vs[i]? with
    | none => rw [hv] at hk; cases hk
    | some v =>
      rw [hv] at hk
      injection hk with hk
      obtain ⟨r, _, _, _, _, _, _, ht⟩ := hall i m v hm hv
      rw [← hk, ht]
      exact VmaType.C45_rules pid pidText exe m.name hp (h m (List.mem_of_getElem? hm)).2.2.2
  · have hz : vs.zip ((rs.map Rec.perms).zip (roles.map extra)) =
        (vs.zip ((rs.map Rec.perms).zip roles)).map fun v => (v.1, v.2.1, extra v.2.2) := by
      rw [List.zip_map_right, List.zip_map_right]
      rfl
    have hrl : roles.length = vs.length := by rw [hr, hvl, hlen]
    have hk : (vs.zip ((rs.map Rec.perms).zip roles)).map (fun v => v.1.type) = vs.map MapInfo.type := by
      rw [show (fun v : MapInfo × List Byte × Role => v.1.type) = MapInfo.type ∘ Prod.fst from rfl,
        ← List.map_map, List.map_fst_zip (by simp; omega)]
    have hro : (vs.zip ((rs.map Rec.perms).zip roles)).map (fun v => v.2.2) = roles := by
      rw [show (fun v : MapInfo × List Byte × Role => v.2.2) = Prod.snd ∘ Prod.snd from rfl,
        ← List.map_map, List.map_snd_zip (by simp; omega), List.map_snd_zip (by simp; omega)]
    unfold printVmaRoot
    rw [hz, vmaLoop_ok l _ (by simp; omega) ?_ true, hk, hro]
    · simp only [true_and, ne_eq, ite_not]
      rfl
    · intro i m v hm hv
      rw [List.getElem?_zip_eq_some, List.getElem?_zip_eq_some, List.getElem?_map] at hv
      obtain ⟨r, hri, s1, s2, s3, s4, s5, _⟩ := hall i m v.1 hm hv.1
      rw [hri] at hv
      have := hv.2.1
      simp only [Option.map_some, Option.some.injEq] at this
      exact ⟨s1, s2, by rw [← this, s3], s4, s5⟩


theorem hex_length : ∀ (k n : Nat), n < 16 ^ (k + 1) → (hex n).length ≤ k + 1
  | 0, n, h => by rw [hex, if_pos (by omega)]; simp
  | k + 1, n, h => by
    rw [hex]
    split
    · simp
    · have := hex_length k (n / 16) (by rw [Nat.pow_succ] at h; omega)
      simp; omega

theorem zeros16_length {n : Nat} (h : n < 2 ^ 64) : (zeros 16 (hex n)).length = 16 := by
  have := hex_length 15 n (by omega)
  simp [zeros]; omega

/-- **C99, columns.**  In the line of every mapping of any other kind, the start is at column
12 and the end at column 29, with 16 digits each. -/
theorem C99_columns (m : Mapping) (h : m.InRange) (k : VmaType.VmaType) (x : Role)
    (hk : k ≠ .vvarVclock) :
    ((mapRow m k x).drop 12).take 16 = zeros 16 (hex m.start) ∧
      ((mapRow m k x).drop 29).take 16 = zeros 16 (hex m.stop) := by
  have h1 := zeros16_length (n := m.start) h.1
  have h2 := zeros16_length (n := m.stop) h.2.1
  have h3 : (right 10 (text (shown k)) ++ text ": ").length = 12 := by
    cases k <;> first | rfl | exact absurd rfl hk
  have e : mapRow m k x = (right 10 (text (shown k)) ++ text ": ") ++ (zeros 16 (hex m.start) ++
      (text "-" ++ (zeros 16 (hex m.stop) ++ (text " " ++ right 6 m.perms ++ text " " ++ x.letters ++ [10] ++
        spaces 12 ++ zeros 16 (hex m.offset) ++ text " " ++ zeros 16 (hex x.voffset.toNat) ++ text " " ++
        m.name ++ [10])))) := by
    unfold mapRow
    simp only [List.append_assoc]
  rw [e]
  refine ⟨?_, ?_⟩
  · rw [List.drop_append_of_le_length (by omega), List.drop_of_length_le (by omega), List.nil_append,
      List.take_left' h1]
  · rw [show 29 = (right 10 (text (shown k)) ++ text ": ").length + ((zeros 16 (hex m.start)).length + 1) by omega,
      ← List.drop_drop, List.drop_left, ← List.drop_drop, List.drop_left]
    show (zeros 16 (hex m.stop) ++ _).take 16 = _
    rw [List.take_left' h2]

/-- **Finding.**  The name `vvar_vclock` is wider than its column: the line of such a mapping
is shifted by one. -/
theorem C99_vclock (m : Mapping) (h : m.InRange) (x : Role) :
    ((mapRow m .vvarVclock x).drop 12).take 17 = text " " ++ zeros 16 (hex m.start) := by
  have h1 := zeros16_length (n := m.start) h.1
  unfold mapRow
  simp only [List.append_assoc]
  show (text " " ++ (zeros 16 (hex m.start) ++ _)).take 17 = _
  rw [← List.append_assoc, show 17 = (text " " ++ zeros 16 (hex m.start)).length by
    rw [List.length_append, h1]; rfl, List.take_left]

def exMaps : List Mapping :=
  [⟨0x400000, 0x401000, true, false, true, false, 0, 8, 1, 77, text "/bin/a"⟩,
   ⟨0x401000, 0x403000, true, true, false, false, 0x1000, 8, 1, 77, text "/bin/a"⟩,
   ⟨0x7ffd00000000, 0x7ffd00021000, true, true, false, false, 0, 0, 0, 0, text "[stack]"⟩]

example : ∃ (rs : List Rec) (vs : List MapInfo) (kinds : List VmaType.VmaType),
    readMaps (file exMaps) = some (rs, 0) ∧ rs.mapM (mapInfo 12 42 (text "/bin/a")) = some vs ∧
    kinds.length = exMaps.length ∧
    (∀ (i : Nat) m k, exMaps[i]? = some m → kinds[i]? = some k →
      First (rules (text "42") (text "/bin/a") m.name) k) ∧
    printVmaRoot 12 (vs.zip ((rs.map Rec.perms).zip
        ((List.replicate 3 (Role.mk true false true true 0)).map extra))) =
      (if exMaps = [] then [] else mapHead) ++
        (rowsOf exMaps kinds (List.replicate 3 (Role.mk true false true true 0))).flatten ++ mapFoot :=
  C99_table_partial exMaps 12 42 (text "42") (text "/bin/a")
    (.more (n := 4) (d := 2) (by decide) (by decide) (.digit (by decide)))
    (by
      intro m hm
      simp only [exMaps, List.mem_cons, List.not_mem_nil, or_false] at hm
      rcases hm with rfl | rfl | rfl <;>
        exact ⟨by unfold Mapping.InRange; decide, ⟨by unfold Ulp.ProcMaps.blank; decide, by decide⟩, by decide, by decide⟩)
    _ rfl

example : mapRow ⟨0x400000, 0x401000, true, false, true, false, 0, 8, 1, 77, text "/bin/a"⟩ .self
      ⟨true, false, true, true, 0⟩ =
    text "      self: 0000000000400000-0000000000401000   r-xp E-PL\n            0000000000000000 0000000000000000 /bin/a\n" := by
  decide +kernel

end Ulp.Listing
