/-
C94: the hexadecimal dump shows every byte.
-/
import Verif.Model.Dump
import Verif.Spec.Dump
namespace Ulp.Dump
open Ulp.Load (lit hexDigit hex2)
open DumpSpec
open Ulp.ProcMaps (digit)

theorem hexDigit_eq (n : Nat) : hexDigit n = digit n := rfl

/-- The text of a line, if all that is read can be read. -/
def lineText (mem : List Byte) (len k : Nat) (h1 h2 c : Nat → Byte) : Prop :=
  ∀ i, i < 16 → ∃ b, mem[k * 16 + i]? = some b ∧
    (k * 16 + i < len → h1 i = digit (b.toNat / 16) ∧ h2 i = digit (b.toNat % 16) ∧
      c i = if isprint b then b else 46) ∧
    (len ≤ k * 16 + i → h1 i = 32 ∧ h2 i = 32 ∧ c i = 32)

theorem mapM_range16 (f : Nat → Except Crash (List Byte)) (g : Nat → List Byte)
    (h : ∀ i, i < 16 → f i = .ok (g i)) :
    (List.range 16).mapM f = .ok ((List.range 16).map g) := by
  have key : ∀ (l : List Nat), (∀ i ∈ l, i < 16) → l.mapM f = .ok (l.map g) := by
    intro l
    induction l with
    | nil => intro _; rfl
    | cons i l ih =>
      intro hl
      rw [List.mapM_cons, h i (hl i (List.mem_cons_self ..)),
        ih (fun j hj => hl j (List.mem_cons_of_mem _ hj))]
      rfl
  exact key _ (fun i hi => List.mem_range.1 hi)

/-- The 49 characters of the columns of bytes. -/
def cols (h1 h2 : Nat → Byte) : List Byte :=
  ((List.range 16).map fun i => if i = 7 then [h1 i, h2 i, 32, 32] else [h1 i, h2 i, 32]).flatten

theorem line_ok (mem : List Byte) (len k : Nat) (h1 h2 c : Nat → Byte)
    (h : lineText mem len k h1 h2 c) :
    line mem len k = .ok (hex8 (k * 16) ++ ([32, 32] ++ (cols h1 h2 ++ ([32, 32, 124] ++
      ((List.range 16).map c ++ [124, 10]))))) := by
  have e1 : (List.range 16).mapM (hexCol mem len k) =
      .ok ((List.range 16).map fun i => if i = 7 then [h1 i, h2 i, 32, 32] else [h1 i, h2 i, 32]) := by
    apply mapM_range16
    intro i hi
    obtain ⟨b, hb, hlt, hge⟩ := h i hi
    unfold hexCol
    by_cases hl : len ≤ k * 16 + i
    · obtain ⟨a1, a2, -⟩ := hge hl
      simp only [if_pos hl, a1, a2]
      by_cases h7 : i = 7
      · subst h7; rfl
      · rw [if_neg (by simpa using h7), if_neg h7]; rfl
    · obtain ⟨a1, a2, -⟩ := hlt (by omega)
      simp only [if_neg hl, hb, a1, a2]
      by_cases h7 : i = 7
      · subst h7; rfl
      · rw [if_neg (by simpa using h7), if_neg h7]; rfl
  have e2 : (List.range 16).mapM (charCol mem len k) = .ok ((List.range 16).map fun i => [c i]) := by
    apply mapM_range16
    intro i hi
    obtain ⟨b, hb, hlt, hge⟩ := h i hi
    unfold charCol
    rw [hb]
    dsimp only
    by_cases hl : len ≤ k * 16 + i
    · obtain ⟨-, -, a3⟩ := hge hl
      rw [if_pos hl, a3]; rfl
    · obtain ⟨-, -, a3⟩ := hlt (by omega)
      rw [if_neg hl, a3]
  have e3 : ((List.range 16).map fun i => [c i]).flatten = (List.range 16).map c := by
    rw [← List.flatMap_def, List.map_eq_flatMap]
  unfold line
  rw [e1, e2]
  show Except.ok _ = _
  rw [e3]
  congr 1

/-- A line, position by position. -/
structure LineAt (l : List Byte) (k : Nat) (h1 h2 c : Nat → Byte) : Prop where
  length : l.length = 80
  hex : ∀ i, i < 16 → l[10 + 3 * i + if 8 ≤ i then 1 else 0]? = some (h1 i) ∧
    l[10 + 3 * i + (if 8 ≤ i then 1 else 0) + 1]? = some (h2 i)
  char : ∀ i, i < 16 → l[62 + i]? = some (c i)
  offset : ∀ d, d < 8 → l[d]? = some (digit (k * 16 / 16 ^ (7 - d) % 16))
  newline : l[79]? = some 10

theorem lineAt (k : Nat) (h1 h2 c : Nat → Byte) :
    LineAt (hex8 (k * 16) ++ ([32, 32] ++ (cols h1 h2 ++ ([32, 32, 124] ++
      ((List.range 16).map c ++ [124, 10]))))) k h1 h2 c := by
  have hlen : (hex8 (k * 16)).length = 8 := by simp [hex8]
  have hcl : (cols h1 h2).length = 49 := by rfl
  refine ⟨by simp [hlen, hcl], ?_, ?_, ?_, ?_⟩
  · intro i hi
    have hcol : (cols h1 h2)[3 * i + if 8 ≤ i then 1 else 0]? = some (h1 i) ∧
        (cols h1 h2)[3 * i + (if 8 ≤ i then 1 else 0) + 1]? = some (h2 i) := by
      have : i = 0 ∨ i = 1 ∨ i = 2 ∨ i = 3 ∨ i = 4 ∨ i = 5 ∨ i = 6 ∨ i = 7 ∨ i = 8 ∨ i = 9 ∨
        i = 10 ∨ i = 11 ∨ i = 12 ∨ i = 13 ∨ i = 14 ∨ i = 15 := by omega
      rcases this with rfl | rfl | rfl | rfl | rfl | rfl | rfl | rfl | rfl | rfl | rfl | rfl | rfl |
        rfl | rfl | rfl <;> exact ⟨rfl, rfl⟩
    have hb : 3 * i + (if 8 ≤ i then 1 else 0) + 1 < 49 := by split <;> omega
    constructor
    · rw [List.getElem?_append_right (by omega), List.getElem?_append_right (by simp; omega),
        List.getElem?_append_left (by simp; omega), ← hcol.1]
      congr 1
      simp; omega
    · rw [List.getElem?_append_right (by omega), List.getElem?_append_right (by simp; omega),
        List.getElem?_append_left (by simp; omega), ← hcol.2]
      congr 1
      simp; omega
  · intro i hi
    rw [List.getElem?_append_right (by omega), List.getElem?_append_right (by simp; omega),
      List.getElem?_append_right (by simp; omega), List.getElem?_append_right (by simp; omega),
      List.getElem?_append_left (by simp; omega)]
    have e : 62 + i - 8 - 2 - 49 - 3 = i := by omega
    simp only [hlen, hcl, List.length_cons, List.length_nil, Nat.zero_add, Nat.reduceAdd, e]
    simp [hi]
  · intro d hd
    rw [List.getElem?_append_left (by omega)]
    simp [hex8, hd, hexDigit_eq]
  · rw [List.getElem?_append_right (by omega), List.getElem?_append_right (by simp; omega),
      List.getElem?_append_right (by simp; omega), List.getElem?_append_right (by simp; omega),
      List.getElem?_append_right (by simp; omega)]
    simp [hlen, hcl]

theorem lines_ok (mem : List Byte) (len : Nat) (L : Nat → List Byte) (hlen : len + 15 < 2 ^ 31) :
    ∀ n k, len - k * 16 ≤ n → k * 16 < len + 16 →
    (∀ m, k ≤ m → m * 16 < len → line mem len m = .ok (L m) ∧ (L m).length = 80) →
    ∃ t, lines mem len k = .ok (t, 15 * ((len - k * 16 + 15) / 16 : Nat)) ∧
      t.length = 80 * ((len - k * 16 + 15) / 16) ∧
      ∀ m c, k ≤ m → m * 16 < len → c < 80 → t[80 * (m - k) + c]? = (L m)[c]? := by
  intro n
  induction n with
  | zero =>
    intro k hk hb h
    refine ⟨[], ?_, ?_, ?_⟩
    · unfold lines
      rw [if_neg (by omega), if_pos (by omega), show (len - k * 16 + 15) / 16 = 0 by omega]
      rfl
    · rw [show (len - k * 16 + 15) / 16 = 0 by omega]; rfl
    · intro m c hm hl _; omega
  | succ n ih =>
    intro k hk hb h
    by_cases hl : k * 16 < len
    · obtain ⟨t, h1, h2, h3⟩ := ih (k + 1) (by omega) (by omega)
        (fun m hm hml => h m (by omega) hml)
      obtain ⟨e1, e2⟩ := h k (Nat.le_refl _) hl
      have e3 : (len - k * 16 + 15) / 16 = (len - (k + 1) * 16 + 15) / 16 + 1 := by omega
      refine ⟨L k ++ t, ?_, ?_, ?_⟩
      · unfold lines
        rw [if_pos hl, e1, h1]
        show Except.ok _ = _
        congr 2
        rw [e3]; omega
      · rw [List.length_append, e2, h2, e3]; omega
      · intro m c hm hml hc
        by_cases hmk : m = k
        · subst hmk
          rw [Nat.sub_self, Nat.mul_zero, Nat.zero_add, List.getElem?_append_left (by omega)]
        · rw [List.getElem?_append_right (by omega), ← h3 m c (by omega) hml hc]
          congr 1
          omega
    · refine ⟨[], ?_, ?_, ?_⟩
      · unfold lines
        rw [if_neg hl, if_pos (by omega), show (len - k * 16 + 15) / 16 = 0 by omega]
        rfl
      · rw [show (len - k * 16 + 15) / 16 = 0 by omega]; rfl
      · intro m c hm hml _; omega

/-- **C94, partial.**  For every piece of memory of less than 2 GiB that is followed by
readable bytes up to the next multiple of 16: the dump shows every byte, with the right two
digits and the right character at the right place, and the right offset before each line.
Missing: if the bytes that follow cannot be read, the program reads outside of the memory
(`C94_overread`); and the number returned is not the number of characters (`C94_count`). -/
theorem C94_dump_partial (mem : List Byte) (len : Nat) (hpos : 0 < len) (hlen : len + 15 < 2 ^ 31)
    (hmem : 16 * ((len + 15) / 16) ≤ mem.length) :
    ∃ t r, memshow true (some mem) len = .ok (t, r) ∧ IsDump (mem.take len) t := by
  have hread : ∀ m i, m * 16 < len → i < 16 → ∃ b, mem[m * 16 + i]? = some b := by
    intro m i hm hi
    exact ⟨mem[m * 16 + i]'(by omega), List.getElem?_eq_getElem _⟩
  -- what should be in line `m`
  let H1 : Nat → Nat → Byte := fun m i =>
    match mem[m * 16 + i]? with
    | some b => if m * 16 + i < len then digit (b.toNat / 16) else 32
    | none => 0
  let H2 : Nat → Nat → Byte := fun m i =>
    match mem[m * 16 + i]? with
    | some b => if m * 16 + i < len then digit (b.toNat % 16) else 32
    | none => 0
  let C : Nat → Nat → Byte := fun m i =>
    match mem[m * 16 + i]? with
    | some b => if m * 16 + i < len then (if isprint b then b else 46) else 32
    | none => 0
  have hval : ∀ m i b, mem[m * 16 + i]? = some b → m * 16 + i < len →
      H1 m i = digit (b.toNat / 16) ∧ H2 m i = digit (b.toNat % 16) ∧
        C m i = if isprint b then b else 46 := by
    intro m i b hb hl
    simp only [H1, H2, C, hb, if_pos hl, and_self]
  have htext : ∀ m, m * 16 < len → lineText mem len m (H1 m) (H2 m) (C m) := by
    intro m hm i hi
    obtain ⟨b, hb⟩ := hread m i hm hi
    refine ⟨b, hb, hval m i b hb, fun hl => ?_⟩
    simp only [H1, H2, C, hb, if_neg (show ¬ m * 16 + i < len by omega), and_self]
  obtain ⟨t, h1, h2, h3⟩ := lines_ok mem len
    (fun m => hex8 (m * 16) ++ ([32, 32] ++ (cols (H1 m) (H2 m) ++ ([32, 32, 124] ++
      ((List.range 16).map (C m) ++ [124, 10]))))) hlen len 0 (by omega) (by omega)
    (fun m _ hm => ⟨line_ok mem len m _ _ _ (htext m hm), (lineAt m _ _ _).length⟩)
  refine ⟨t, 15 * ((len - 0 * 16 + 15) / 16 : Nat), ?_, ?_⟩
  · unfold memshow
    dsimp only
    rw [if_neg (by omega), if_neg (by simp), Int.toNat_natCast]
    exact h1
  · have hl : (mem.take len).length = len := by rw [List.length_take]; omega
    have hget : ∀ i b, (mem.take len)[i]? = some b → i < len ∧ mem[i]? = some b := by
      intro i b hb
      have hi : i < len := by
        have := (List.getElem?_eq_some_iff.1 hb).1; omega
      rw [List.getElem?_take_of_lt hi] at hb
      exact ⟨hi, hb⟩
    have hdiv : ∀ i, i / 16 * 16 + i % 16 = i := fun i => by omega
    have hat := fun m => lineAt m (H1 m) (H2 m) (C m)
    refine ⟨by rw [h2, hl]; simp, ?_, ?_, ?_, ?_, ?_⟩
    · intro i b hb
      obtain ⟨hi, hb⟩ := hget i b hb
      have hm : i % 16 < 16 := Nat.mod_lt _ (by omega)
      obtain ⟨a1, a2, -⟩ := hval (i / 16) (i % 16) b (by rw [hdiv]; exact hb) (by rw [hdiv]; exact hi)
      obtain ⟨b1, b2⟩ := (hat (i / 16)).hex (i % 16) hm
      have hc : (if 8 ≤ i % 16 then 1 else 0) ≤ 1 := by split <;> omega
      rw [a1] at b1; rw [a2] at b2
      constructor
      · rw [← b1, ← h3 (i / 16) _ (by omega) (by omega) (by omega)]
        congr 1
        simp only [hexPos]; omega
      · rw [← b2, ← h3 (i / 16) _ (by omega) (by omega) (by omega)]
        congr 1
        simp only [hexPos]; omega
    · intro i b hb hp
      obtain ⟨hi, hb⟩ := hget i b hb
      obtain ⟨-, -, a3⟩ := hval (i / 16) (i % 16) b (by rw [hdiv]; exact hb) (by rw [hdiv]; exact hi)
      have b1 := (hat (i / 16)).char (i % 16) (Nat.mod_lt _ (by omega))
      have hpr : isprint b = true := by
        unfold isprint; unfold Printable at hp; simp [hp.1, hp.2]
      rw [a3, if_pos hpr] at b1
      rw [← b1, ← h3 (i / 16) _ (by omega) (by omega) (by omega)]
      congr 1
      simp only [charPos]; omega
    · intro i b hb hp
      obtain ⟨hi, hb⟩ := hget i b hb
      obtain ⟨-, -, a3⟩ := hval (i / 16) (i % 16) b (by rw [hdiv]; exact hb) (by rw [hdiv]; exact hi)
      have b1 := (hat (i / 16)).char (i % 16) (Nat.mod_lt _ (by omega))
      have hpr : ¬ isprint b = true := by
        intro h; apply hp
        unfold isprint at h; simp only [Bool.and_eq_true, decide_eq_true_eq] at h
        exact h
      rw [a3, if_neg hpr] at b1
      rw [← b1, ← h3 (i / 16) _ (by omega) (by omega) (by omega)]
      congr 1
      simp only [charPos]; omega
    · intro k hk d hd
      rw [hl] at hk
      have b1 := (hat k).offset d hd
      rw [Nat.mul_comm 16 k, ← b1, ← h3 k d (by omega) (by omega) (by omega)]
      congr 1
    · intro k hk
      rw [hl] at hk
      have b1 := (hat k).newline
      rw [← b1, ← h3 k 79 (by omega) (by omega) (by omega)]
      congr 1

example : ∃ t r, memshow true (some (List.replicate 32 65)) 20 = .ok (t, r) ∧
    IsDump ((List.replicate 32 65).take 20) t :=
  C94_dump_partial _ 20 (by omega) (by omega) (by simp)

/-- **Finding.**  The number returned is 15 for each line, not the 80 characters that are
written. -/
theorem C94_count (mem : List Byte) (len : Nat) (hpos : 0 < len) (hlen : len + 15 < 2 ^ 31)
    (t : List Byte) (r : Int) (h : memshow true (some mem) len = .ok (t, r)) :
    r = 15 * ((len + 15) / 16 : Nat) := by
  have key : ∀ n k t r, len - k * 16 ≤ n → k * 16 < len + 16 → lines mem len k = .ok (t, r) →
      r = 15 * ((len - k * 16 + 15) / 16 : Nat) := by
    intro n
    induction n with
    | zero =>
      intro k t r hk hb h
      unfold lines at h
      rw [if_neg (by omega), if_pos (by omega)] at h
      injection h with h; injection h with h1 h2
      rw [← h2]; omega
    | succ n ih =>
      intro k t r hk hb h
      unfold lines at h
      by_cases hl : k * 16 < len
      · rw [if_pos hl] at h
        cases h1 : line mem len k with
        | error e => rw [h1] at h; cases h
        | ok l =>
          cases h2 : lines mem len (k + 1) with
          | error e => rw [h1, h2] at h; cases h
          | ok v =>
            rw [h1, h2] at h
            injection h with h; injection h with h3 h4
            have := ih (k + 1) v.1 v.2 (by omega) (by omega) h2
            rw [← h4, this]; omega
      · rw [if_neg hl, if_pos (by omega)] at h
        injection h with h; injection h with h1 h2
        rw [← h2]; omega
  unfold memshow at h
  dsimp only at h
  rw [if_neg (by omega), if_neg (by simp), Int.toNat_natCast] at h
  have := key len 0 t r (by omega) (by omega) h
  simpa using this

theorem mapM_ok {f : Nat → Except Crash (List Byte)} : ∀ {l : List Nat} {v : List (List Byte)},
    l.mapM f = .ok v → ∀ i ∈ l, ∃ x, f i = .ok x
  | [], _, _, i, hi => by cases hi
  | a :: l, v, h, i, hi => by
    rw [List.mapM_cons] at h
    cases h1 : f a with
    | error e => rw [h1] at h; cases h
    | ok x =>
      cases h2 : l.mapM f with
      | error e => rw [h1, h2] at h; cases h
      | ok y =>
        rcases List.mem_cons.1 hi with rfl | hi
        · exact ⟨x, h1⟩
        · exact mapM_ok h2 i hi

theorem mapM_error {f : Nat → Except Crash (List Byte)} (hf : ∀ i e, f i = .error e → e = .overread) :
    ∀ {l : List Nat} {e : Crash}, l.mapM f = .error e → e = .overread
  | [], _, h => by cases h
  | a :: l, e, h => by
    rw [List.mapM_cons] at h
    cases h1 : f a with
    | error e' => rw [h1] at h; injection h with h; exact h ▸ hf a e' h1
    | ok x =>
      cases h2 : l.mapM f with
      | error e' => rw [h1, h2] at h; injection h with h; exact h ▸ mapM_error hf h2
      | ok y => rw [h1, h2] at h; cases h

/-- **Finding.**  If the number of bytes is not a multiple of 16 and nothing behind them can
be read, the memory behind them is read all the same. -/
theorem C94_overread (mem : List Byte) (hpos : 0 < mem.length) (hodd : mem.length % 16 ≠ 0) :
    memshow true (some mem) mem.length = .error .overread := by
  have hline : ∀ k, (∃ l, line mem mem.length k = .ok l ∧ k * 16 + 15 < mem.length) ∨
      line mem mem.length k = .error .overread := by
    intro k
    have hh : ∀ i e, hexCol mem mem.length k i = .error e → e = .overread := by
      intro i e h
      unfold hexCol at h
      dsimp only at h
      split at h
      · cases h
      · split at h
        · injection h with h; exact h.symm
        · cases h
    have hc : ∀ i e, charCol mem mem.length k i = .error e → e = .overread := by
      intro i e h
      unfold charCol at h
      split at h
      · injection h with h; exact h.symm
      · dsimp only at h; split at h <;> cases h
    unfold line
    cases h1 : (List.range 16).mapM (hexCol mem mem.length k) with
    | error e => rw [mapM_error hh h1]; exact .inr rfl
    | ok v =>
      cases h2 : (List.range 16).mapM (charCol mem mem.length k) with
      | error e => rw [mapM_error hc h2]; exact .inr rfl
      | ok w =>
        refine .inl ⟨_, rfl, ?_⟩
        obtain ⟨x, hx⟩ := mapM_ok h2 15 (by simp)
        unfold charCol at hx
        split at hx
        · cases hx
        · rename_i b hb; exact (List.getElem?_eq_some_iff.1 hb).1
  have key : ∀ n k, mem.length - k * 16 ≤ n → k * 16 < mem.length →
      lines mem mem.length k = .error .overread := by
    intro n
    induction n with
    | zero => intro k hk hl; omega
    | succ n ih =>
      intro k hk hl
      unfold lines
      rw [if_pos hl]
      rcases hline k with ⟨l, h1, h2⟩ | h1
      · rw [h1, ih (k + 1) (by omega) (by omega)]; rfl
      · rw [h1]; rfl
  unfold memshow
  dsimp only
  rw [if_neg (by omega), if_neg (by simp), Int.toNat_natCast]
  exact key _ 0 (Nat.le_refl _) (by omega)

example : memshow true (some [1, 2, 3]) 3 = .error .overread :=
  C94_overread [1, 2, 3] (by simp) (by simp)

/-- Nothing to show, or no stream to show it on. -/
theorem C94_nothing (mem : Option (List Byte)) (n : Int) :
    memshow false mem n = .ok ([], if mem = none ∨ n ≤ 0 then -22 else 0) ∧
    (n ≤ 0 → memshow true mem n = .ok ([], -22)) ∧ memshow true none n = .ok ([], -22) := by
  refine ⟨?_, ?_, rfl⟩
  · cases mem with
    | none => rfl
    | some m =>
      unfold memshow
      dsimp only
      by_cases h : n ≤ 0
      · rw [if_pos h, if_pos (.inr h)]
      · rw [if_neg h, if_pos rfl, if_neg (by simpa using h)]
  · intro h
    cases mem with
    | none => rfl
    | some m => unfold memshow; dsimp only; rw [if_pos h]

end Ulp.Dump
