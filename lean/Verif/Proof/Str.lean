import Verif.Model.Str
import Verif.Spec.Text
namespace Ulp.Str
open Ulp.Load (lit)
open Ulp.Text

/-! ### pieces -/

theorem takeWhile_append_dropWhile' (c : Byte) (s : List Byte) :
    s.takeWhile (· ≠ c) ++ s.dropWhile (· ≠ c) = s := List.takeWhile_append_dropWhile

theorem not_mem_takeWhile (c : Byte) (s : List Byte) : c ∉ s.takeWhile (· ≠ c) := by
  induction s with
  | nil => simp
  | cons a s ih =>
    rw [List.takeWhile_cons]
    split
    · rename_i h
      simp only [List.mem_cons, not_or]
      exact ⟨fun e => by simp [e] at h, ih⟩
    · simp

theorem dropWhile_shape (c : Byte) (s : List Byte) :
    s.dropWhile (· ≠ c) = [] ∨ ∃ t, s.dropWhile (· ≠ c) = c :: t := by
  induction s with
  | nil => simp
  | cons a s ih =>
    rw [List.dropWhile_cons]
    split
    · exact ih
    · rename_i h
      refine Or.inr ⟨s, ?_⟩
      simp at h
      rw [h]

theorem takeWhile_piece (c : Byte) (p s : List Byte) (h : c ∉ p) (hs : s = [] ∨ ∃ t, s = c :: t) :
    (p ++ s).takeWhile (· ≠ c) = p ∧ (p ++ s).dropWhile (· ≠ c) = s := by
  induction p with
  | nil =>
    rcases hs with rfl | ⟨t, rfl⟩
    · simp
    · simp
  | cons a p ih =>
    simp only [List.mem_cons, not_or] at h
    have := ih h.2
    have ha : a ≠ c := fun e => h.1 e.symm
    simp only [List.cons_append, List.takeWhile_cons, List.dropWhile_cons, ha, ne_eq,
      not_false_eq_true, decide_true, if_true]
    exact ⟨congrArg (a :: ·) this.1, this.2⟩

/-- Every text has its pieces. -/
theorem _root_.Ulp.Text.Pieces.exists (c : Byte) (s : List Byte) : ∃ ps, Pieces c s ps := by
  generalize hn : s.length = n
  induction n using Nat.strongRecOn generalizing s with
  | _ n ih =>
    match s with
    | [] => exact ⟨[], .done⟩
    | a :: r =>
      by_cases h : a = c
      · subst h
        obtain ⟨ps, hp⟩ := ih r.length (by simp at hn; omega) r rfl
        exact ⟨ps, .sep hp⟩
      · have e := takeWhile_append_dropWhile' c (a :: r)
        have hd := dropWhile_shape c (a :: r)
        have hne : (a :: r).takeWhile (· ≠ c) ≠ [] := by simp [h]
        have hl : ((a :: r).dropWhile (· ≠ c)).length < n := by
          have := congrArg List.length e
          rw [List.length_append] at this
          have h2 := List.length_pos_iff.2 hne
          omega
        obtain ⟨ps, hp⟩ := ih _ hl _ rfl
        refine ⟨(a :: r).takeWhile (· ≠ c) :: ps, ?_⟩
        have := Pieces.piece hne (not_mem_takeWhile c (a :: r)) hd hp
        rwa [e] at this

/-- A text has only one list of pieces. -/
theorem _root_.Ulp.Text.Pieces.unique {c : Byte} {s : List Byte} {ps qs : List (List Byte)}
    (h1 : Pieces c s ps) : Pieces c s qs → ps = qs := by
  induction h1 generalizing qs with
  | done =>
    intro h2
    generalize hs : ([] : List Byte) = s at h2
    cases h2 with
    | done => rfl
    | sep _ => cases hs
    | piece hne _ _ _ =>
      have := List.append_eq_nil_iff.1 hs.symm
      exact absurd this.1 hne
  | @sep s ps h ih =>
    intro h2
    generalize hs : c :: s = s' at h2
    cases h2 with
    | done => cases hs
    | sep h' =>
      cases hs
      exact ih h'
    | @piece p _ _ hne hc _ _ =>
      cases p with
      | nil => exact absurd rfl hne
      | cons a p =>
        simp only [List.cons_append, List.cons.injEq] at hs
        exact absurd (by rw [hs.1]; exact List.mem_cons_self) hc
  | @piece p s ps hne hc hd h ih =>
    intro h2
    generalize hs : p ++ s = s' at h2
    cases h2 with
    | done => exact absurd (List.append_eq_nil_iff.1 hs).1 hne
    | sep _ =>
      cases p with
      | nil => exact absurd rfl hne
      | cons a p =>
        simp only [List.cons_append, List.cons.injEq] at hs
        exact absurd (by rw [hs.1]; exact List.mem_cons_self) hc
    | @piece p' s' ps' hne' hc' hd' h' =>
      have a := takeWhile_piece c p s hc hd
      have b := takeWhile_piece c p' s' hc' hd'
      rw [hs] at a
      have e1 : p = p' := a.1.symm.trans b.1
      have e2 : s = s' := a.2.symm.trans b.2
      subst e1; subst e2
      rw [ih h']

theorem _root_.Ulp.Text.Pieces.all {c : Byte} {s : List Byte} {ps : List (List Byte)} (h : Pieces c s ps) :
    ∀ p ∈ ps, p ≠ [] ∧ c ∉ p := by
  induction h with
  | done => intro p hp; cases hp
  | sep _ ih => exact ih
  | piece hne hc _ _ ih =>
    intro q hq
    rcases List.mem_cons.1 hq with rfl | hq
    · exact ⟨hne, hc⟩
    · exact ih q hq

theorem _root_.Ulp.Text.Pieces.drop {c : Byte} {s : List Byte} {ps : List (List Byte)} (h : Pieces c s ps) :
    Pieces c (s.dropWhile (· = c)) ps := by
  induction h with
  | done => exact .done
  | sep _ ih => simpa using ih
  | @piece p s ps hne hc hd h ih =>
    cases p with
    | nil => exact absurd rfl hne
    | cons a p =>
      have ha : a ≠ c := fun e => hc (by rw [e]; exact List.mem_cons_self)
      simp only [List.cons_append, List.dropWhile_cons, ha, decide_false]
      exact Pieces.piece hne hc hd h

/-- `parse_strstr` finds the pieces. -/
theorem parseStrstr_pieces (s : List Byte) : Pieces 44 s (parseStrstr s) := by
  generalize hn : s.length = n
  induction n using Nat.strongRecOn generalizing s with
  | _ n ih =>
    match s with
    | [] => rw [parseStrstr]; exact .done
    | a :: r =>
      rw [parseStrstr]
      have e := takeWhile_append_dropWhile' 44 (a :: r)
      have hd := dropWhile_shape 44 (a :: r)
      have hrec : Pieces 44 ((a :: r).dropWhile (· ≠ 44))
          (parseStrstr (((a :: r).dropWhile (· ≠ 44)).drop 1)) := by
        have hlt := afterComma_lt a r
        have := ih _ (by rw [hn] at hlt; exact hlt) (((a :: r).dropWhile (· ≠ 44)).drop 1) rfl
        rcases hd with h | ⟨t, h⟩
        · rw [h] at this ⊢
          exact this
        · rw [h] at this ⊢
          exact Pieces.sep this
      split
      · rename_i h
        have h0 : (a :: r).takeWhile (· ≠ 44) = [] := by simpa using h
        rw [h0, List.nil_append] at e
        rw [e] at hrec ⊢
        exact hrec
      · rename_i h
        have := Pieces.piece (by intro h0; rw [h0] at h; exact h rfl)
          (not_mem_takeWhile 44 (a :: r)) hd hrec
        rwa [e] at this

theorem joinComma_pieces : ∀ (ps : List (List Byte)), (∀ p ∈ ps, p ≠ [] ∧ 44 ∉ p) →
    Pieces 44 (joinComma ps) ps
  | [], _ => .done
  | [p], h => by
    have hp := h p (by simp)
    have := Pieces.piece hp.1 hp.2 (Or.inl rfl) (Pieces.done)
    simpa [joinComma] using this
  | p :: q :: ps, h => by
    have hp := h p (by simp)
    have ih := joinComma_pieces (q :: ps) (fun x hx => h x (by simp [hx]))
    rw [joinComma]
    exact Pieces.piece hp.1 hp.2 (Or.inr ⟨_, rfl⟩) (.sep ih)

/-! ### numerals -/

theorem digitChar_toNat (u : Bool) {d : Nat} (h : d < 16) : (digitChar u d).toNat =
    if d < 10 then 48 + d else if u then 65 + (d - 10) else 97 + (d - 10) := by
  unfold digitChar
  rw [BitVec.toNat_ofNat]
  apply Nat.mod_eq_of_lt
  split
  · omega
  · split <;> omega

theorem digitOf_digitChar (u : Bool) {d : Nat} (h : d < 16) : digitOf (digitChar u d) = some d := by
  unfold digitOf
  rw [digitChar_toNat u h]
  by_cases h1 : d < 10
  · simp only [h1, if_true]
    rw [if_pos (by omega)]
    congr 1; omega
  · simp only [h1, if_false]
    cases u
    · simp only [Bool.false_eq_true, if_false]
      rw [if_neg (by omega), if_pos (by omega)]
      congr 1; omega
    · simp only [if_true]
      rw [if_neg (by omega), if_neg (by omega), if_pos (by omega)]
      congr 1; omega

theorem _root_.Ulp.Text.Numeral.ne_nil {b : Nat} {s : List Byte} {v : Nat} (h : Numeral b s v) : s ≠ [] := by
  cases h <;> simp

theorem _root_.Ulp.Text.Numeral.chars {b : Nat} {s : List Byte} {v : Nat} (h : Numeral b s v) :
    ∀ c ∈ s, ∃ u d, d < b ∧ c = digitChar u d := by
  induction h with
  | one u hd =>
    intro c hc
    rw [List.mem_singleton.1 hc]
    exact ⟨u, _, hd, rfl⟩
  | snoc u _ hd ih =>
    intro c hc
    rcases List.mem_append.1 hc with hc | hc
    · exact ih c hc
    · rw [List.mem_singleton.1 hc]
      exact ⟨u, _, hd, rfl⟩

theorem _root_.Ulp.Text.Numeral.lt {b : Nat} {s : List Byte} {v : Nat} (h : Numeral b s v) :
    v < b ^ s.length := by
  induction h with
  | one u hd => simpa using hd
  | @snoc s v d u _ hd ih =>
    rw [List.length_append, List.length_singleton, Nat.pow_succ]
    have : (v + 1) * b ≤ b ^ s.length * b := Nat.mul_le_mul_right b ih
    rw [Nat.add_mul, Nat.one_mul] at this
    omega

/-- What may follow a numeral: the end or something that is no digit of the base. -/
def Stops (b : Nat) (t : List Byte) : Prop :=
  ∀ c r, t = c :: r → ∀ d, digitOf c = some d → ¬ d < b

theorem digits_stop {b : Nat} {t : List Byte} (h : Stops b t) (v : Nat) : digits b v t = v := by
  cases t with
  | nil => rfl
  | cons c r =>
    rw [digits]
    split
    · rfl
    · rename_i d hd
      rw [if_neg (h c r rfl d hd)]

theorem digits_eval {b : Nat} (hb : b ≤ 16) {s : List Byte} {v : Nat} (h : Numeral b s v)
    (t : List Byte) : ∀ a : Nat, digits b a (s ++ t) = digits b (a * b ^ s.length + v) t := by
  induction h generalizing t with
  | one u hd =>
    intro a
    rw [List.singleton_append, digits, digitOf_digitChar u (by omega)]
    dsimp only
    rw [if_pos hd]
    simp
  | @snoc s v d u _ hd ih =>
    intro a
    rw [List.append_assoc, ih, List.singleton_append, digits, digitOf_digitChar u (by omega)]
    dsimp only
    rw [if_pos hd, List.length_append, List.length_singleton, Nat.pow_succ]
    congr 1
    rw [Nat.add_mul, Nat.mul_assoc]
    omega

theorem digits_numeral {b : Nat} (hb : b ≤ 16) {s : List Byte} {v : Nat} (h : Numeral b s v)
    {t : List Byte} (ht : Stops b t) : digits b 0 (s ++ t) = v := by
  rw [digits_eval hb h, Nat.zero_mul, Nat.zero_add, digits_stop ht]

/-- Reading text that starts with a digit: no white space, no sign. -/
theorem strtoull_digit (b : Nat) {c : Byte} {d : Nat} (hc : digitOf c = some d) (r : List Byte) :
    strtoull b (c :: r) = clamp (digits b 0 (skip0x b (c :: r))) := by
  have hr : (48 ≤ c.toNat ∧ c.toNat ≤ 57) ∨ (97 ≤ c.toNat ∧ c.toNat ≤ 102) ∨
      (65 ≤ c.toNat ∧ c.toNat ≤ 70) := by
    unfold digitOf at hc
    split at hc
    · exact Or.inl ‹_›
    · split at hc
      · exact Or.inr (Or.inl ‹_›)
      · split at hc
        · exact Or.inr (Or.inr ‹_›)
        · cases hc
  have hs : isSpace c = false := by
    unfold isSpace
    simp only [decide_eq_false_iff_not]
    omega
  have h1 : c ≠ 45 := by
    intro h
    rw [h] at hr
    revert hr; decide
  have h2 : c ≠ 43 := by
    intro h
    rw [h] at hr
    revert hr; decide
  unfold strtoull
  rw [List.dropWhile_cons, hs]
  simp only [Bool.false_eq_true, if_false, h1, h2]

theorem skip0x_ne16 {b : Nat} (h : b ≠ 16) (s : List Byte) : skip0x b s = s := by
  unfold skip0x
  split
  · rw [if_neg (by omega)]
  · rfl

/-- `strtoull` of a numeral in base 8 or 10. -/
theorem strtoull_numeral {b : Nat} (hb : b < 16) {s : List Byte} {v : Nat} (h : Numeral b s v)
    {t : List Byte} (ht : Stops b t) : strtoull b (s ++ t) = clamp v := by
  have hne := h.ne_nil
  cases s with
  | nil => exact absurd rfl hne
  | cons c r =>
    obtain ⟨u, d, hd, hc⟩ := h.chars c (by simp)
    have hdo : digitOf c = some d := by rw [hc]; exact digitOf_digitChar u (by omega)
    rw [List.cons_append, strtoull_digit b hdo, skip0x_ne16 (by omega), ← List.cons_append,
      digits_numeral (by omega) h ht]

/-- `strtoull` of `0x` and a hexadecimal numeral. -/
theorem strtoull_hex {s : List Byte} {v : Nat} (h : Numeral 16 s v)
    {t : List Byte} (ht : Stops 16 t) : strtoull 16 (48 :: 120 :: (s ++ t)) = clamp v := by
  rw [strtoull_digit 16 (show digitOf 48 = some 0 by decide)]
  have : skip0x 16 (48 :: 120 :: (s ++ t)) = s ++ t := by
    unfold skip0x
    simp
  rw [this, digits_numeral (by omega) h ht]

/-! ### `strstr` -/

theorem hasSub_mem {c : Byte} {p : List Byte} : ∀ {s : List Byte}, hasSub (c :: p) s = true → c ∈ s
  | [], h => by simp [hasSub] at h
  | a :: s, h => by
    rw [hasSub, Bool.or_eq_true] at h
    rcases h with h | h
    · simp only [List.isPrefixOf, Bool.and_eq_true, beq_iff_eq] at h
      rw [h.1]
      exact List.mem_cons_self
    · exact List.mem_cons_of_mem _ (hasSub_mem h)

theorem hasSub_end (p : List Byte) : ∀ s : List Byte, hasSub p (s ++ p) = true
  | [] => by
    cases p with
    | nil => rfl
    | cons a p =>
      rw [List.nil_append, hasSub, Bool.or_eq_true]
      exact Or.inl (by simp)
  | a :: s => by
    rw [List.cons_append, hasSub, hasSub_end p s, Bool.or_true]

/-! ### `strbytes2mem` -/

theorem digits_append {b : Nat} {t : List Byte} (ht : Stops b t) :
    ∀ (r : List Byte) (a : Nat), digits b a (r ++ t) = digits b a r
  | [], a => by rw [List.nil_append, digits_stop ht]; rfl
  | c :: r, a => by
    rw [List.cons_append, digits, digits]
    split
    · rfl
    · split
      · exact digits_append ht r _
      · rfl

theorem digitOf_numberChar {c : Byte} {d : Nat} (h : digitOf c = some d) : NumberChar c := by
  have hc : c = BitVec.ofNat 8 c.toNat := by simp
  unfold digitOf at h
  right
  split at h
  · cases h
    refine ⟨false, c.toNat - 48, by omega, ?_⟩
    unfold digitChar
    rw [if_pos (by omega), show 48 + (c.toNat - 48) = c.toNat by omega]
    exact hc
  · split at h
    · cases h
      refine ⟨false, c.toNat - 87, by omega, ?_⟩
      unfold digitChar
      rw [if_neg (by omega), if_neg (by decide), show 97 + (c.toNat - 87 - 10) = c.toNat by omega]
      exact hc
    · split at h
      · cases h
        refine ⟨true, c.toNat - 55, by omega, ?_⟩
        unfold digitChar
        rw [if_neg (by omega), if_pos rfl, show 65 + (c.toNat - 55 - 10) = c.toNat by omega]
        exact hc
      · cases h

theorem stops_sep {sep : Byte} (hs : ¬ NumberChar sep) {s : List Byte}
    (h : s = [] ∨ ∃ t, s = sep :: t) : Stops 16 s := by
  intro c r e d hd
  rcases h with rfl | ⟨t, rfl⟩
  · cases e
  · cases e
    exact absurd (digitOf_numberChar hd) hs

/-- `strbytes2mem`'s loop seen as a walk over the pieces of the text. -/
def items (L : Nat) : List (List Byte) → List Byte → List Byte × Option Nat
  | [], w => (w, some w.length)
  | p :: ps, w =>
    if is0x p = false then (w, none)
    else if (w ++ [(strtoull 16 p).setWidth 8]).length > L then
      (w ++ [(strtoull 16 p).setWidth 8], none)
    else items L ps (w ++ [(strtoull 16 p).setWidth 8])

theorem is0x_piece {sep : Byte} (hs : ¬ NumberChar sep) {p s : List Byte} (hp : p ≠ [])
    (h : s = [] ∨ ∃ t, s = sep :: t) : is0x (p ++ s) = is0x p := by
  match p with
  | [] => exact absurd rfl hp
  | [a] =>
    rcases h with rfl | ⟨t, rfl⟩
    · rfl
    · have : ¬ sep = 120#8 := fun e => hs (Or.inl e)
      simp [is0x, this]
  | a :: b :: r => rfl

theorem is0x_shape {p : List Byte} (h : is0x p = true) : ∃ r, p = 48 :: 120 :: r := by
  match p with
  | [] => cases h
  | [a] => cases h
  | a :: b :: r =>
    simp only [is0x, Bool.and_eq_true, decide_eq_true_eq] at h
    exact ⟨r, by rw [h.1, h.2]⟩

theorem strtoull_piece {sep : Byte} (hs : ¬ NumberChar sep) {p s : List Byte} (hp : is0x p = true)
    (h : s = [] ∨ ∃ t, s = sep :: t) : strtoull 16 (p ++ s) = strtoull 16 p := by
  obtain ⟨r, rfl⟩ := is0x_shape hp
  have h0 : digitOf 48 = some 0 := by decide
  rw [List.cons_append, List.cons_append, strtoull_digit 16 h0, strtoull_digit 16 h0]
  have e : ∀ q : List Byte, skip0x 16 (48 :: 120 :: q) = q := by
    intro q
    unfold skip0x
    simp
  rw [e, e, digits_append (stops_sep hs h)]

theorem skipSep_head (sep : Byte) (s : List Byte) : ∀ t, skipSep sep s ≠ sep :: t := by
  induction s with
  | nil => intro t h; cases h
  | cons a s ih =>
    intro t h
    unfold skipSep at h ih
    rw [List.dropWhile_cons] at h
    split at h
    · exact ih t h
    · rename_i hn
      cases h
      simp at hn

theorem loop_items {sep : Byte} (hs : ¬ NumberChar sep) (L : Nat) (ps : List (List Byte)) :
    ∀ (s w : List Byte), Pieces sep s ps → (∀ t, s ≠ sep :: t) →
      strbytesLoop sep L s w = items L ps w := by
  induction ps with
  | nil =>
    intro s w h hh
    generalize hq : ([] : List (List Byte)) = qs at h
    cases h with
    | done => rw [strbytesLoop]; rfl
    | sep h => exact absurd rfl (hh _)
    | piece => cases hq
  | cons p ps ih =>
    intro s w h hh
    generalize hq : p :: ps = qs at h
    cases h with
    | done => cases hq
    | sep h => exact absurd rfl (hh _)
    | @piece p' s' ps' hne hc hd h' =>
      cases hq
      have hnext : strbytesLoop sep L (skipSep sep (toSep sep (p ++ s')))
          (w ++ [(strtoull 16 p).setWidth 8]) = items L ps (w ++ [(strtoull 16 p).setWidth 8]) := by
        have e : toSep sep (p ++ s') = s' := (takeWhile_piece sep p s' hc hd).2
        rw [e]
        exact ih _ _ h'.drop (skipSep_head sep s')
      have h0x := is0x_piece hs hne hd
      match hp : p ++ s' with
      | [] => exact absurd (List.append_eq_nil_iff.1 hp).1 hne
      | c :: r =>
        rw [strbytesLoop, ← hp, items, h0x]
        split
        · rfl
        · rename_i hx
          have hx' : is0x p = true := by simpa using hx
          dsimp only
          rw [strtoull_piece hs hx' hd]
          split
          · rfl
          · exact hnext

theorem items_written (L : Nat) : ∀ (ps : List (List Byte)) (w : List Byte), w.length ≤ L →
    (items L ps w).1.length ≤ L + 1 ∧ ∀ n, (items L ps w).2 = some n →
      n ≤ L ∧ (items L ps w).1.length = n
  | [], w, h => by
    refine ⟨by simp only [items]; omega, ?_⟩
    intro n hn
    simp only [items, Option.some.injEq] at hn ⊢
    exact ⟨by omega, hn⟩
  | p :: ps, w, h => by
    rw [items]
    split
    · exact ⟨Nat.le_succ_of_le h, nofun⟩
    · split
      · refine ⟨?_, nofun⟩
        simp only [List.length_append, List.length_singleton]
        omega
      · rename_i hl
        exact items_written L ps _ (by omega)

theorem loop_written (sep : Byte) (L : Nat) (s : List Byte) : ∀ w : List Byte, w.length ≤ L →
    (strbytesLoop sep L s w).1.length ≤ L + 1 ∧ ∀ n, (strbytesLoop sep L s w).2 = some n →
      n ≤ L ∧ (strbytesLoop sep L s w).1.length = n := by
  generalize hn : s.length = n
  induction n using Nat.strongRecOn generalizing s with
  | _ n ih =>
    intro w h
    match s with
    | [] =>
      rw [strbytesLoop]
      refine ⟨Nat.le_succ_of_le h, ?_⟩
      intro n hn
      simp only [Option.some.injEq] at hn ⊢
      exact ⟨by omega, hn⟩
    | c :: r =>
      rw [strbytesLoop]
      split
      · exact ⟨Nat.le_succ_of_le h, nofun⟩
      · dsimp only
        split
        · refine ⟨?_, nofun⟩
          simp only [List.length_append, List.length_singleton]
          omega
        · rename_i hl
          exact ih _ (by have := skip_toSep_lt sep c r; omega) _ rfl _ (by omega)

/-- The walk accepts exactly when all pieces start with `0x` and fit. -/
theorem items_accept (L : Nat) : ∀ (ps : List (List Byte)) (w : List Byte), w.length ≤ L →
    ((items L ps w).2 ≠ none ↔ (∀ p ∈ ps, is0x p = true) ∧ w.length + ps.length ≤ L) ∧
    ((items L ps w).2 ≠ none → items L ps w = (w ++ ps.map (fun p => (strtoull 16 p).setWidth 8),
      some (w.length + ps.length)))
  | [], w, h => by
    simp only [items]
    simpa using h
  | p :: ps, w, h => by
    rw [items]
    split
    · rename_i hx
      refine ⟨⟨fun h => absurd rfl h, fun h => ?_⟩, fun h => absurd rfl h⟩
      have := h.1 p (by simp)
      rw [hx] at this
      cases this
    · rename_i hx
      have hx' : is0x p = true := by simpa using hx
      split
      · rename_i hl
        refine ⟨⟨fun h => absurd rfl h, fun h => ?_⟩, fun h => absurd rfl h⟩
        have := h.2
        simp only [List.length_append, List.length_cons, List.length_nil] at this hl
        omega
      · rename_i hl
        obtain ⟨a, b⟩ := items_accept L ps (w ++ [(strtoull 16 p).setWidth 8]) (by omega)
        refine ⟨?_, ?_⟩
        · rw [a]
          simp only [List.mem_cons, forall_eq_or_imp, hx', true_and, List.length_append,
            List.length_nil, List.length_cons]
          constructor
          · rintro ⟨h1, h2⟩; exact ⟨h1, by omega⟩
          · rintro ⟨h1, h2⟩; exact ⟨h1, by omega⟩
        · intro hne
          rw [b hne]
          simp only [List.append_assoc, List.singleton_append, List.map_cons, List.length_append,
            List.length_cons, List.length_nil]
          congr 2
          omega

theorem hexByte_eval {p : List Byte} {b : Byte} (h : HexByte p b) :
    is0x p = true ∧ (strtoull 16 p).setWidth 8 = b := by
  obtain ⟨ds, v, rfl, hn, hl, rfl⟩ := h
  refine ⟨rfl, ?_⟩
  have h1 := strtoull_hex hn (t := []) (by intro c r e; cases e)
  rw [List.append_nil] at h1
  rw [h1]
  have hv : v < 256 := by
    have := hn.lt
    have h2 : 16 ^ ds.length ≤ 16 ^ 2 := Nat.pow_le_pow_right (by omega) hl
    omega
  unfold clamp
  rw [if_pos (by omega)]
  apply BitVec.eq_of_toNat_eq
  simp only [BitVec.toNat_setWidth, BitVec.toNat_ofNat]
  omega

theorem hexBytes_eval {ps : List (List Byte)} {bs : List Byte} (h : HexBytes ps bs) :
    (∀ p ∈ ps, is0x p = true) ∧ ps.map (fun p => (strtoull 16 p).setWidth 8) = bs := by
  induction h with
  | nil => exact ⟨nofun, rfl⟩
  | cons hb _ ih =>
    obtain ⟨h1, h2⟩ := hexByte_eval hb
    refine ⟨?_, by rw [List.map_cons, h2, ih.2]⟩
    intro p hp
    rcases List.mem_cons.1 hp with rfl | hp
    · exact h1
    · exact ih.1 p hp

theorem numberChar_ranges (c : Byte) : NumberChar c ↔ ((48 ≤ c.toNat ∧ c.toNat ≤ 57) ∨
    (97 ≤ c.toNat ∧ c.toNat ≤ 102) ∨ (65 ≤ c.toNat ∧ c.toNat ≤ 70) ∨ c = 120) := by
  constructor
  · rintro (h | ⟨u, d, hd, rfl⟩)
    · exact Or.inr (Or.inr (Or.inr h))
    · rw [digitChar_toNat u hd]
      by_cases h : d < 10
      · rw [if_pos h]; omega
      · rw [if_neg h]
        cases u
        · simp only [Bool.false_eq_true, if_false]; omega
        · simp only [if_true]; omega
  · intro h
    by_cases h1 : ∃ d, digitOf c = some d
    · obtain ⟨d, hd⟩ := h1
      exact digitOf_numberChar hd
    · left
      have : digitOf c = none := by
        cases hh : digitOf c with
        | none => rfl
        | some d => exact absurd ⟨d, hh⟩ h1
      unfold digitOf at this
      split at this
      · cases this
      · split at this
        · cases this
        · split at this
          · cases this
          · rcases h with h | h | h | h
            · exact absurd h ‹_›
            · exact absurd h ‹_›
            · exact absurd h ‹_›
            · exact h

theorem check_iff (sep : Byte) : ∀ s : List Byte, check sep s = true ↔
    ∀ c ∈ s, NumberChar c ∨ c = sep
  | [] => by simp [check]
  | c :: s => by
    rw [check]
    simp only [List.mem_cons, forall_eq_or_imp]
    split
    · rename_i h
      rw [check_iff sep s]
      exact ⟨fun h2 => ⟨Or.inl ((numberChar_ranges c).2 h), h2⟩, fun h2 => h2.2⟩
    · rename_i h
      split
      · rename_i h3
        rw [check_iff sep s]
        exact ⟨fun h2 => ⟨Or.inr h3, h2⟩, fun h2 => h2.2⟩
      · rename_i h3
        refine ⟨fun h => absurd h (by simp), fun h2 => ?_⟩
        rcases h2.1 with h4 | h4
        · exact absurd ((numberChar_ranges c).1 h4) h
        · exact absurd h4 h3

theorem _root_.Ulp.Text.Pieces.mem {c : Byte} {s : List Byte} {ps : List (List Byte)}
    (h : Pieces c s ps) : ∀ x ∈ s, x = c ∨ ∃ p ∈ ps, x ∈ p := by
  induction h with
  | done => intro x hx; cases hx
  | sep _ ih =>
    intro x hx
    rcases List.mem_cons.1 hx with h | h
    · exact Or.inl h
    · exact ih x h
  | piece _ _ _ _ ih =>
    intro x hx
    rcases List.mem_append.1 hx with h | h
    · exact Or.inr ⟨_, by simp, h⟩
    · rcases ih x h with h | ⟨p, hp, h⟩
      · exact Or.inl h
      · exact Or.inr ⟨p, by simp [hp], h⟩

theorem hexBytes_chars {ps : List (List Byte)} {bs : List Byte} (h : HexBytes ps bs) :
    ∀ p ∈ ps, ∀ c ∈ p, NumberChar c := by
  induction h with
  | nil => nofun
  | cons hb _ ih =>
    intro p hp c hc
    rcases List.mem_cons.1 hp with rfl | hp
    · obtain ⟨ds, v, rfl, hn, _, _⟩ := hb
      rcases List.mem_cons.1 hc with rfl | hc
      · exact Or.inr ⟨false, 0, by omega, rfl⟩
      · rcases List.mem_cons.1 hc with rfl | hc
        · exact Or.inl rfl
        · obtain ⟨u, d, hd, e⟩ := hn.chars c hc
          exact Or.inr ⟨u, d, hd, e⟩
    · exact ih p hp c hc

theorem HexBytes_length {ps : List (List Byte)} {bs : List Byte} (h : HexBytes ps bs) :
    ps.length = bs.length := by
  induction h with
  | nil => rfl
  | cons _ _ ih => simp [ih]

/-! ### `mem2strbytes` -/

/-- The text `mem2strbytes` is meant to leave in the buffer. -/
def bytesText (sep : Byte) : List Byte → List Byte
  | [] => []
  | [b] => fmt02x b
  | b :: c :: r => fmt02x b ++ sep :: bytesText sep (c :: r)

theorem hexChar_eq {n : Nat} (h : n < 16) : hexChar n = digitChar false n := by
  unfold hexChar digitChar
  split
  · rfl
  · simp only [Bool.false_eq_true, if_false]
    congr 1
    omega

theorem fmt02x_hexByte (b : Byte) : HexByte (fmt02x b) b := by
  refine ⟨[hexChar (b.toNat / 16), hexChar (b.toNat % 16)], b.toNat / 16 * 16 + b.toNat % 16, rfl,
    ?_, by simp, ?_⟩
  · rw [hexChar_eq (by have := b.isLt; omega), hexChar_eq (by omega)]
    exact Numeral.snoc (s := [digitChar false (b.toNat / 16)]) false
      (Numeral.one false (by have := b.isLt; omega)) (by omega)
  · rw [show b.toNat / 16 * 16 + b.toNat % 16 = b.toNat by omega]
    simp

theorem hexByte_chars {p : List Byte} {b : Byte} (h : HexByte p b) : p ≠ [] ∧
    ∀ c ∈ p, NumberChar c := by
  refine ⟨?_, fun c hc => hexBytes_chars (HexBytes.cons h HexBytes.nil) p (by simp) c hc⟩
  obtain ⟨ds, v, rfl, _⟩ := h
  simp

theorem bytesText_pieces {sep : Byte} (hs : ¬ NumberChar sep) : ∀ mem : List Byte,
    Pieces sep (bytesText sep mem) (mem.map fmt02x)
  | [] => .done
  | [b] => by
    have h := hexByte_chars (fmt02x_hexByte b)
    have := Pieces.piece h.1 (fun hm => hs (h.2 sep hm)) (Or.inl rfl) (Pieces.done (c := sep))
    simpa [bytesText] using this
  | b :: c :: r => by
    have h := hexByte_chars (fmt02x_hexByte b)
    rw [bytesText]
    exact Pieces.piece h.1 (fun hm => hs (h.2 sep hm)) (Or.inr ⟨_, rfl⟩)
      (.sep (bytesText_pieces hs (c :: r)))

theorem map_fmt_hexBytes : ∀ mem : List Byte, HexBytes (mem.map fmt02x) mem
  | [] => .nil
  | b :: r => .cons (fmt02x_hexByte b) (map_fmt_hexBytes r)

theorem fmt02x_length (b : Byte) : (fmt02x b).length = 4 := rfl

/-- The loop appends the text of the remaining bytes to what it wrote before. -/
theorem mem2strLoop_eq (sep : Byte) : ∀ (mem : List Byte) (i : Nat) (pre rest : List Byte),
    mem ≠ [] → pre.length = 5 * i → 5 * mem.length ≤ rest.length →
    5 * (i + mem.length - 1) ≤ 2147483647 →
    ∃ tail, mem2strLoop sep i (pre ++ rest) mem = some (pre ++ bytesText sep mem ++ 0 :: tail)
  | [], _, _, _, h, _, _, _ => absurd rfl h
  | [b], i, pre, rest, _, hp, hr, hi => by
    simp only [List.length_singleton] at hr hi
    rw [mem2strLoop, if_neg (by omega)]
    simp only [List.isEmpty_nil, if_true]
    unfold putAt
    rw [if_pos (by simp [fmt02x_length, hp]; omega)]
    refine ⟨rest.drop 5, ?_⟩
    simp only [mem2strLoop]
    rw [← hp, List.take_left, List.length_append, fmt02x_length, List.length_singleton,
      List.drop_append]
    simp [bytesText]
  | b :: c :: r, i, pre, rest, _, hp, hr, hi => by
    simp only [List.length_cons] at hr hi
    rw [mem2strLoop, if_neg (by omega)]
    simp only [List.isEmpty_cons, Bool.false_eq_true, if_false]
    unfold putAt
    rw [if_pos (by simp [fmt02x_length, hp]; omega)]
    dsimp only
    obtain ⟨tail, ht⟩ := mem2strLoop_eq sep (c :: r) (i + 1) (pre ++ (fmt02x b ++ [sep]))
      ([0] ++ rest.drop 6) (by simp) (by simp [fmt02x_length, hp]; omega)
      (by simp only [List.length_append, List.length_drop, List.length_cons, List.length_nil]; omega)
      (by simp only [List.length_cons]; omega)
    refine ⟨tail, ?_⟩
    have e : List.take (5 * i) (pre ++ rest) ++ (fmt02x b ++ [sep] ++ [0]) ++
        List.drop (5 * i + (fmt02x b ++ [sep] ++ [0]).length) (pre ++ rest) =
        pre ++ (fmt02x b ++ [sep]) ++ ([0] ++ rest.drop 6) := by
      rw [← hp, List.take_left, List.drop_append]
      simp [fmt02x]
    rw [e, ht]
    simp [bytesText]

end Ulp.Str
