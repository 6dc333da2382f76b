/-
Lemmas about reading `/proc/PID/maps`.
-/
import Verif.Model.MapsFile
import Verif.Spec.ProcMaps
namespace Ulp.MapsFile
open Ulp.Str (isSpace digitOf digits skip0x)
open Ulp.ProcMaps
open Ulp.MapKind (text)

theorem isDig_range {b : Nat} {c : Byte} (h : isDig b c = true) :
    (48 ≤ c.toNat ∧ c.toNat ≤ 57) ∨ (97 ≤ c.toNat ∧ c.toNat ≤ 102) ∨ (65 ≤ c.toNat ∧ c.toNat ≤ 70) := by
  unfold isDig digitOf at h
  by_cases h1 : 48 ≤ c.toNat ∧ c.toNat ≤ 57
  · exact Or.inl h1
  · by_cases h2 : 97 ≤ c.toNat ∧ c.toNat ≤ 102
    · exact Or.inr (Or.inl h2)
    · by_cases h3 : 65 ≤ c.toNat ∧ c.toNat ≤ 70
      · exact Or.inr (Or.inr h3)
      · rw [if_neg h1, if_neg h2, if_neg h3] at h
        simp at h

theorem isDig_ne {b : Nat} {c : Byte} (h : isDig b c = true) :
    isSpace c = false ∧ c ≠ 45 ∧ c ≠ 43 ∧ c ≠ 120 ∧ c ≠ 88 ∧ c ≠ 10 ∧ c ≠ 0 := by
  have h := isDig_range h
  have key : ∀ k : Nat, k < 256 → c.toNat ≠ k → c ≠ BitVec.ofNat 8 k := by
    rintro k hk h rfl
    rw [BitVec.toNat_ofNat] at h
    omega
  refine ⟨?_, key 45 (by omega) (by omega), key 43 (by omega) (by omega), key 120 (by omega) (by omega),
    key 88 (by omega) (by omega), key 10 (by omega) (by omega), key 0 (by omega) (by omega)⟩
  rw [isSpace, decide_eq_false_iff_not]
  omega

/-- What ends a number. -/
def Stops (b : Nat) (s : List Byte) : Prop := ∀ c r, s = c :: r → isDig b c = false ∧ c ≠ 120 ∧ c ≠ 88

theorem scanMag_ok {b : Nat} {s rest : List Byte} (hs : ∀ c ∈ s, isDig b c = true) (h0 : s ≠ [])
    (hr : Stops b rest) : scanMag b (s ++ rest) = some (digits b 0 s, rest) := by
  have hsk : skip0x b (s ++ rest) = s ++ rest := by
    cases s with
    | nil => exact absurd rfl h0
    | cons c s =>
      cases s with
      | nil =>
        cases rest with
        | nil => rfl
        | cons d r =>
          have := (hr d r rfl).2
          show skip0x b (c :: d :: r) = _
          rw [skip0x, if_neg (fun h => h.2.2.elim this.1 this.2)]
          rfl
      | cons d s =>
        have := (isDig_ne (hs d (by simp)))
        show skip0x b (c :: d :: (s ++ rest)) = _
        rw [skip0x, if_neg (fun h => h.2.2.elim this.2.2.2.1 this.2.2.2.2.1)]
        rfl
  have ht : rest.takeWhile (isDig b) = [] ∧ rest.dropWhile (isDig b) = rest := by
    cases rest with
    | nil => exact ⟨rfl, rfl⟩
    | cons c r =>
      have := (hr c r rfl).1
      rw [List.takeWhile_cons, List.dropWhile_cons, this]
      exact ⟨rfl, rfl⟩
  rw [scanMag, hsk, List.takeWhile_append_of_pos hs, List.dropWhile_append_of_pos hs, ht.1, ht.2, List.append_nil,
    if_neg h0]

theorem scanNum_ok {b : Nat} {s rest : List Byte} (sp : List Byte) (hsp : ∀ c ∈ sp, isSpace c = true)
    (hs : ∀ c ∈ s, isDig b c = true) (h0 : s ≠ []) (hr : Stops b rest) :
    scanNum b (sp ++ (s ++ rest)) = some (.num false (digits b 0 s), rest) := by
  have hm := scanMag_ok hs h0 hr
  cases s with
  | nil => exact absurd rfl h0
  | cons c s =>
    have hc := isDig_ne (hs c (by simp))
    rw [scanNum, List.dropWhile_append_of_pos hsp, List.cons_append, List.dropWhile_cons, hc.1]
    simp only [Bool.false_eq_true, if_false]
    rw [if_neg hc.2.1, if_neg hc.2.2.1, ← List.cons_append, hm]
    rfl

theorem digits_append {b : Nat} : ∀ {s : List Byte} (v : Nat), (∀ c ∈ s, isDig b c = true) → ∀ t,
    digits b v (s ++ t) = digits b (digits b v s) t
  | [], _, _, _ => rfl
  | c :: s, v, h, t => by
    have hc := h c (by simp)
    unfold isDig at hc
    rw [List.cons_append, digits, digits]
    cases hd : digitOf c with
    | none => rw [hd] at hc; exact absurd hc (by simp)
    | some d =>
      rw [hd] at hc
      simp only [decide_eq_true_eq] at hc
      simp only [hc, if_true]
      exact digits_append _ (fun c h' => h c (by simp [h'])) t

theorem digitOf_digit {d : Nat} (h : d < 16) : digitOf (digit d) = some d := by
  have : ∀ d : Fin 16, digitOf (digit d.1) = some d.1 := by decide
  exact this ⟨d, h⟩

theorem isDig_digit {b d : Nat} (h : d < 16) (hb : d < b) : isDig b (digit d) = true := by
  rw [isDig, digitOf_digit h]
  exact decide_eq_true hb

theorem digits_digit {b d v : Nat} (h : d < 16) (hb : d < b) : digits b v [digit d] = v * b + d := by
  rw [digits, digitOf_digit h]
  simp only [hb, if_true, digits]

theorem hex_ok (n : Nat) : (∀ c ∈ hex n, isDig 16 c = true) ∧ hex n ≠ [] ∧ digits 16 0 (hex n) = n := by
  fun_induction hex n with
  | case1 n h =>
    refine ⟨?_, by simp, ?_⟩
    · intro c hc
      rw [List.mem_singleton.1 hc]
      exact isDig_digit h h
    · rw [digits_digit h h]; omega
  | case2 n h ih =>
    obtain ⟨i1, i2, i3⟩ := ih
    have hm : n % 16 < 16 := Nat.mod_lt _ (by omega)
    refine ⟨?_, by simp, ?_⟩
    · intro c hc
      rcases List.mem_append.1 hc with hc | hc
      · exact i1 c hc
      · rw [List.mem_singleton.1 hc]
        exact isDig_digit hm hm
    · rw [digits_append _ i1, i3, digits_digit hm hm]; omega

theorem decimal_ok (n : Nat) :
    (∀ c ∈ decimal n, isDig 10 c = true) ∧ decimal n ≠ [] ∧ digits 10 0 (decimal n) = n := by
  fun_induction decimal n with
  | case1 n h =>
    refine ⟨?_, by simp, ?_⟩
    · intro c hc
      rw [List.mem_singleton.1 hc]
      exact isDig_digit (by omega) h
    · rw [digits_digit (by omega) h]; omega
  | case2 n h ih =>
    obtain ⟨i1, i2, i3⟩ := ih
    have hm : n % 10 < 10 := Nat.mod_lt _ (by omega)
    refine ⟨?_, by simp, ?_⟩
    · intro c hc
      rcases List.mem_append.1 hc with hc | hc
      · exact i1 c hc
      · rw [List.mem_singleton.1 hc]
        exact isDig_digit (by omega) hm
    · rw [digits_append _ i1, i3, digits_digit (by omega) hm]; omega

theorem digits_zeros (k : Nat) : digits 16 0 (List.replicate k 48) = 0 := by
  induction k with
  | zero => rfl
  | succ k ih =>
    rw [List.replicate_succ, digits]
    exact ih

theorem zeros_ok (w n : Nat) : (∀ c ∈ zeros w (hex n), isDig 16 c = true) ∧ zeros w (hex n) ≠ [] ∧
    digits 16 0 (zeros w (hex n)) = n := by
  obtain ⟨h1, h2, h3⟩ := hex_ok n
  have hz : ∀ c ∈ List.replicate (w - (hex n).length) (48 : Byte), isDig 16 c = true := by
    intro c hc
    rw [List.eq_of_mem_replicate hc]
    decide
  refine ⟨?_, by simp [zeros, h2], ?_⟩
  · intro c hc
    rcases List.mem_append.1 hc with hc | hc
    · exact hz c hc
    · exact h1 c hc
  · rw [zeros, digits_append _ hz, digits_zeros, h3]

theorem hex_length : ∀ (k n : Nat), n < 16 ^ (k + 1) → (hex n).length ≤ k + 1 := by
  intro k
  induction k with
  | zero =>
    intro n h
    rw [hex, if_pos (by omega)]
    simp
  | succ k ih =>
    intro n h
    rw [hex]
    split
    · simp
    · have := ih (n / 16) (by rw [Nat.pow_succ] at h; omega)
      rw [List.length_append, List.length_singleton]
      omega

theorem decimal_length : ∀ (k n : Nat), n < 10 ^ (k + 1) → (decimal n).length ≤ k + 1 := by
  intro k
  induction k with
  | zero =>
    intro n h
    rw [decimal, if_pos (by omega)]
    simp
  | succ k ih =>
    intro n h
    rw [decimal]
    split
    · simp
    · have := ih (n / 10) (by rw [Nat.pow_succ] at h; omega)
      rw [List.length_append, List.length_singleton]
      omega

theorem zeros_length {w k : Nat} {s : List Byte} (h : s.length ≤ k) : (zeros w s).length ≤ max w k := by
  rw [zeros, List.length_append, List.length_replicate]
  omega

theorem scanWord_ok {sp w rest : List Byte} (hsp : ∀ c ∈ sp, isSpace c = true) (hw : ∀ c ∈ w, isSpace c = false)
    (h0 : w ≠ []) (hr : ∀ c r, rest = c :: r → isSpace c = true) :
    scanWord none (sp ++ (w ++ rest)) = some (.word w, rest) := by
  have e1 : (w ++ rest).dropWhile isSpace = w ++ rest := by
    cases w with
    | nil => exact absurd rfl h0
    | cons c w => rw [List.cons_append, List.dropWhile_cons, hw c (by simp)]; rfl
  have e2 : rest.takeWhile (fun c => !isSpace c) = [] := by
    cases rest with
    | nil => rfl
    | cons c r => rw [List.takeWhile_cons, hr c r rfl]; rfl
  unfold scanWord
  dsimp only
  rw [List.dropWhile_append_of_pos hsp, e1,
    List.takeWhile_append_of_pos (by intro c hc; rw [hw c hc]; rfl), e2, List.append_nil, if_neg h0, List.drop_left]

/-- The part of a name up to the first blank, at most 255 bytes of it. -/
def cut (name : List Byte) : List Byte := (name.takeWhile fun c => !isSpace c).take 255

theorem scanWord_name {sp name e : List Byte} (hsp : ∀ c ∈ sp, isSpace c = true)
    (h0 : ∀ c r, name = c :: r → isSpace c = false) (he : e = [] ∨ e = [10]) :
    toWord (((scanWord (some 255) (sp ++ (name ++ e))).map (·.1))) = cut name := by
  cases name with
  | nil =>
    have e : (sp ++ ([] ++ e)).dropWhile isSpace = [] := by
      rw [List.dropWhile_append_of_pos hsp]
      rcases he with rfl | rfl <;> decide
    unfold scanWord
    dsimp only
    rw [e]
    rfl
  | cons c name =>
    have hc := h0 c name rfl
    have e1 : (sp ++ ((c :: name) ++ e)).dropWhile isSpace = (c :: name) ++ e := by
      rw [List.dropWhile_append_of_pos hsp, List.cons_append, List.dropWhile_cons, hc]
      rfl
    have e2 : ∀ l : List Byte, (l ++ e).takeWhile (fun c => !isSpace c) = l.takeWhile fun c => !isSpace c := by
      intro l
      induction l with
      | nil => rcases he with rfl | rfl <;> decide
      | cons d l ih =>
        rw [List.cons_append, List.takeWhile_cons, List.takeWhile_cons, ih]
    unfold scanWord
    dsimp only
    rw [e1, e2, if_neg]
    · rfl
    · rw [List.takeWhile_cons, hc]
      simp

/-- What is read from a line of the file. -/
def recOf (m : Mapping) : Rec :=
  ⟨BitVec.ofNat 64 m.start, BitVec.ofNat 64 m.stop, m.perms, BitVec.ofNat 64 m.offset, BitVec.ofNat 32 m.major,
   BitVec.ofNat 32 m.minor, BitVec.ofNat 64 m.inode, cut m.name⟩

theorem perms_ok (m : Mapping) : m.perms.length = 4 ∧ ∀ c ∈ m.perms, isSpace c = false ∧ c ≠ 10 ∧ c ≠ 0 := by
  have : ∀ r w x s : Bool, (Mapping.perms ⟨0, 0, r, w, x, s, 0, 0, 0, 0, []⟩).length = 4 ∧
      ∀ c ∈ Mapping.perms ⟨0, 0, r, w, x, s, 0, 0, 0, 0, []⟩, isSpace c = false ∧ c ≠ 10 ∧ c ≠ 0 := by decide
  exact this m.r m.w m.x m.shared

theorem stops_cons {b : Nat} {c : Byte} {r : List Byte} (h : isDig b c = false ∧ c ≠ 120 ∧ c ≠ 88) : Stops b (c :: r) := by
  rintro c' r' e
  cases e
  exact h

theorem sscanf_line (m : Mapping) (N pad e : List Byte) (he : e = [] ∨ e = [10]) (hp : ∀ c ∈ pad, isSpace c = true)
    (hn : ∀ c r, N = c :: r → isSpace c = false) :
    ∃ v, sscanf mapsFmt (m.front ++ (pad ++ (N ++ e))) = v ∧ 7 ≤ v.length ∧
      v[0]? = some (.num false m.start) ∧ v[1]? = some (.num false m.stop) ∧ v[2]? = some (.word m.perms) ∧
      v[3]? = some (.num false m.offset) ∧ v[4]? = some (.num false m.major) ∧ v[5]? = some (.num false m.minor) ∧
      v[6]? = some (.num false m.inode) ∧ toWord v[7]? = cut N := by
  obtain ⟨a1, a2, a3⟩ := zeros_ok 8 m.start
  obtain ⟨b1, b2, b3⟩ := zeros_ok 8 m.stop
  obtain ⟨c1, c2, c3⟩ := zeros_ok 8 m.offset
  obtain ⟨d1, d2, d3⟩ := zeros_ok 2 m.major
  obtain ⟨e1, e2, e3⟩ := zeros_ok 2 m.minor
  obtain ⟨f1, f2, f3⟩ := decimal_ok m.inode
  obtain ⟨p1, p2⟩ := perms_ok m
  have p0 : m.perms ≠ [] := by intro h; rw [h] at p1; simp at p1
  have t1 : text "-" = [45] := by decide
  have t2 : text " " = [32] := by decide
  have t3 : text ":" = [58] := by decide
  have sp0 : ∀ c ∈ ([] : List Byte), isSpace c = true := by simp
  have dd : ∀ {b : Nat} {s r : List Byte}, (∀ c ∈ s, isDig b c = true) → s ≠ [] →
      (s ++ r).dropWhile isSpace = s ++ r := by
    intro b s r h h'
    cases s with
    | nil => exact absurd rfl h'
    | cons c s => rw [List.cons_append, List.dropWhile_cons, (isDig_ne (h c (by simp))).1]; rfl
  have spc : ∀ s : List Byte, (32 :: s : List Byte).dropWhile isSpace = s.dropWhile isSpace := by
    intro s; rw [List.dropWhile_cons]; rfl
  have st : ∀ b (c : Byte) r, (c = 45 ∨ c = 32 ∨ c = 58) → Stops b (c :: r) := by
    rintro b c r h
    apply stops_cons
    refine ⟨?_, ?_, ?_⟩
    · rcases h with rfl | rfl | rfl <;> rfl
    all_goals rcases h with rfl | rfl | rfl <;> decide
  generalize hA : zeros 8 (hex m.start) = A at *
  generalize hB : zeros 8 (hex m.stop) = B at *
  generalize hC : zeros 8 (hex m.offset) = C at *
  generalize hD : zeros 2 (hex m.major) = D at *
  generalize hE : zeros 2 (hex m.minor) = E at *
  generalize hF : decimal m.inode = F at *
  generalize hP : m.perms = P at *
  have hfront : m.front ++ (pad ++ (N ++ e)) =
      A ++ (45 :: (B ++ (32 :: (P ++ (32 :: (C ++ (32 :: (D ++ (58 :: (E ++ (32 :: (F ++ (32 :: (pad ++ (N ++ e)))))))))))))))
      := by
    rw [Mapping.front, hA, hB, hC, hD, hE, hF, hP, t1, t2, t3]
    simp only [List.append_assoc, List.cons_append, List.nil_append]
  refine ⟨_, rfl, ?_⟩
  rw [hfront, mapsFmt]
  have n1 : ∀ {b : Nat} {s r : List Byte}, (∀ c ∈ s, isDig b c = true) → s ≠ [] → Stops b r →
      scanNum b (s ++ r) = some (.num false (digits b 0 s), r) := fun h h' h'' => scanNum_ok [] sp0 h h' h''
  rw [sscanf, n1 a1 a2 (st _ _ _ (Or.inl rfl))]
  dsimp only
  rw [sscanf, if_pos rfl, sscanf, n1 b1 b2 (st _ _ _ (Or.inr (Or.inl rfl)))]
  dsimp only
  have pd : (P ++ 32 :: (C ++ 32 :: (D ++ 58 :: (E ++ 32 :: (F ++ 32 :: (pad ++ (N ++ e))))))).dropWhile isSpace =
      P ++ 32 :: (C ++ 32 :: (D ++ 58 :: (E ++ 32 :: (F ++ 32 :: (pad ++ (N ++ e)))))) := by
    cases P with
    | nil => exact absurd rfl p0
    | cons c s => rw [List.cons_append, List.dropWhile_cons, (p2 c (by simp)).1]; rfl
  have hsw := scanWord_ok (sp := []) (w := P) (rest := 32 :: (C ++ 32 :: (D ++ 58 :: (E ++ 32 :: (F ++ 32 ::
    (pad ++ (N ++ e))))))) sp0 (fun c hc => (p2 c hc).1) p0 (by intro c r e; cases e; decide)
  rw [List.nil_append] at hsw
  rw [sscanf, spc, pd, sscanf, hsw]
  dsimp only
  rw [sscanf, spc, dd c1 c2, sscanf, n1 c1 c2 (st _ _ _ (Or.inr (Or.inl rfl)))]
  dsimp only
  rw [sscanf, spc, dd d1 d2, sscanf, n1 d1 d2 (st _ _ _ (Or.inr (Or.inr rfl)))]
  dsimp only
  rw [sscanf, if_pos rfl, sscanf, n1 e1 e2 (st _ _ _ (Or.inr (Or.inl rfl)))]
  dsimp only
  rw [sscanf, spc, dd f1 f2, sscanf, n1 f1 f2 (st _ _ _ (Or.inr (Or.inl rfl)))]
  dsimp only
  rw [a3, b3, c3, d3, e3, f3]
  refine ⟨by simp, rfl, rfl, rfl, rfl, rfl, rfl, rfl, ?_⟩
  have hx := scanWord_name (sp := 32 :: pad) (name := N) (by
    intro c hc
    rcases List.mem_cons.1 hc with rfl | hc
    · decide
    · exact hp c hc) hn he
  have hdd : ∀ s : List Byte, scanWord (some 255) (s.dropWhile isSpace) = scanWord (some 255) s := by
    intro s
    have : (s.dropWhile isSpace).dropWhile isSpace = s.dropWhile isSpace := by
      induction s with
      | nil => rfl
      | cons c s ih =>
        rw [List.dropWhile_cons]
        split
        · exact ih
        · rw [List.dropWhile_cons, if_neg (by assumption)]
    unfold scanWord
    dsimp only
    rw [this]
  rw [sscanf, sscanf, hdd]
  rw [← hx, List.cons_append]
  cases scanWord (some 255) (32 :: (pad ++ (N ++ e))) with
  | none => rfl
  | some q => simp

theorem fgets_line {n : Nat} {s rest : List Byte} (h : (10 : Byte) ∉ s) (hn : s.length + 1 ≤ n) :
    fgets n (s ++ [10] ++ rest) = (s ++ [10], rest) := by
  induction s generalizing n with
  | nil =>
    cases n with
    | zero => simp at hn
    | succ n => rfl
  | cons c s ih =>
    cases n with
    | zero => simp at hn
    | succ n =>
      rw [List.mem_cons, not_or] at h
      rw [List.cons_append, List.cons_append, fgets, if_neg (Ne.symm h.1),
        ih h.2 (by simp only [List.length_cons] at hn; omega)]

theorem front_bytes (m : Mapping) : ∀ c ∈ m.front, c ≠ 10 ∧ c ≠ 0 := by
  have hd : ∀ {b : Nat} {s : List Byte}, (∀ c ∈ s, isDig b c = true) → ∀ c ∈ s, c ≠ 10 ∧ c ≠ 0 :=
    fun h c hc => (isDig_ne (h c hc)).2.2.2.2.2
  have t1 : text "-" = [45] := by decide
  have t2 : text " " = [32] := by decide
  have t3 : text ":" = [58] := by decide
  intro c hc
  rw [Mapping.front, t1, t2, t3] at hc
  simp only [List.mem_append, List.mem_singleton, or_assoc] at hc
  rcases hc with h | rfl | h | rfl | h | rfl | h | rfl | h | rfl | h | rfl | h | rfl
  · exact hd (zeros_ok _ _).1 c h
  · decide
  · exact hd (zeros_ok _ _).1 c h
  · decide
  · exact ((perms_ok m).2 c h).2
  · decide
  · exact hd (zeros_ok _ _).1 c h
  · decide
  · exact hd (zeros_ok _ _).1 c h
  · decide
  · exact hd (zeros_ok _ _).1 c h
  · decide
  · exact hd (decimal_ok _).1 c h
  · decide

theorem front_length {m : Mapping} (h : m.InRange) : m.front.length ≤ 95 := by
  obtain ⟨h1, h2, h3, h4, h5, h6⟩ := h
  have a := zeros_length (w := 8) (hex_length 15 m.start (by omega))
  have b := zeros_length (w := 8) (hex_length 15 m.stop (by omega))
  have c := zeros_length (w := 8) (hex_length 15 m.offset (by omega))
  have d := zeros_length (w := 2) (hex_length 7 m.major (by omega))
  have e := zeros_length (w := 2) (hex_length 7 m.minor (by omega))
  have f := decimal_length 18 m.inode (by omega)
  have p := (perms_ok m).1
  have t1 : (text "-").length = 1 := by decide
  have t2 : (text " ").length = 1 := by decide
  have t3 : (text ":").length = 1 := by decide
  rw [Mapping.front]
  simp only [List.length_append, t1, t2, t3, p]
  omega

theorem toUlong_ok {n : Nat} (h : n < 2 ^ 64) : toUlong (some (.num false n)) = BitVec.ofNat 64 n := by
  rw [toUlong, if_pos h]
  rfl

theorem parse_pre {m : Mapping} (h : m.InRange) {N pad e : List Byte} (he : e = [] ∨ e = [10])
    (hp : ∀ c ∈ pad, isSpace c = true) (hn : ∀ c r, N = c :: r → isSpace c = false) :
    parseLine (m.front ++ (pad ++ (N ++ e))) = some (some { recOf m with name := cut N }) := by
  obtain ⟨h1, h2, h3, h4, h5, h6⟩ := h
  obtain ⟨v, ev, hv, v0, v1, v2, v3, v4, v5, v6, v7⟩ := sscanf_line m N pad e he hp hn
  unfold parseLine
  dsimp only
  rw [ev, v0, v1, v2, v3, v4, v5, v6, v7, if_neg (by rw [toWord, (perms_ok m).1]; omega), if_neg (by omega),
    toUlong_ok h1, toUlong_ok h2, toUlong_ok h3, toUlong_ok (by omega), toUlong_ok (by omega)]
  have e4 : ∀ n : Nat, n < 2 ^ 32 → (BitVec.ofNat 64 n).truncate 32 = BitVec.ofNat 32 n := by
    intro n hn
    apply BitVec.eq_of_toNat_eq
    simp only [BitVec.truncate_eq_setWidth, BitVec.toNat_setWidth, BitVec.toNat_ofNat]
    omega
  have e6 : toLong (some (.num false m.inode)) = BitVec.ofNat 64 m.inode := by
    rw [toLong]
    have : min (m.inode : Int) (2 ^ 63 - 1) = (m.inode : Int) := by omega
    simp only [Bool.false_eq_true, if_false]
    rw [this, BitVec.ofInt_natCast]
  rw [e4 _ h4, e4 _ h5, e6]
  rfl

/-- The blanks before a name. -/
theorem line_eq (m : Mapping) : ∃ pad : List Byte, (∀ c ∈ pad, c = 32) ∧ pad.length ≤ 73 ∧
    (m.name ≠ [] → pad.length = 72 - m.front.length + 1) ∧ m.line = m.front ++ (pad ++ (m.name ++ [10])) := by
  by_cases h0 : m.name = []
  · exact ⟨[], by simp, by simp, fun h => absurd h0 h, by simp [Mapping.line, h0]⟩
  · refine ⟨List.replicate (72 - m.front.length) 32 ++ [32], ?_, ?_, fun _ => ?_, by simp [Mapping.line, h0]⟩
    · intro c hc
      rcases List.mem_append.1 hc with hc | hc
      · exact List.eq_of_mem_replicate hc
      · exact List.mem_singleton.1 hc
    · simp only [List.length_append, List.length_replicate, List.length_singleton]
      omega
    · simp only [List.length_append, List.length_replicate, List.length_singleton]

theorem parse_line {m : Mapping} (h : m.InRange) (hn : ∀ c r, m.name = c :: r → isSpace c = false) :
    parseLine m.line = some (some (recOf m)) := by
  obtain ⟨pad, hp, _, _, e⟩ := line_eq m
  rw [e]
  exact parse_pre h (Or.inr rfl) (fun c hc => by rw [hp c hc]; decide) hn

theorem fgets_long {n : Nat} : ∀ {s rest : List Byte}, (10 : Byte) ∉ s → s.length = n →
    fgets n (s ++ rest) = (s, rest) := by
  induction n with
  | zero => intro s rest _ h; rw [List.eq_nil_of_length_eq_zero h]; cases rest <;> rfl
  | succ n ih =>
    intro s rest h h'
    cases s with
    | nil => simp at h'
    | cons c s =>
      rw [List.mem_cons, not_or] at h
      rw [List.cons_append, fgets, if_neg (Ne.symm h.1), ih h.2 (by simpa using h')]

theorem readMaps_step {f l rest : List Byte} (h0 : f ≠ []) (h : fgets 1023 f = (l, rest)) (h1 : (0 : Byte) ∉ l)
    {r : Rec} (hp : parseLine l = some (some r)) :
    readMaps f = (readMaps rest).map fun q => (r :: q.1, q.2) := by
  cases f with
  | nil => exact absurd rfl h0
  | cons c s =>
    have ht : l.takeWhile (· ≠ 0) = l := by
      have := List.takeWhile_append_of_pos (p := fun x : Byte => decide (x ≠ 0)) (l₁ := l) (l₂ := [])
        fun c hc => decide_eq_true fun e => h1 (by rw [← e]; exact hc)
      simpa using this
    rw [readMaps, h]
    simp only
    rw [ht, hp]

end Ulp.MapsFile
