/-
C35-C38: text read from and shown to the user.
-/
import Verif.Proof.Str
namespace Ulp.Str
open Ulp.Load (lit)
open Ulp.Text

/-! ### C37 -/

/-- C37: splitting a comma list gives exactly its non-empty comma-free runs, in
order.  (`Pieces` determines the list: `C37_pieces_unique`.) -/
theorem C37_split (s : List Byte) : Pieces 44 s (parseStrstr s) := parseStrstr_pieces s

theorem C37_pieces_unique (s : List Byte) (ps : List (List Byte)) (h : Pieces 44 s ps) :
    parseStrstr s = ps := (parseStrstr_pieces s).unique h

/-- C37: every piece is non-empty and comma-free. -/
theorem C37_pieces_nonempty (s : List Byte) : ∀ p ∈ parseStrstr s, p ≠ [] ∧ 44 ∉ p :=
  (parseStrstr_pieces s).all

/-- C37: joining the pieces gives a text with the same pieces. -/
theorem C37_join (s : List Byte) : parseStrstr (joinComma (parseStrstr s)) = parseStrstr s :=
  C37_pieces_unique _ _ (joinComma_pieces _ (C37_pieces_nonempty s))

/-- Drop commas at the start and after a comma (`prev`), and at the end. -/
def squeeze (prev : Bool) : List Byte → List Byte
  | [] => []
  | c :: s =>
    if c = 44 then
      if prev = true ∨ (∀ x ∈ s, x = 44) then squeeze prev s else 44 :: squeeze true s
    else c :: squeeze false s

theorem squeeze_commas (b : Bool) : ∀ s : List Byte, (∀ x ∈ s, x = 44) → squeeze b s = []
  | [], _ => rfl
  | c :: s, h => by
    rw [squeeze, if_pos (h c (by simp)), if_pos (Or.inr fun x hx => h x (by simp [hx]))]
    exact squeeze_commas b s fun x hx => h x (by simp [hx])

theorem squeeze_piece (p : List Byte) (b : Bool) (s : List Byte) (hp : p ≠ []) (hc : 44 ∉ p) :
    squeeze b (p ++ s) = p ++ squeeze false s := by
  induction p generalizing b with
  | nil => exact absurd rfl hp
  | cons a p ih =>
    simp only [List.mem_cons, not_or] at hc
    rw [List.cons_append, squeeze, if_neg (fun e => hc.1 e.symm)]
    cases p with
    | nil => rfl
    | cons a' p => rw [ih false (by simp) hc.2]; rfl

theorem Pieces_commas {s : List Byte} {ps : List (List Byte)} (h : Pieces 44 s ps) :
    ps = [] ↔ ∀ x ∈ s, x = 44 := by
  induction h with
  | done => simp
  | sep _ ih => rw [ih]; simp
  | @piece p s ps hne hc _ _ _ =>
    constructor
    · intro h; cases h
    · intro h
      cases p with
      | nil => exact absurd rfl hne
      | cons a p => exact absurd (by rw [h a (by simp)]; exact List.mem_cons_self) hc

theorem squeeze_join {s : List Byte} {ps : List (List Byte)} (h : Pieces 44 s ps) :
    squeeze true s = joinComma ps ∧
    ∀ t, s = 44 :: t → ps ≠ [] → squeeze false s = 44 :: joinComma ps := by
  induction h with
  | done => exact ⟨rfl, nofun⟩
  | @sep s ps h ih =>
    have h1 : squeeze true (44 :: s) = joinComma ps := by
      rw [squeeze, if_pos rfl, if_pos (Or.inl rfl)]
      exact ih.1
    refine ⟨h1, ?_⟩
    intro t _ hne
    rw [squeeze, if_pos rfl, if_neg, ih.1]
    rintro (h2 | h2)
    · cases h2
    · exact hne ((Pieces_commas h).2 h2)
  | @piece p s ps hne hc hd h ih =>
    constructor
    · rw [squeeze_piece p true s hne hc]
      cases ps with
      | nil =>
        rw [squeeze_commas false s ((Pieces_commas h).1 rfl)]
        simp [joinComma]
      | cons q qs =>
        rcases hd with rfl | ⟨t, rfl⟩
        · exact absurd (h.unique Pieces.done) (by simp)
        · rw [ih.2 t rfl (by simp)]
          rfl
    · intro t e _
      cases p with
      | nil => exact absurd rfl hne
      | cons a p =>
        simp only [List.cons_append, List.cons.injEq] at e
        exact absurd (by rw [e.1]; exact List.mem_cons_self) hc

/-- C37: joining the pieces gives the text without its redundant commas. -/
theorem C37_join_text (s : List Byte) : joinComma (parseStrstr s) = squeeze true s :=
  (squeeze_join (parseStrstr_pieces s)).1.symm

example : parseStrstr (lit "a,bc,,d,,") = [lit "a", lit "bc", lit "d"] := by decide +kernel
example : parseStrstr (lit ",,x") = [lit "x"] := by decide +kernel
example : squeeze true (lit ",a,bc,,d,,") = lit "a,bc,d" := by decide +kernel

/-! ### C38 -/

theorem clamp_eq {v : Nat} (h : v < 2 ^ 64) : clamp v = BitVec.ofNat 64 v := if_pos h

theorem numeral_head {b : Nat} (hb : b ≤ 16) {s : List Byte} {v : Nat} (h : Numeral b s v)
    {c : Byte} {t : List Byte} (e : s = c :: t) : ∃ d, d < b ∧ digitOf c = some d := by
  subst e
  obtain ⟨u, d, hd, hc⟩ := h.chars c (by simp)
  exact ⟨d, hd, by rw [hc]; exact digitOf_digitChar u (by omega)⟩

theorem is0x_dec {s t : List Byte} {v : Nat} (h : Numeral 10 s v)
    (ht : ∀ c r, t = c :: r → c ≠ 120) : is0x (s ++ t) = false := by
  match s with
  | [] => exact absurd rfl h.ne_nil
  | [a] =>
    match t with
    | [] => rfl
    | c :: r =>
      have hc : ¬ c = 120#8 := ht c r rfl
      simp [is0x, hc]
  | a :: b :: r =>
    obtain ⟨u, d, hd, hc⟩ := h.chars b (by simp)
    have : ¬ b = 120#8 := by
      intro e
      have h2 := digitChar_toNat u (show d < 16 by omega)
      rw [← hc, e, if_pos hd] at h2
      have : (120#8).toNat = 120 := rfl
      omega
    simp [is0x, this]

theorem isOct_hex (r : List Byte) : is0x (48 :: 120 :: r) = true := rfl

/-- C38: a decimal address (without leading zero) is the number written; one
that does not fit 64 bits is the largest address. -/
theorem C38_addr_decimal {s : List Byte} {v : Nat} (h : Numeral 10 s v)
    (hz : s = [48] ∨ s.head? ≠ some 48) :
    (v < 2 ^ 64 → str2addr s = BitVec.ofNat 64 v) ∧
    (2 ^ 64 ≤ v → str2addr s = BitVec.allOnes 64) := by
  have h0 : is0x s = false := by
    have := is0x_dec h (t := []) (by intro c r e; cases e)
    rwa [List.append_nil] at this
  have h1 : isOct s = false := by
    rcases hz with rfl | hz
    · rfl
    · match s with
      | [] => rfl
      | [a] => rfl
      | a :: b :: r =>
        simp only [List.head?_cons, ne_eq, Option.some.injEq] at hz
        have : ¬ a = 48#8 := hz
        simp [isOct, this]
  have h2 := strtoull_numeral (by omega) h (t := []) (by intro c r e; cases e)
  rw [List.append_nil] at h2
  unfold str2addr
  rw [h0, h1]
  simp only [Bool.false_eq_true, if_false]
  rw [h2]
  exact ⟨clamp_eq, fun hv => if_neg (by omega)⟩

/-- C38: an address written as `0x` and hexadecimal digits is the number written. -/
theorem C38_addr_hex {s : List Byte} {v : Nat} (h : Numeral 16 s v) :
    (v < 2 ^ 64 → str2addr (lit "0x" ++ s) = BitVec.ofNat 64 v) ∧
    (2 ^ 64 ≤ v → str2addr (lit "0x" ++ s) = BitVec.allOnes 64) := by
  have h2 := strtoull_hex h (t := []) (by intro c r e; cases e)
  rw [List.append_nil] at h2
  have e : lit "0x" ++ s = 48 :: 120 :: s := rfl
  rw [e]
  unfold str2addr
  rw [isOct_hex, if_pos rfl, h2]
  exact ⟨clamp_eq, fun hv => if_neg (by omega)⟩

/-- C38: an address written as `0` and octal digits is the number written. -/
theorem C38_addr_octal {s : List Byte} {v : Nat} (h : Numeral 8 s v) :
    (v < 2 ^ 64 → str2addr (lit "0" ++ s) = BitVec.ofNat 64 v) ∧
    (2 ^ 64 ≤ v → str2addr (lit "0" ++ s) = BitVec.allOnes 64) := by
  have hn : Numeral 8 (48 :: s) v := by
    have : ∀ {s v}, Numeral 8 s v → Numeral 8 (48 :: s) v := by
      intro s v h
      induction h with
      | @one d u hd =>
        have := Numeral.snoc (d := d) u (Numeral.one (b := 8) (d := 0) false (by omega)) hd
        simpa [digitChar] using this
      | snoc u _ hd ih => exact Numeral.snoc u ih hd
    exact this h
  match s with
  | [] => exact absurd rfl h.ne_nil
  | c :: r =>
    obtain ⟨u, d, hd, hc⟩ := h.chars c (by simp)
    have hcn : c.toNat = 48 + d := by
      rw [hc, digitChar_toNat u (by omega), if_pos (by omega)]
    have e : lit "0" ++ c :: r = 48 :: c :: r := rfl
    rw [e]
    have h0 : is0x (48 :: c :: r) = false := by
      have : ¬ c = 120#8 := by
        intro e
        rw [e] at hcn
        have : (120#8).toNat = 120 := rfl
        omega
      simp [is0x, this]
    have h1 : isOct (48 :: c :: r) = true := by
      unfold isOct
      simp only [decide_true, Bool.true_and, Bool.and_eq_true, decide_eq_true_eq]
      omega
    have h2 := strtoull_numeral (by omega) hn (t := []) (by intro c r e; cases e)
    rw [List.append_nil] at h2
    unfold str2addr
    rw [h0, h1]
    simp only [Bool.false_eq_true, if_false, if_true]
    rw [h2]
    exact ⟨clamp_eq, fun hv => if_neg (by omega)⟩

/-- The size suffixes and their factors. -/
inductive Suffix : List Byte → Nat → Prop
  | none : Suffix [] 1
  | kb : Suffix (lit "KB") 1024
  | mb : Suffix (lit "MB") (1024 * 1024)
  | gb : Suffix (lit "GB") (1024 * 1024 * 1024)

theorem letter_not_digit {b : Nat} (hb : b ≤ 16) {s : List Byte} {v : Nat} (h : Numeral b s v)
    {c : Byte} (hc : 71 ≤ c.toNat ∧ c.toNat ≤ 77) : c ∉ s := by
  intro hm
  obtain ⟨u, d, hd, e⟩ := h.chars c hm
  have h2 := digitChar_toNat u (show d < 16 by omega)
  rw [← e] at h2
  split at h2
  · omega
  · split at h2 <;> omega

/-- What `str2size` does once the number part `n` of the text is known. -/
theorem size_scale {pre sf : List Byte} {k : Nat} (hs : Suffix sf k)
    (hg : ∀ c : Byte, 71 ≤ c.toNat ∧ c.toNat ≤ 77 → c ∉ pre) (n : BitVec 64)
    (hn : (if is0x (pre ++ sf) then strtoull 16 (pre ++ sf) else strtoull 10 (pre ++ sf)) = n) :
    str2size (pre ++ sf) = n * BitVec.ofNat 64 k := by
  have no : ∀ (c : Byte) (r : List Byte), 71 ≤ c.toNat ∧ c.toNat ≤ 77 → c ∉ sf →
      hasSub (c :: r) (pre ++ sf) = false := by
    intro c r hc hns
    cases hh : hasSub (c :: r) (pre ++ sf) with
    | false => rfl
    | true =>
      rcases List.mem_append.1 (hasSub_mem hh) with h | h
      · exact absurd h (hg c hc)
      · exact absurd h hns
  unfold str2size
  dsimp only
  rw [hn]
  cases hs with
  | none =>
    rw [show lit "GB" = 71 :: lit "B" from rfl, show lit "MB" = 77 :: lit "B" from rfl,
      show lit "KB" = 75 :: lit "B" from rfl, no 71 _ (by decide) (by simp),
      no 77 _ (by decide) (by simp), no 75 _ (by decide) (by simp)]
    simp
  | kb =>
    have e : hasSub (lit "KB") (pre ++ lit "KB") = true := hasSub_end _ _
    rw [show lit "GB" = 71 :: lit "B" from rfl, show lit "MB" = 77 :: lit "B" from rfl,
      no 71 _ (by decide) (by decide), no 77 _ (by decide) (by decide), e]
    simp only [Bool.false_eq_true, if_false, if_true]
    rfl
  | mb =>
    have e : hasSub (lit "MB") (pre ++ lit "MB") = true := hasSub_end _ _
    rw [show lit "GB" = 71 :: lit "B" from rfl, no 71 _ (by decide) (by decide), e]
    simp only [Bool.false_eq_true, if_false, if_true]
    rfl
  | gb =>
    have e : hasSub (lit "GB") (pre ++ lit "GB") = true := hasSub_end _ _
    rw [e]
    simp only [if_true]
    rfl

theorem suffix_stops {b : Nat} {sf : List Byte} {k : Nat} (hs : Suffix sf k) : Stops b sf := by
  intro c r e d hd
  cases hs with
  | none => cases e
  | kb =>
    cases e
    have h1 : digitOf 75 = some d := hd
    rw [show digitOf 75 = none by decide] at h1
    cases h1
  | mb =>
    cases e
    have h1 : digitOf 77 = some d := hd
    rw [show digitOf 77 = none by decide] at h1
    cases h1
  | gb =>
    cases e
    have h1 : digitOf 71 = some d := hd
    rw [show digitOf 71 = none by decide] at h1
    cases h1

/-- C38: a decimal size with an optional KB, MB or GB denotes the number written
times the factor, modulo 2^64. -/
theorem C38_size_decimal {s sf : List Byte} {v k : Nat} (h : Numeral 10 s v) (hs : Suffix sf k)
    (hv : v < 2 ^ 64) : str2size (s ++ sf) = BitVec.ofNat 64 (v * k) := by
  have h0 : is0x (s ++ sf) = false := is0x_dec h (by
    intro c r e
    cases hs <;> cases e <;> decide)
  rw [size_scale hs (fun c hc => letter_not_digit (by omega) h hc) (BitVec.ofNat 64 v)]
  · rw [BitVec.ofNat_mul]
  · rw [h0]
    simp only [Bool.false_eq_true, if_false]
    rw [strtoull_numeral (by omega) h (suffix_stops hs), clamp_eq hv]

/-- C38: the same for a size written as `0x` and hexadecimal digits. -/
theorem C38_size_hex {s sf : List Byte} {v k : Nat} (h : Numeral 16 s v) (hs : Suffix sf k)
    (hv : v < 2 ^ 64) : str2size (lit "0x" ++ s ++ sf) = BitVec.ofNat 64 (v * k) := by
  have e : lit "0x" ++ s ++ sf = 48 :: 120 :: (s ++ sf) := rfl
  rw [size_scale hs ?_ (BitVec.ofNat 64 v)]
  · rw [BitVec.ofNat_mul]
  · rw [e, isOct_hex, if_pos rfl, strtoull_hex h (suffix_stops hs), clamp_eq hv]
  · intro c hc hm
    rcases List.mem_append.1 hm with hm | hm
    · have : c = 48 ∨ c = 120 := by simpa [lit] using hm
      rcases this with rfl | rfl <;> revert hc <;> decide
    · exact letter_not_digit (by omega) h hc hm

/-- C38, other texts: a decimal number with a minus sign is not refused but taken as the
address that many bytes below the end of the address space, or, if it does not fit 64 bits, as
the largest. -/
theorem C38_addr_minus {s : List Byte} {v : Nat} (h : Numeral 10 s v) :
    (v < 2 ^ 64 → (str2addr (45 :: s)).toNat = (2 ^ 64 - v) % 2 ^ 64) ∧
    (2 ^ 64 ≤ v → str2addr (45 :: s) = BitVec.allOnes 64) := by
  have h0 : is0x (45 :: s) = false := by cases s <;> rfl
  have h1 : isOct (45 :: s) = false := by cases s <;> rfl
  have h2 := digits_numeral (by omega) h (t := []) (by intro c r e; cases e)
  rw [List.append_nil] at h2
  have e : str2addr (45 :: s) = if v < 2 ^ 64 then - BitVec.ofNat 64 v else BitVec.allOnes 64 := by
    unfold str2addr
    rw [h0, h1]
    simp only [Bool.false_eq_true, if_false]
    show (let w := digits 10 0 (skip0x 10 s); if w < 2 ^ 64 then - BitVec.ofNat 64 w else BitVec.allOnes 64) = _
    rw [skip0x_ne16 (by omega), h2]
  rw [e]
  constructor
  · intro hv
    rw [if_pos hv, BitVec.toNat_neg, BitVec.toNat_ofNat, Nat.mod_eq_of_lt hv]
  · intro hv
    rw [if_neg (by omega)]

/-- C38, other texts: a text that does not begin with a digit, white space or a sign is not
refused but taken as 0, as an address and as a size. -/
theorem C38_no_number {c : Byte} {s : List Byte} (h1 : c ∉ lit "0123456789") (h2 : c ∉ [9, 10, 11, 12, 13, 32])
    (h3 : c ∉ lit "+-") : str2addr (c :: s) = 0 ∧ str2size (c :: s) = 0 := by
  have hc : ∀ c : Byte, c ∉ lit "0123456789" → c ∉ ([9, 10, 11, 12, 13, 32] : List Byte) → isSpace c = false ∧ c ≠ 48 ∧
      (∀ d, digitOf c = some d → ¬ d < 10) := by
    have : ∀ c : Byte, c ∉ lit "0123456789" → c ∉ ([9, 10, 11, 12, 13, 32] : List Byte) → isSpace c = false ∧ c ≠ 48 ∧
        (digitOf c).all (fun d => !decide (d < 10)) = true := by decide +kernel
    intro c a b
    obtain ⟨x, y, z⟩ := this c a b
    refine ⟨x, y, fun d hd => ?_⟩
    rw [hd] at z
    simpa using z
  obtain ⟨hs, h48, hd⟩ := hc c h1 h2
  have h48 : ¬ c = 48#8 := h48
  have h43 : c ≠ 43 := fun e => h3 (by rw [e]; decide)
  have h45 : c ≠ 45 := fun e => h3 (by rw [e]; decide)
  have h0 : is0x (c :: s) = false := by cases s <;> simp [is0x, h48]
  have ho : isOct (c :: s) = false := by cases s <;> simp [isOct, h48]
  have hz : strtoull 10 (c :: s) = 0 := by
    unfold strtoull
    rw [List.dropWhile_cons_of_neg (by rw [hs]; decide)]
    dsimp only
    rw [if_neg h45, if_neg h43, skip0x_ne16 (by omega), digits_stop]
    · decide
    · intro c' r' e d hd'
      cases e
      exact hd d hd'
  unfold str2addr str2size
  rw [h0, ho]
  simp only [Bool.false_eq_true, if_false, hz]
  refine ⟨trivial, ?_⟩
  split
  · exact BitVec.zero_mul
  split
  · exact BitVec.zero_mul
  split
  · exact BitVec.zero_mul
  rfl

example : Numeral 10 (lit "4096") 4096 ∧ (str2addr (lit "-4096")).toNat = 2 ^ 64 - 4096 :=
  have h : Numeral 10 (lit "4096") 4096 := .snoc (d := 6) false (.snoc (d := 9) false (.snoc (d := 0) false
    (.one (d := 4) false (by omega)) (by omega)) (by omega)) (by omega)
  ⟨h, by rw [show lit "-4096" = 45 :: lit "4096" from rfl, (C38_addr_minus h).1 (by omega)]⟩

example : str2addr (lit "main") = 0 ∧ str2size (lit "GB") = 0 :=
  ⟨(C38_no_number (by decide) (by decide) (by decide)).1,
    (C38_no_number (by decide) (by decide) (by decide)).2⟩

/-- C38: the verbosity is the number of `v`s. -/
theorem C38_verbose (s : List Byte) : str2verbose s = s.count 118 := by
  induction s with
  | nil => rfl
  | cons c s ih =>
    rw [str2verbose, ih, List.count_cons]
    by_cases h : c = 118
    · subst h; simp; omega
    · have : (c == 118) = false := by simpa using h
      rw [this, if_neg h]; simp

example : Numeral 10 (lit "42") 42 :=
  Numeral.snoc (s := [digitChar false 4]) (v := 4) (d := 2) false (Numeral.one false (by omega))
    (by omega)
example : Numeral 16 (lit "fF") 255 :=
  Numeral.snoc (s := [digitChar false 15]) (v := 15) (d := 15) true (Numeral.one false (by omega))
    (by omega)
example : str2addr (lit "0x7fF0") = 0x7ff0 := by decide +kernel
example : str2addr (lit "0755") = 493 := by decide +kernel
example : str2size (lit "12KB") = 12288 := by decide +kernel
example : str2size (lit "0x10MB") = 0x1000000 := by decide +kernel
example : str2addr (lit "18446744073709551616") = BitVec.allOnes 64 := by decide +kernel

/-! ### C35 -/

/-- C35: a text that lists bytes is read as those bytes, if they fit the buffer,
whatever separator (other than a hexadecimal digit or `x`; 0 stands for the
comma) is used and however often it is repeated. -/
theorem C35_reads_bytes {sep : Byte} (h0 : sep ≠ 0) (hs : ¬ NumberChar sep) {s bs : List Byte}
    (h : ByteText sep s bs) {L : Nat} (hL : 1 ≤ L) (hfit : bs.length ≤ L) :
    strbytes2mem s L sep = (bs, some bs.length) := by
  obtain ⟨ps, hp, hb⟩ := h
  obtain ⟨e1, e2⟩ := hexBytes_eval hb
  have hck : check sep s = true := (check_iff sep s).2 fun c hc => by
    rcases hp.mem c hc with h | ⟨p, hpm, h⟩
    · exact Or.inr h
    · exact Or.inl (hexBytes_chars hb p hpm c h)
  have hlen := HexBytes_length hb
  obtain ⟨a, b⟩ := items_accept L ps [] (by simp)
  have hacc := a.2 ⟨e1, by simp only [List.length_nil]; omega⟩
  unfold strbytes2mem
  dsimp only
  rw [if_pos h0, if_neg (by omega), hck]
  simp only [Bool.true_eq_false, if_false]
  have hd : Pieces sep (skipSep sep s) ps := hp.drop
  rw [loop_items hs L ps _ _ hd (skipSep_head sep s), b hacc, e2]
  simp [hlen]

theorem putAt_length {b : List Byte} {o : Nat} {x b' : List Byte} (h : putAt b o x = some b') :
    b'.length = b.length := by
  unfold putAt at h
  split at h
  · cases h
    simp only [List.length_append, List.length_take, List.length_drop]
    omega
  · cases h

/-- C35: writing bytes as text fills the buffer with a text that lists exactly
those bytes, without storing outside the buffer.  (The index arithmetic is in
`int`, so beyond 429496730 bytes the behaviour is undefined.) -/
theorem C35_writes_text {sep : Byte} (h0 : sep ≠ 0) (hs : ¬ NumberChar sep) {mem buf : List Byte}
    (hm : mem ≠ []) (hb : 5 * mem.length ≤ buf.length) (hi : mem.length ≤ 429496730) :
    ∃ out, mem2strbytes mem buf sep = some (some out) ∧ out.length = buf.length ∧
      ByteText sep (cstr out) mem := by
  have hl : 1 ≤ mem.length := List.length_pos_iff.2 hm
  unfold mem2strbytes
  rw [if_neg (by omega), if_neg (by omega)]
  unfold putAt
  rw [if_pos (by simp; omega)]
  dsimp only
  obtain ⟨tail, ht⟩ := mem2strLoop_eq sep mem 0 [] ([0] ++ buf.drop 1) hm rfl
    (by simp only [List.length_append, List.length_singleton, List.length_drop]; omega) (by omega)
  have e : List.take 0 buf ++ [0] ++ List.drop (0 + ([0] : List Byte).length) buf =
      [] ++ ([0] ++ buf.drop 1) := by simp
  rw [e, ht]
  refine ⟨_, rfl, ?_, ?_⟩
  · have hlen : ∀ (mem : List Byte) (i : Nat) (b b' : List Byte),
        mem2strLoop sep i b mem = some b' → b'.length = b.length := by
      intro mem
      induction mem with
      | nil =>
        intro i b b' h
        simp only [mem2strLoop, Option.some.injEq] at h
        rw [h]
      | cons x r ih =>
        intro i b b' h
        simp only [mem2strLoop] at h
        split at h
        · cases h
        · split at h
          · cases h
          · rename_i b2 hp
            rw [ih _ _ _ h]
            exact putAt_length hp
    have := hlen _ _ _ _ ht
    rw [this]
    simp only [List.nil_append, List.length_append, List.length_singleton, List.length_drop]
    omega
  · have hz : ∀ c ∈ bytesText sep mem, c ≠ 0 := by
      intro c hc he
      rcases (bytesText_pieces hs mem).mem c hc with h | ⟨p, hp, h⟩
      · exact h0 (h.symm.trans he)
      · have := hexBytes_chars (map_fmt_hexBytes mem) p hp c h
        rw [numberChar_ranges, he] at this
        revert this; decide
    have hcs : cstr (([] : List Byte) ++ bytesText sep mem ++ 0 :: tail) = bytesText sep mem := by
      unfold cstr
      rw [List.nil_append]
      generalize bytesText sep mem = t at hz
      induction t with
      | nil => simp
      | cons a t ih =>
        have ha : a ≠ 0 := hz a (by simp)
        rw [List.cons_append, List.takeWhile_cons]
        simp only [ha, ne_eq, not_false_eq_true, decide_true, if_true]
        exact congrArg (a :: ·) (ih fun c hc => hz c (by simp [hc]))
    rw [hcs]
    exact ⟨_, bytesText_pieces hs mem, map_fmt_hexBytes mem⟩

/-- C35: no bytes, or a buffer without five bytes of room for each, are refused; then
nothing is stored. -/
theorem C35_refused (mem buf : List Byte) (sep : Byte) :
    mem2strbytes mem buf sep = some none ↔ mem = [] ∨ buf.length < 5 * mem.length := by
  unfold mem2strbytes
  cases mem with
  | nil => simp
  | cons b mem =>
    simp only [List.length_cons, reduceCtorEq, false_or]
    by_cases h : buf.length < 5 * (mem.length + 1)
    · rw [if_pos h]
      split <;> simp [h]
    · rw [if_neg (by omega), if_neg h]
      constructor
      · intro hh
        split at hh
        · cases hh
        · rw [Option.map_eq_some_iff] at hh
          obtain ⟨a, _, ha⟩ := hh
          cases ha
      · intro hh
        exact absurd hh h

example : mem2strbytes [0x12, 0xab] (List.replicate 9 7) 44 = some none := by decide

/-- C35: bytes written as text and read back are the same bytes. -/
theorem C35_round_trip {sep : Byte} (h0 : sep ≠ 0) (hs : ¬ NumberChar sep) {mem buf : List Byte}
    (hm : mem ≠ []) (hb : 5 * mem.length ≤ buf.length) (hi : mem.length ≤ 429496730) :
    ∃ out, mem2strbytes mem buf sep = some (some out) ∧
      ∀ L, mem.length ≤ L → strbytes2mem (cstr out) L sep = (mem, some mem.length) := by
  obtain ⟨out, h1, _, h3⟩ := C35_writes_text h0 hs hm hb hi
  refine ⟨out, h1, fun L hL => C35_reads_bytes h0 hs h3 ?_ hL⟩
  have := List.length_pos_iff.2 hm
  omega

/-- C35, which texts are accepted: exactly those made of number characters and
separators whose pieces all start with `0x` and are not too many.  Full
statement: also, every accepted piece is `0x` with one or two digits.  That part
is false, see `C35_malformed_accepted`. -/
theorem C35_rejects_partial {sep : Byte} (h0 : sep ≠ 0) (hs : ¬ NumberChar sep) (s : List Byte)
    (L : Nat) : (strbytes2mem s L sep).2 ≠ none ↔
      1 ≤ L ∧ (∀ c ∈ s, NumberChar c ∨ c = sep) ∧
      ∃ ps, Pieces sep s ps ∧ ps.length ≤ L ∧ ∀ p ∈ ps, ∃ r, p = 48 :: 120 :: r := by
  obtain ⟨ps, hp⟩ := Pieces.exists sep s
  obtain ⟨a, _⟩ := items_accept L ps [] (by simp)
  have hd : Pieces sep (skipSep sep s) ps := hp.drop
  unfold strbytes2mem
  dsimp only
  rw [if_pos h0]
  split
  · refine ⟨fun h => absurd rfl h, fun h => ?_⟩
    have := h.1
    omega
  · split
    · rename_i hc
      refine ⟨fun h => absurd rfl h, fun h => ?_⟩
      have := (check_iff sep s).2 h.2.1
      rw [hc] at this
      cases this
    · rename_i hL hc
      rw [loop_items hs L ps _ _ hd (skipSep_head sep s), a]
      constructor
      · rintro ⟨h1, h2⟩
        refine ⟨by omega, (check_iff sep s).1 (by simpa using hc), ps, hp, by simpa using h2, ?_⟩
        intro p hpm
        exact is0x_shape (h1 p hpm)
      · rintro ⟨_, _, ps', hp', hl, h⟩
        have := hp.unique hp'
        subst this
        refine ⟨fun p hpm => ?_, by simpa using hl⟩
        obtain ⟨r, rfl⟩ := h p hpm
        rfl

/-- C35 is violated: a piece with too many digits, with no digit at all, or with
an `x` inside is accepted, as the byte 0x34, 0 and 1. -/
theorem C35_malformed_accepted :
    strbytes2mem (lit "0x1234") 8 44 = ([0x34], some 1) ∧
    strbytes2mem (lit "0x") 8 44 = ([0], some 1) ∧
    strbytes2mem (lit "0x1xx2") 8 44 = ([1], some 1) := by
  decide +kernel

example : ¬ NumberChar 44 := by rw [numberChar_ranges]; decide
example : ¬ NumberChar 58 := by rw [numberChar_ranges]; decide
example : strbytes2mem (lit ",0xff,,0x25,0x0,") 8 0 = ([0xff, 0x25, 0], some 3) := by
  decide +kernel
example : (mem2strbytes [0x12, 0xab] (List.replicate 12 7) 44).map (·.map cstr) =
    some (some (lit "0x12,0xab")) := by decide +kernel
example : strbytes2mem (lit "12,0x3") 8 44 = ([], none) := by decide +kernel
example : (strbytes2mem (lit "0x1,g") 8 44).2 = none := by decide +kernel

/-! ### C36 -/

/-- C36, what holds: whatever the text, the separator and the buffer size, at
most one byte past the buffer is written, and when the text is accepted the
stores are inside the buffer.  Full statement: never a byte past the buffer. -/
theorem C36_stores_partial (s : List Byte) (L : Nat) (seperator : Byte) :
    (strbytes2mem s L seperator).1.length ≤ L + 1 ∧
    ∀ n, (strbytes2mem s L seperator).2 = some n →
      n ≤ L ∧ (strbytes2mem s L seperator).1.length = n := by
  unfold strbytes2mem
  dsimp only
  generalize (if seperator ≠ 0 then seperator else 44) = sep
  split
  · exact ⟨by simp, nofun⟩
  · split
    · exact ⟨by simp, nofun⟩
    · exact loop_written _ L _ [] (by simp)

/-- C36 is violated: a text listing more bytes than the buffer holds is
rejected only after a byte was written just past the buffer, for every buffer
size. -/
theorem C36_writes_past_buffer {sep : Byte} (h0 : sep ≠ 0) (hs : ¬ NumberChar sep)
    {s bs : List Byte} (h : ByteText sep s bs) {L : Nat} (hL : 1 ≤ L) (hlong : L < bs.length) :
    (strbytes2mem s L sep).2 = none ∧ (strbytes2mem s L sep).1 = bs.take (L + 1) := by
  obtain ⟨ps, hp, hb⟩ := h
  obtain ⟨e1, e2⟩ := hexBytes_eval hb
  have hck : check sep s = true := (check_iff sep s).2 fun c hc => by
    rcases hp.mem c hc with h | ⟨p, hpm, h⟩
    · exact Or.inr h
    · exact Or.inl (hexBytes_chars hb p hpm c h)
  have hlen := HexBytes_length hb
  have key : ∀ (ps : List (List Byte)) (w : List Byte), w.length ≤ L → L < w.length + ps.length →
      (∀ p ∈ ps, is0x p = true) → items L ps w =
        ((w ++ ps.map (fun p => (strtoull 16 p).setWidth 8)).take (L + 1), none) := by
    intro ps
    induction ps with
    | nil =>
      intro w h1 h2
      simp only [List.length_nil] at h2
      omega
    | cons p ps ih =>
      intro w h1 h2 h3
      rw [items, if_neg (by rw [h3 p (by simp)]; simp)]
      have hl : (w ++ [(strtoull 16 p).setWidth 8]).length = w.length + 1 := by simp
      split
      · rename_i hgt
        have ht : (w ++ ((strtoull 16 p).setWidth 8 ::
            ps.map (fun p => (strtoull 16 p).setWidth 8))).take (L + 1) =
            w ++ [(strtoull 16 p).setWidth 8] := by
          rw [List.append_cons, List.take_append_of_le_length (by omega),
            List.take_of_length_le (by omega)]
        rw [List.map_cons, ht]
      · rename_i hgt
        simp only [List.length_cons] at h2
        rw [ih _ (by omega) (by omega) (fun q hq => h3 q (by simp [hq]))]
        simp
  unfold strbytes2mem
  dsimp only
  rw [if_pos h0, if_neg (by omega), hck]
  simp only [Bool.true_eq_false, if_false]
  have hd : Pieces sep (skipSep sep s) ps := hp.drop
  rw [loop_items hs L ps _ _ hd (skipSep_head sep s), key ps [] (by simp) (by simp; omega) e1, e2]
  exact ⟨rfl, rfl⟩

example : strbytes2mem (lit "0x1,0x2,0x3") 2 44 = ([1, 2, 3], none) := by decide +kernel

end Ulp.Str
