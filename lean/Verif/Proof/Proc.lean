/- Lemmas about the models of reading files under `/proc/PID`. -/
import Verif.Model.Proc
import Verif.Spec.ProcFiles
import Verif.Proof.MapsFile
import Verif.Proof.Mem
namespace Ulp.Proc
open Ulp.MapsFile Ulp.ProcFiles Ulp.ProcMaps
open Ulp.MapKind (text)
open Ulp.Str (isSpace)
open Ulp.Load (lit)

theorem leNat8 (v : BitVec 64) : BitVec.ofNat 64 (leNat (leBytes 8 v)) = v := by
  rw [leNat_leBytes]
  apply BitVec.eq_of_toNat_eq
  simp
  omega

theorem auxvEntry_bytes (e : BitVec 64 × BitVec 64) : auxvEntry (leBytes 8 e.1 ++ leBytes 8 e.2) = e := by
  unfold auxvEntry
  rw [List.take_left' (by simp), List.drop_left' (by simp), List.take_of_length_le (by simp), leNat8, leNat8]

theorem auxvLoop_file (tail : List Byte) (ht : tail.length < 16) :
    ∀ (es : List (BitVec 64 × BitVec 64)) (rd : Nat → Rd) (fuel i : Nat) (e0 a),
      (∀ j, rd (i + j) = fileReads (auxvBytes es ++ tail) j) → es.length < fuel →
      auxvLoop rd fuel i e0 a = some (es.foldl auxvSet a) := by
  intro es
  induction es with
  | nil =>
    intro rd fuel i e0 a h hf
    cases fuel with
    | zero => simp at hf
    | succ fuel =>
      have h0 := h 0
      rw [Nat.add_zero] at h0
      rw [auxvLoop, h0]
      simp only [fileReads, auxvBytes, List.flatMap_nil, List.nil_append, Nat.mul_zero, List.drop_zero,
        List.foldl_nil]
      rw [if_pos (by rw [List.length_take]; omega)]
  | cons e es ih =>
    intro rd fuel i e0 a h hf
    cases fuel with
    | zero => simp at hf
    | succ fuel =>
      have h0 := h 0
      rw [Nat.add_zero] at h0
      have hl : (leBytes 8 e.1 ++ leBytes 8 e.2).length = 16 := by simp
      have e1 : auxvBytes (e :: es) ++ tail = (leBytes 8 e.1 ++ leBytes 8 e.2) ++ (auxvBytes es ++ tail) := by
        simp [auxvBytes]
      rw [auxvLoop, h0, e1]
      simp only [fileReads, Nat.mul_zero, List.drop_zero]
      rw [List.take_left' hl, if_neg (by omega), auxvEntry_bytes, List.foldl_cons]
      apply ih rd fuel (i + 1)
      · intro j
        have := h (1 + j)
        rw [← Nat.add_assoc] at this
        rw [this, e1]
        simp only [fileReads]
        congr 2
        rw [show 16 * (1 + j) = (leBytes 8 e.1 ++ leBytes 8 e.2).length + 16 * j by omega, List.drop_append,
          List.drop_of_length_le (by omega)]
        simp
      · simp only [List.length_cons] at hf; omega

/-- Reading a field of the folded result. -/
theorem fold_field (k : BitVec 64) (get : Auxv → BitVec 64)
    (hset : ∀ a e, get (auxvSet a e) = if e.1 = k then e.2 else get a) (es : List (BitVec 64 × BitVec 64)) :
    (∀ a, (∀ e ∈ es, e.1 ≠ k) → get (es.foldl auxvSet a) = get a) ∧
      (∀ a v, Last es k v → get (es.foldl auxvSet a) = v) := by
  have h1 : ∀ (es : List (BitVec 64 × BitVec 64)) a, (∀ e ∈ es, e.1 ≠ k) → get (es.foldl auxvSet a) = get a := by
    intro es
    induction es with
    | nil => intro a _; rfl
    | cons e es ih =>
      intro a h
      rw [List.foldl_cons, ih _ (fun x hx => h x (by simp [hx])), hset, if_neg (h e (by simp))]
  refine ⟨h1 es, ?_⟩
  rintro a v ⟨l, r, rfl, hr⟩
  rw [List.foldl_append, List.foldl_cons, h1 r _ hr, hset, if_pos rfl]

theorem fold_fields (es : List (BitVec 64 × BitVec 64)) (z : Auxv) :
    (∀ k get, ((k, get) = (AT_PHDR, Auxv.phdr) ∨ (k, get) = (AT_PHENT, Auxv.phent) ∨
        (k, get) = (AT_PHNUM, Auxv.phnum) ∨ (k, get) = (AT_BASE, Auxv.interp) ∨
        (k, get) = (AT_ENTRY, Auxv.entry)) →
      ((∀ e ∈ es, e.1 ≠ k) → get (es.foldl auxvSet z) = get z) ∧
        (∀ v, Last es k v → get (es.foldl auxvSet z) = v)) := by
  intro k get h
  have hset : ∀ a e, get (auxvSet a e) = if e.1 = k then e.2 else get a := by
    intro a e
    obtain ⟨t, v⟩ := e
    rcases h with h | h | h | h | h <;> cases h <;>
      simp only [auxvSet, AT_PHDR, AT_PHENT, AT_PHNUM, AT_BASE, AT_ENTRY] <;> (repeat' split) <;>
      first
        | rfl
        | (exfalso; simp_all; done)
        | simp_all
  exact ⟨(fold_field k get hset es).1 z, (fold_field k get hset es).2 z⟩

/-! ### status -/

theorem statusLoop_step {errno : Int} {f l rest : List Byte} {ts : Status} (h0 : f ≠ [])
    (h : fgets 1023 f = (l, rest)) :
    statusLoop errno f ts = match statusLine errno ts (l.takeWhile (· ≠ 0)) with
      | none => none
      | some (.error e) => some (.error e)
      | some (.ok ts) => statusLoop errno rest ts := by
  cases f with
  | nil => exact absurd rfl h0
  | cons c s => rw [statusLoop, h]; rfl

theorem statusLine_other {errno : Int} {ts : Status} {l : List Byte} (h1 : ¬ text "Uid:" <+: l)
    (h2 : ¬ text "Gid:" <+: l) : statusLine errno ts (l.takeWhile (· ≠ 0)) = some (.ok ts) := by
  have hp : (l.takeWhile (· ≠ 0)) <+: l := List.takeWhile_prefix _
  unfold statusLine
  dsimp only
  rw [if_neg, if_neg]
  · intro h
    exact h2 ((List.isPrefixOf_iff_prefix.1 h).trans hp)
  · intro h
    exact h1 ((List.isPrefixOf_iff_prefix.1 h).trans hp)

/-- A text without line feed that begins a line. -/
theorem prefix_line {k l : List Byte} (hk : (10 : Byte) ∉ k) (h : k <+: l ++ [10]) : k <+: l := by
  rcases List.prefix_concat_iff.1 h with h | h
  · exact absurd (h ▸ by simp) hk
  · exact h

/-- A line without the keys, of any length. -/
theorem statusLoop_long {errno : Int} {ts : Status} {rest : List Byte} : ∀ (n : Nat) (l : List Byte),
    l.length ≤ n → (10 : Byte) ∉ l → ¬ text "Uid:" <:+: l → ¬ text "Gid:" <:+: l →
    statusLoop errno (l ++ [10] ++ rest) ts = statusLoop errno rest ts := by
  intro n
  induction n with
  | zero =>
    intro l hl h10 hu hg
    rw [List.eq_nil_of_length_eq_zero (Nat.le_zero.1 hl)]
    rw [statusLoop_step (by simp) (fgets_line (s := []) (rest := rest) (by simp) (by simp)),
      statusLine_other (by decide) (by decide)]
  | succ n ih =>
    intro l hl h10 hu hg
    by_cases hs : l.length + 1 ≤ 1023
    · rw [statusLoop_step (by simp) (fgets_line h10 hs), statusLine_other]
      · intro h; exact hu (prefix_line (by decide) h).isInfix
      · intro h; exact hg (prefix_line (by decide) h).isInfix
    · have e : l ++ [10] ++ rest = l.take 1023 ++ (l.drop 1023 ++ [10] ++ rest) := by
        rw [← List.append_assoc, ← List.append_assoc, List.take_append_drop]
      have h10' : (10 : Byte) ∉ l.take 1023 := fun h => h10 (List.mem_of_mem_take h)
      rw [e, statusLoop_step (by simp) (fgets_long h10' (by rw [List.length_take]; omega)),
        statusLine_other (fun h => hu (h.trans (List.take_prefix _ _)).isInfix)
          (fun h => hg (h.trans (List.take_prefix _ _)).isInfix)]
      apply ih
      · rw [List.length_drop]; omega
      · exact fun h => h10 (List.mem_of_mem_drop h)
      · exact fun h => hu (h.trans (List.drop_suffix _ _).isInfix)
      · exact fun h => hg (h.trans (List.drop_suffix _ _).isInfix)

/-- A short line that does not begin with a key. -/
theorem statusLoop_short {errno : Int} {ts : Status} {rest l : List Byte} (hl : l.length ≤ 1022)
    (h10 : (10 : Byte) ∉ l) (hu : ¬ text "Uid:" <+: l) (hg : ¬ text "Gid:" <+: l) :
    statusLoop errno (l ++ [10] ++ rest) ts = statusLoop errno rest ts := by
  rw [statusLoop_step (by simp) (fgets_line h10 (by omega)), statusLine_other]
  · intro h; exact hu (prefix_line (by decide) h)
  · intro h; exact hg (prefix_line (by decide) h)

theorem statusLoop_other {errno : Int} {ts : Status} {rest : List Byte} {ls : List (List Byte)}
    (h : ∀ l ∈ ls, Other l) : statusLoop errno (lines ls ++ rest) ts = statusLoop errno rest ts := by
  induction ls with
  | nil => rfl
  | cons l ls ih =>
    have e : lines (l :: ls) ++ rest = l ++ [10] ++ (lines ls ++ rest) := by
      have : text "\n" = [10] := rfl
      simp [lines, this]
    obtain ⟨h10, h' | h'⟩ := h l (by simp)
    · rw [e, statusLoop_short h'.1 h10 h'.2.1 h'.2.2, ih (fun x hx => h x (by simp [hx]))]
    · rw [e, statusLoop_long l.length l (Nat.le_refl _) h10 h'.1 h'.2, ih (fun x hx => h x (by simp [hx]))]

/-! ### The lines with the numbers -/

theorem toLong_small {n : Nat} (h : n < 2 ^ 32) :
    (toLong (some (.num false n))).truncate 32 = BitVec.ofNat 32 n := by
  have : min (n : Int) (2 ^ 63 - 1) = (n : Int) := by omega
  simp only [toLong, Bool.false_eq_true, if_false, this]
  apply BitVec.eq_of_toNat_eq
  simp

theorem sscanf_id (k : List Byte) (hk : k ≠ []) (hks : ∀ c ∈ k, isSpace c = false) (a b c d : Nat) :
    sscanf statusFmt (k ++ text "\t" ++ decimal a ++ text "\t" ++ decimal b ++ text "\t" ++ decimal c ++
      text "\t" ++ decimal d ++ text "\n") =
      [.word k, .num false a, .num false b, .num false c, .num false d] := by
  have tab : text "\t" = [9] := rfl
  have nl : text "\n" = [10] := rfl
  rw [tab, nl]
  have num : ∀ (n : Nat) (e : Byte) (rest : List Byte) (f : List Fmt), isDig 10 e = false ∧ e ≠ 120 ∧ e ≠ 88 →
      sscanf (.space :: .num 10 :: f) (9 :: (decimal n ++ (e :: rest))) =
        .num false n :: sscanf f (e :: rest) := by
    intro n e rest f he
    obtain ⟨h1, h2, h3⟩ := decimal_ok n
    rw [sscanf, sscanf]
    have hd : (9 :: (decimal n ++ (e :: rest))).dropWhile isSpace = [] ++ (decimal n ++ (e :: rest)) := by
      rw [List.dropWhile_cons, if_pos (by decide)]
      cases hn : decimal n with
      | nil => exact absurd hn h2
      | cons c s =>
        rw [List.cons_append, List.dropWhile_cons, (isDig_ne (h1 c (by rw [hn]; simp))).1]
        rfl
    rw [hd, scanNum_ok [] (by simp) h1 h2 (stops_cons he), h3]
  have e : k ++ [9] ++ decimal a ++ [9] ++ decimal b ++ [9] ++ decimal c ++ [9] ++ decimal d ++ [10] =
      [] ++ (k ++ (9 :: (decimal a ++ (9 :: (decimal b ++ (9 :: (decimal c ++
        (9 :: (decimal d ++ (10 :: [])))))))))) := by
    simp
  rw [e, statusFmt, sscanf, scanWord_ok (by simp) hks hk (by rintro c r h; cases h; rfl)]
  dsimp only
  rw [num _ _ _ _ (by decide), num _ _ _ _ (by decide), num _ _ _ _ (by decide), num _ _ _ _ (by decide)]
  rfl

theorem idLine_plain (key : String) (hk : ∀ c ∈ text key, c ≠ 10 ∧ c ≠ 0) (hl : (text key).length ≤ 100)
    {a b c d : Nat} (ha : a < 2 ^ 32) (hb : b < 2 ^ 32) (hc : c < 2 ^ 32) (hd : d < 2 ^ 32) :
    ∃ l, idLine key a b c d = l ++ [10] ∧ (10 : Byte) ∉ l ∧ (0 : Byte) ∉ idLine key a b c d ∧
      l.length + 1 ≤ 1023 := by
  have dec : ∀ n, ∀ x ∈ decimal n, x ≠ 10 ∧ x ≠ 0 := by
    intro n x hx
    have := isDig_ne ((decimal_ok n).1 x hx)
    exact ⟨this.2.2.2.2.2.1, this.2.2.2.2.2.2⟩
  have len : ∀ n, n < 2 ^ 32 → (decimal n).length ≤ 10 := fun n h => decimal_length 9 n (by omega)
  refine ⟨text key ++ text ":\t" ++ decimal a ++ text "\t" ++ decimal b ++ text "\t" ++ decimal c ++ text "\t" ++
    decimal d, rfl, ?_, ?_, ?_⟩
  · have e1 : text ":\t" = [58, 9] := rfl
    have e2 : text "\t" = [9] := rfl
    simp only [e1, e2, List.mem_append, not_or]
    refine ⟨⟨⟨⟨⟨⟨⟨⟨fun h => (hk _ h).1 rfl, by decide⟩, ?_⟩, by decide⟩, ?_⟩, by decide⟩, ?_⟩, by decide⟩, ?_⟩ <;>
      exact fun h => (dec _ _ h).1 rfl
  · have e1 : text ":\t" = [58, 9] := rfl
    have e2 : text "\t" = [9] := rfl
    have e3 : text "\n" = [10] := rfl
    simp only [idLine, e1, e2, e3, List.mem_append, not_or]
    refine ⟨⟨⟨⟨⟨⟨⟨⟨⟨fun h => (hk _ h).2 rfl, by decide⟩, ?_⟩, by decide⟩, ?_⟩, by decide⟩, ?_⟩, by decide⟩, ?_⟩,
      by decide⟩ <;> exact fun h => (dec _ _ h).2 rfl
  · have e1 : (text ":\t").length = 2 := rfl
    have e2 : (text "\t").length = 1 := rfl
    simp only [List.length_append, e1, e2]
    have := len a ha
    have := len b hb
    have := len c hc
    have := len d hd
    omega

theorem takeWhile_all {l : List Byte} (h : (0 : Byte) ∉ l) : l.takeWhile (· ≠ 0) = l := by
  have := List.takeWhile_append_of_pos (p := fun x : Byte => decide (x ≠ 0)) (l₁ := l) (l₂ := [])
    (fun x hx => by simp only [decide_eq_true_eq]; exact fun h' => h (h' ▸ hx))
  simpa using this

theorem statusLoop_uid {errno : Int} {ts : Status} {rest : List Byte}
    {a b c d : Nat} (ha : a < 2 ^ 32) (hb : b < 2 ^ 32) (hc : c < 2 ^ 32) (hd : d < 2 ^ 32) :
    statusLoop errno (idLine "Uid" a b c d ++ rest) ts = statusLoop errno rest
      { ts with uid := BitVec.ofNat 32 a, euid := BitVec.ofNat 32 b, suid := BitVec.ofNat 32 c,
                fsuid := BitVec.ofNat 32 d } := by
  obtain ⟨l, h1, h2, h3, h4⟩ := idLine_plain "Uid" (by decide) (by decide) ha hb hc hd
  have hs : sscanf statusFmt (idLine "Uid" a b c d) = _ := sscanf_id (text "Uid:") (by decide) (by decide) a b c d
  have hf : fgets 1023 (idLine "Uid" a b c d ++ rest) = (idLine "Uid" a b c d, rest) := by
    rw [h1]; exact fgets_line h2 h4
  have hp : (lit "Uid:").isPrefixOf (idLine "Uid" a b c d) = true := by
    rw [List.isPrefixOf_iff_prefix]
    exact ⟨_, by simp only [idLine, List.append_assoc]; rfl⟩
  rw [statusLoop_step (by rw [h1]; simp) hf, takeWhile_all h3, statusLine]
  rw [hs, if_pos hp, if_neg (by show ¬ (4 > 127); decide), if_neg (by simp)]
  simp only [List.getElem?_cons_succ, List.getElem?_cons_zero, toInt, toLong_small ha, toLong_small hb, toLong_small hc, toLong_small hd]

theorem statusLoop_gid {errno : Int} {ts : Status} {rest : List Byte}
    {a b c d : Nat} (ha : a < 2 ^ 32) (hb : b < 2 ^ 32) (hc : c < 2 ^ 32) (hd : d < 2 ^ 32) :
    statusLoop errno (idLine "Gid" a b c d ++ rest) ts = statusLoop errno rest
      { ts with gid := BitVec.ofNat 32 a, egid := BitVec.ofNat 32 b, sgid := BitVec.ofNat 32 c,
                fsgid := BitVec.ofNat 32 d } := by
  obtain ⟨l, h1, h2, h3, h4⟩ := idLine_plain "Gid" (by decide) (by decide) ha hb hc hd
  have hs : sscanf statusFmt (idLine "Gid" a b c d) = _ := sscanf_id (text "Gid:") (by decide) (by decide) a b c d
  have hf : fgets 1023 (idLine "Gid" a b c d ++ rest) = (idLine "Gid" a b c d, rest) := by
    rw [h1]; exact fgets_line h2 h4
  have hp : (lit "Gid:").isPrefixOf (idLine "Gid" a b c d) = true := by
    rw [List.isPrefixOf_iff_prefix]
    exact ⟨_, by simp only [idLine, List.append_assoc]; rfl⟩
  have hp' : ¬ (lit "Uid:").isPrefixOf (idLine "Gid" a b c d) = true := by
    rw [List.isPrefixOf_iff_prefix]
    rintro ⟨x, hx⟩
    have : (lit "Uid:" ++ x).head? = (idLine "Gid" a b c d).head? := by rw [hx]
    have h' : some (85 : Byte) = some 71 := this
    exact absurd h' (by decide)
  rw [statusLoop_step (by rw [h1]; simp) hf, takeWhile_all h3, statusLine]
  rw [hs, if_neg hp', if_pos hp, if_neg (by show ¬ (4 > 127); decide), if_neg (by simp)]
  simp only [List.getElem?_cons_succ, List.getElem?_cons_zero, toInt, toLong_small ha, toLong_small hb, toLong_small hc, toLong_small hd]

end Ulp.Proc
