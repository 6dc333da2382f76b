/-
C48: which messages are printed, and how the level is chosen.
-/
import Verif.Model.Log
namespace Ulp.Log
open Ulp.Load (lit)

/-- Equal up to letter case: each pair is the same character, or the upper and
lower case form of the same letter. -/
inductive SameText : List Byte → List Byte → Prop
  | nil : SameText [] []
  | same {c s t} : SameText s t → SameText (c :: s) (c :: t)
  | up {k : Nat} {s t} : k < 26 → SameText s t →
      SameText (BitVec.ofNat 8 (65 + k) :: s) (BitVec.ofNat 8 (97 + k) :: t)
  | down {k : Nat} {s t} : k < 26 → SameText s t →
      SameText (BitVec.ofNat 8 (97 + k) :: s) (BitVec.ofNat 8 (65 + k) :: t)

/-- The documented names and the levels they stand for (`log_level_list`,
src/utils/log.c:111-114, and the usage text). -/
def levelNames : List (String × Int) :=
  [("debug", 7), ("dbg", 7), ("info", 6), ("inf", 6), ("notice", 5), ("note", 5),
   ("warning", 4), ("warn", 4), ("error", 3), ("err", 3), ("crit", 2), ("alert", 1), ("emerg", 0)]

/-- `Names s v`: `s` is, up to letter case, a documented name of the level `v`. -/
def Names (s : List Byte) (v : Int) : Prop := ∃ e ∈ levelNames, SameText s (lit e.1) ∧ e.2 = v

theorem tolower_eq_iff (c d : Byte) : tolower c = tolower d ↔
    c = d ∨ (∃ k, k < 26 ∧ c = BitVec.ofNat 8 (65 + k) ∧ d = BitVec.ofNat 8 (97 + k)) ∨
      (∃ k, k < 26 ∧ c = BitVec.ofNat 8 (97 + k) ∧ d = BitVec.ofNat 8 (65 + k)) := by
  have ht : ∀ x : Byte, (tolower x).toNat = if 65 ≤ x.toNat ∧ x.toNat ≤ 90 then x.toNat + 32 else x.toNat := by
    intro x
    rw [tolower]
    split
    · rw [BitVec.toNat_add, show (32 : Byte).toNat = 32 from rfl]; omega
    · rfl
  constructor
  · intro h
    have h := congrArg BitVec.toNat h
    rw [ht, ht] at h
    split at h
    · split at h
      · left; apply BitVec.eq_of_toNat_eq; omega
      · right; left
        refine ⟨c.toNat - 65, by omega, ?_, ?_⟩
        · apply BitVec.eq_of_toNat_eq; rw [BitVec.toNat_ofNat]; omega
        · apply BitVec.eq_of_toNat_eq; rw [BitVec.toNat_ofNat]; omega
    · split at h
      · right; right
        refine ⟨d.toNat - 65, by omega, ?_, ?_⟩
        · apply BitVec.eq_of_toNat_eq; rw [BitVec.toNat_ofNat]; omega
        · apply BitVec.eq_of_toNat_eq; rw [BitVec.toNat_ofNat]; omega
      · left; apply BitVec.eq_of_toNat_eq; omega
  · rintro (rfl | ⟨k, hk, rfl, rfl⟩ | ⟨k, hk, rfl, rfl⟩)
    · rfl
    · apply BitVec.eq_of_toNat_eq
      rw [ht, ht, BitVec.toNat_ofNat, BitVec.toNat_ofNat]; split <;> split <;> omega
    · apply BitVec.eq_of_toNat_eq
      rw [ht, ht, BitVec.toNat_ofNat, BitVec.toNat_ofNat]; split <;> split <;> omega

theorem casecmp_iff : ∀ s t : List Byte, casecmpEq s t = true ↔ SameText s t := by
  intro s
  induction s with
  | nil =>
    intro t
    cases t with
    | nil => exact ⟨fun _ => .nil, fun _ => rfl⟩
    | cons d t => exact ⟨fun h => by simp [casecmpEq] at h, fun h => by cases h⟩
  | cons c s ih =>
    intro t
    cases t with
    | nil => exact ⟨fun h => by simp [casecmpEq] at h, fun h => by cases h⟩
    | cons d t =>
      have ih := ih t
      simp only [casecmpEq, decide_eq_true_eq, List.map_cons, List.cons.injEq] at ih ⊢
      rw [ih, tolower_eq_iff]
      constructor
      · rintro ⟨rfl | ⟨k, hk, rfl, rfl⟩ | ⟨k, hk, rfl, rfl⟩, h⟩
        · exact .same h
        · exact .up hk h
        · exact .down hk h
      · intro h
        cases h with
        | same h => exact ⟨Or.inl rfl, h⟩
        | up hk h => exact ⟨Or.inr (Or.inl ⟨_, hk, rfl, rfl⟩), h⟩
        | down hk h => exact ⟨Or.inr (Or.inr ⟨_, hk, rfl, rfl⟩), h⟩

/-- The names in the order of the code. -/
theorem str2loglevel_eq (s : List Byte) :
    str2loglevel (some s) =
      match levelNames.find? (fun e => casecmpEq s (lit e.1)) with
      | some e => e.2
      | none => -22 := by
  simp only [str2loglevel, levelNames, List.find?]
  cases casecmpEq s (lit "debug") <;> cases casecmpEq s (lit "dbg") <;> try rfl
  cases casecmpEq s (lit "info") <;> cases casecmpEq s (lit "inf") <;> try rfl
  cases casecmpEq s (lit "notice") <;> cases casecmpEq s (lit "note") <;> try rfl
  cases casecmpEq s (lit "warning") <;> cases casecmpEq s (lit "warn") <;> try rfl
  cases casecmpEq s (lit "error") <;> cases casecmpEq s (lit "err") <;> try rfl
  cases casecmpEq s (lit "crit") <;> try rfl
  cases casecmpEq s (lit "alert") <;> try rfl
  cases casecmpEq s (lit "emerg") <;> rfl

theorem names_lower_distinct : ∀ e ∈ levelNames, ∀ f ∈ levelNames,
    (lit e.1).map tolower = (lit f.1).map tolower → e = f := by decide +kernel

/-- **C48** (names).  Every text in any letter case: a documented name gives its
level, and anything else is refused with an error. -/
theorem C48_names (s : List Byte) :
    (∀ v, Names s v → str2loglevel (some s) = v) ∧
    ((¬ ∃ v, Names s v) → str2loglevel (some s) = -EINVAL) ∧
    str2loglevel none = -EINVAL := by
  refine ⟨?_, ?_, rfl⟩
  · rintro v ⟨e, he, hs, rfl⟩
    rw [str2loglevel_eq]
    cases hf : levelNames.find? (fun e => casecmpEq s (lit e.1)) with
    | none =>
      have := List.find?_eq_none.1 hf e he
      exact absurd ((casecmp_iff _ _).2 hs) this
    | some f =>
      have h1 := List.find?_some hf
      have h2 := List.mem_of_find?_eq_some hf
      have h3 := (casecmp_iff _ _).2 hs
      simp only [casecmpEq, decide_eq_true_eq] at h1 h3
      rw [names_lower_distinct e he f h2 (by rw [← h3, ← h1])]
  · intro h
    rw [str2loglevel_eq]
    cases hf : levelNames.find? (fun e => casecmpEq s (lit e.1)) with
    | none => rfl
    | some f =>
      have h0 := List.find?_some hf
      have h1 := (casecmp_iff s (lit f.1)).1 h0
      exact absurd ⟨f.2, f, List.mem_of_find?_eq_some hf, h1, rfl⟩ h

example : Names (lit "WaRn") 4 := by
  refine ⟨("warn", 4), by simp [levelNames], ?_, rfl⟩
  exact .up (k := 22) (by omega) (.same (.up (k := 17) (by omega) (.same .nil)))

example : str2loglevel (some (lit "verbose")) = -EINVAL := by decide +kernel

/-- The macros `ulp_emerg` ... `ulp_debug` use these levels (src/utils/log.h:12-19). -/
def Level (l : Int) : Prop := 0 ≤ l ∧ l ≤ 7

/-- **C48** (gating).  Whatever the settings, a message of one of the eight levels is
logged without an undefined step; it appears at the end of what is written, and
only then is anything written, exactly when its level is at most the configured one. -/
theorem C48_gate (st : LogState) (l : Int) (hl : Level l) (hasPrefix : Bool)
    (time place msg : List Byte) (err : Option (List Byte)) :
    ∃ out, ulpLog st l hasPrefix time place err msg = some out ∧
      (l ≤ st.level → ∃ head, out = head ++ msg) ∧ (st.level < l → out = []) := by
  obtain ⟨h0, h7⟩ := hl
  unfold ulpLog
  by_cases hgt : l > st.level
  · rw [if_pos hgt]
    exact ⟨[], rfl, fun h => by omega, fun _ => rfl⟩
  · rw [if_neg hgt]
    by_cases hp : (hasPrefix && st.prefixOn) = true
    · rw [if_pos hp, if_neg (by omega)]
      have hlt : l.toNat < levelPrefix.length := by
        have : levelPrefix.length = 8 := rfl
        omega
      rw [List.getElem?_eq_getElem hlt, Option.bind_some]
      refine ⟨_, rfl, fun _ => ⟨_, rfl⟩, fun h => by omega⟩
    · rw [if_neg hp]
      exact ⟨msg, rfl, fun _ => ⟨[], rfl⟩, fun h => by omega⟩

/-- How each level is named in a line of the log, in five columns. -/
def tags : List (Int × String) :=
  [(0, "EMERG"), (1, "ALERT"), (2, " CRIT"), (3, "ERROR"), (4, " WARN"), (5, "NOTIC"), (6, " INFO"), (7, "DEBUG")]

/-- **C48** (lines).  A message that is shown with a prefix is one line with the time, the name
of its level, the place in the program, the text of the last error if it is an error or
worse, and the message, and a message without prefix is shown as it is. -/
theorem C48_line (st : LogState) (e : Int × String) (he : e ∈ tags) (hasPrefix : Bool) (time place msg : List Byte)
    (err : Option (List Byte)) (hl : e.1 ≤ st.level) :
    ulpLog st e.1 hasPrefix time place err msg = some
      (if hasPrefix = true ∧ st.prefixOn = true then
        time ++ lit (" [" ++ e.2 ++ "][") ++ place ++ lit "]" ++
          (match err with
            | some t => if e.1 ≤ 3 then lit "[" ++ t ++ lit "]" else []
            | none => []) ++ lit " " ++ msg
      else msg) := by
  unfold ulpLog
  rw [if_neg (by omega)]
  by_cases hp : hasPrefix = true ∧ st.prefixOn = true
  · rw [if_pos (by rw [hp.1, hp.2]; rfl), if_pos hp]
    simp only [tags, List.mem_cons, List.not_mem_nil, or_false] at he
    rcases he with rfl | rfl | rfl | rfl | rfl | rfl | rfl | rfl <;> rw [if_neg (by simp)] <;>
      cases err <;> simp [levelPrefix, lit, LOG_ERR]
  · rw [if_neg (by simpa using hp), if_neg hp]

example : ulpLog ⟨7, true⟩ 3 true (lit "T") (lit "main 7") (some (lit "No such file")) (lit "x") =
    some (lit "T [ERROR][main 7][No such file] x") := by decide +kernel

/-- **C48** (setting).  After the level is set, it is the level used; the rest of the
settings is unchanged. -/
theorem C48_set (st : LogState) (l : Int) :
    (setLogLevel st l).level = l ∧ (setLogLevel st l).prefixOn = st.prefixOn := by
  unfold setLogLevel
  split
  · exact ⟨rfl, rfl⟩
  · rename_i h
    exact ⟨by simpa using h, rfl⟩

example : ulpLog (setLogLevel logInit LOG_INFO) LOG_INFO true [] [] none (lit "hello") = some (lit "hello") ∧
    ulpLog (setLogLevel logInit LOG_INFO) LOG_DEBUG true [] [] none (lit "hello") = some [] := by
  decide +kernel

/-- A text that does not begin with a number. -/
def NoNumber (s : List Byte) : Prop :=
  ∃ c r, s = c :: r ∧ c ≠ 43 ∧ c ≠ 45 ∧ ¬ (48 ≤ c.toNat ∧ c.toNat ≤ 57) ∧ c.toNat ≠ 32 ∧
    ¬ (9 ≤ c.toNat ∧ c.toNat ≤ 13)

theorem atoi_noNumber {s : List Byte} (h : NoNumber s) : atoi s = 0 := by
  obtain ⟨c, r, rfl, h1, h2, h3, h4, h5⟩ := h
  have hs : Str.isSpace c = false := by simp [Str.isSpace, h4]; omega
  have hd : Str.digits 10 0 (c :: r) = 0 := by
    rw [Str.digits]
    cases hc : Str.digitOf c with
    | none => rfl
    | some d =>
      have hd : ¬ d < 10 := by
        unfold Str.digitOf at hc
        rw [if_neg h3] at hc
        split at hc
        · injection hc; omega
        · split at hc
          · injection hc; omega
          · exact absurd hc (by simp)
      simp only [if_neg hd]
  unfold atoi
  rw [List.dropWhile_cons_of_neg (by simp [hs])]
  dsimp only
  rw [if_neg h2, if_neg h1, hd]
  rfl

/-- **C48** (option), partial: the option takes every documented name for its level
and refuses every other text that does not begin with a number.  Missing: texts
that begin with a number (see `C48_option_zero` and `C48_option_tail`). -/
theorem C48_option_partial (s : List Byte) (hs : NoNumber s) :
    (∀ v, Names s v → optLogLevel s = some v) ∧ ((¬ ∃ v, Names s v) → optLogLevel s = none) := by
  obtain ⟨h1, h2, -⟩ := C48_names s
  unfold optLogLevel
  dsimp only
  rw [if_pos (atoi_noNumber hs)]
  constructor
  · intro v hv
    rw [h1 v hv]
    obtain ⟨e, he, -, rfl⟩ := hv
    have : ∀ e ∈ levelNames, ¬ e.2 < 0 := by decide
    rw [if_neg (this e he)]
  · intro h
    rw [h2 h]; rfl

example : NoNumber (lit "Emerg") := ⟨69, lit "merg", by decide, by decide, by decide, by decide, by decide, by decide⟩

/-- **Finding on C48**: the documented number 0 for `EMERG` is refused. -/
theorem C48_option_zero : optLogLevel (lit "0") = none := by decide +kernel

/-- **Finding on C48**: a text that merely begins with a number is accepted, and so
is a number that is not a level. -/
theorem C48_option_tail :
    optLogLevel (lit "7-errors") = some 7 ∧ optLogLevel (lit "-4") = some (-4) ∧
    (¬ ∃ v, Names (lit "7-errors") v) := by
  refine ⟨by decide +kernel, by decide +kernel, ?_⟩
  rintro ⟨v, h⟩
  have := (C48_names (lit "7-errors")).1 v h
  have e : str2loglevel (some (lit "7-errors")) = -22 := by decide +kernel
  rw [e] at this
  obtain ⟨e, he, -, rfl⟩ := h
  have h2 : ∀ e ∈ levelNames, e.2 ≠ -22 := by decide
  exact h2 e he this.symm

end Ulp.Log
