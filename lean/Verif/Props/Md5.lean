/-
C125: the digest of a file.
-/
import Verif.Model.Md5
namespace Ulp.Md5

/-- What OpenSSL promises: the result depends only on the bytes fed, however they are cut into
pieces, and is the digest of them. -/
def Computes {S : Type} (evp : Evp S) (digest : List Byte → List Byte) : Prop :=
  ∀ pieces : List (List Byte), evp.final (pieces.foldl evp.update evp.init) = digest pieces.flatten

theorem fread_split (f : Input) (pos : Nat) :
    (f.data.take f.stop).drop pos = fread f pos ++ (f.data.take f.stop).drop (pos + (fread f pos).length) := by
  unfold fread
  generalize (f.data.take f.stop) = l
  rw [← List.drop_drop]
  generalize l.drop pos = m
  rw [List.length_take]
  by_cases h : m.length ≤ 1024
  · rw [Nat.min_eq_right h, List.take_of_length_le h, List.drop_length, List.append_nil]
  · rw [Nat.min_eq_left (by omega), List.take_append_drop]

theorem feed_ok {S : Type} (evp : Evp S) (ok : Nat → Bool) (f : Input) (k pos : Nat) (s r : S)
    (h : feed evp ok f k pos s = some r) :
    ∃ pieces : List (List Byte), r = pieces.foldl evp.update s ∧ pieces.flatten = (f.data.take f.stop).drop pos ∧
      (∀ p ∈ pieces, p ≠ [] ∧ p.length ≤ 1024) ∧ ∀ i < pieces.length, ok (k + i) = true := by
  fun_induction feed evp ok f k pos s with
  | case1 k pos s e =>
    cases h
    refine ⟨[], rfl, ?_, by simp, by simp⟩
    rw [fread_split, e]
    simp only [fread] at e
    rw [List.take_eq_nil_iff] at e
    simpa using e
  | case2 k pos s c r' e hok ih =>
    obtain ⟨ps, h1, h2, h3, h4⟩ := ih h
    refine ⟨(c :: r') :: ps, h1, ?_, ?_, ?_⟩
    · rw [List.flatten_cons, h2, fread_split f pos, e]
    · intro p hp
      rcases List.mem_cons.1 hp with rfl | hp
      · refine ⟨by simp, ?_⟩
        rw [← e]
        unfold fread
        rw [List.length_take]
        omega
      · exact h3 p hp
    · intro i hi
      cases i with
      | zero => exact hok
      | succ i =>
        have := h4 i (by simp at hi; omega)
        rwa [show k + (i + 1) = k + 1 + i by omega]
  | case3 k pos s c r' e hok => cases h

theorem feed_total {S : Type} (evp : Evp S) (ok : Nat → Bool) (hok : ∀ k, ok k = true) (f : Input) (k pos : Nat)
    (s : S) : ∃ r, feed evp ok f k pos s = some r := by
  fun_induction feed evp ok f k pos s with
  | case1 k pos s e => exact ⟨s, rfl⟩
  | case2 k pos s c r' e h ih => exact ih
  | case3 k pos s c r' e h => exact absurd (hok k) h

/-- Reading the file to its end works. -/
def Readable (f : Input) : Prop := ∀ b, f.bad = some b → f.data.length < b

theorem stop_readable {f : Input} (h : Readable f) : f.data.take f.stop = f.data := by
  unfold Input.stop
  cases e : f.bad with
  | none => simp
  | some b =>
    have := h b e
    dsimp only
    rw [Nat.min_eq_right (by omega), List.take_length]

theorem ferror_iff (f : Input) : ferror f = false ↔ Readable f := by
  unfold ferror Readable
  cases f.bad with
  | none => simp
  | some b => simp

/-- C125: 0 is returned only if the file was opened and read to its end; then the result is the
digest of all its bytes.  Otherwise a negative number is returned for every error number above
0, and the result is not written. -/
theorem C125_digest {S : Type} {evp : Evp S} {digest : List Byte → List Byte} (hd : Computes evp digest)
    (ans : Answers) (file : Except Nat Input) (he : ∀ e, file = .error e → 0 < e) :
    (∃ f, file = .ok f ∧ Readable f ∧ (fmd5sum evp ans file).1 = 0 ∧
      (fmd5sum evp ans file).2.1 = some (digest f.data)) ∨
    ((fmd5sum evp ans file).1 < 0 ∧ (fmd5sum evp ans file).2.1 = none) := by
  unfold fmd5sum
  cases file with
  | error e =>
    right
    have := he e rfl
    exact ⟨by dsimp only; omega, rfl⟩
  | ok f =>
    dsimp only
    by_cases h1 : ans.new = false
    · rw [if_pos h1]
      exact .inr ⟨by decide, rfl⟩
    rw [if_neg h1]
    by_cases h2 : ans.init = false
    · rw [if_pos h2]
      exact .inr ⟨by decide, rfl⟩
    rw [if_neg h2]
    cases e : feed evp ans.update f 0 0 evp.init with
    | none => exact .inr ⟨show (-1 : Int) < 0 by decide, rfl⟩
    | some s =>
      dsimp only
      by_cases h3 : ferror f = true
      · rw [if_pos h3]
        exact .inr ⟨by decide, rfl⟩
      rw [if_neg h3]
      by_cases h4 : ans.final = false
      · rw [if_pos h4]
        exact .inr ⟨by decide, rfl⟩
      rw [if_neg h4]
      have hr : Readable f := (ferror_iff f).1 (by simpa using h3)
      obtain ⟨ps, p1, p2, -⟩ := feed_ok _ _ _ _ _ _ _ e
      refine .inl ⟨f, rfl, hr, rfl, ?_⟩
      rw [p1, hd ps, p2, List.drop_zero, stop_readable hr]

/-- C125: a file that can be opened and read to its end gives 0, if OpenSSL does its work. -/
theorem C125_succeeds {S : Type} (evp : Evp S) {ans : Answers} (h1 : ans.new = true) (h2 : ans.init = true)
    (h3 : ∀ k, ans.update k = true) (h4 : ans.final = true) {f : Input} (hf : Readable f) :
    (fmd5sum evp ans (.ok f)).1 = 0 := by
  unfold fmd5sum
  dsimp only
  rw [h1, h2, if_neg (by decide), if_neg (by decide)]
  obtain ⟨r, e⟩ := feed_total evp ans.update h3 f 0 0 evp.init
  rw [e]
  dsimp only
  rw [(ferror_iff f).2 hf, h4, if_neg (by decide), if_neg (by decide)]

/-- C125: whatever fails, the file and the state of OpenSSL are given back exactly once, after
they were taken and in reverse order. -/
theorem C125_released {S : Type} (evp : Evp S) (ans : Answers) (file : Except Nat Input) :
    (fmd5sum evp ans file).2.2 ∈ [[], [.fopen, .fclose], [Ev.fopen, .ctxNew, .ctxFree, .fclose]] ∧
    ((fmd5sum evp ans file).2.2 = [] ↔ ∃ e, file = .error e) := by
  unfold fmd5sum
  cases file with
  | error e => simp
  | ok f =>
    dsimp only
    by_cases h1 : ans.new = false
    · rw [if_pos h1]; simp
    rw [if_neg h1]
    by_cases h2 : ans.init = false
    · rw [if_pos h2]; simp
    rw [if_neg h2]
    cases feed evp ans.update f 0 0 evp.init with
    | none => simp
    | some s =>
      dsimp only
      by_cases h3 : ferror f = true
      · rw [if_pos h3]; simp
      rw [if_neg h3]
      by_cases h4 : ans.final = false
      · rw [if_pos h4]; simp
      rw [if_neg h4]; simp

/-- A digest: the sum of the bytes and their number. -/
def sumEvp : Evp (List Byte) := ⟨[], (· ++ ·), fun l => [l.foldl (· + ·) 0, BitVec.ofNat 8 l.length]⟩

theorem sumEvp_computes : Computes sumEvp fun l => [l.foldl (· + ·) 0, BitVec.ofNat 8 l.length] := by
  intro ps
  have : ∀ (ps : List (List Byte)) (a : List Byte), ps.foldl sumEvp.update a = a ++ ps.flatten := by
    intro ps
    induction ps with
    | nil => intro a; simp
    | cons p ps ih =>
      intro a
      rw [List.foldl_cons, ih]
      show (a ++ p) ++ _ = _
      rw [List.flatten_cons, List.append_assoc]
  rw [this]
  rfl

/-- A file of 3000 bytes, which takes three pieces. -/
example : (fmd5sum sumEvp ⟨true, true, fun _ => true, true⟩ (.ok ⟨List.replicate 3000 1, none⟩)).1 = 0 ∧
    Readable ⟨List.replicate 3000 1, none⟩ :=
  ⟨C125_succeeds _ rfl rfl (fun _ => rfl) rfl (fun _ h => by cases h), fun _ h => by cases h⟩

/-- A disk that fails after 2000 bytes. -/
example : (fmd5sum sumEvp ⟨true, true, fun _ => true, true⟩ (.ok ⟨List.replicate 3000 1, some 2000⟩)).1 < 0 := by
  rcases C125_digest sumEvp_computes ⟨true, true, fun _ => true, true⟩ (.ok ⟨List.replicate 3000 1, some 2000⟩)
    (by intro e h; cases h) with ⟨f, h, hr, -⟩ | h
  · cases h
    have := hr 2000 rfl
    rw [List.length_replicate] at this
    omega
  · exact h.1

end Ulp.Md5
