/-
A kernel that keeps the promises of `Verif.Spec.Requests`, for examples: `pick` chooses
the place of a mapping if the hint is not free, `deny` are requests that fail.
-/
import Verif.Spec.Requests
namespace Ulp.Linux
open Ulp.Ultask (Req Kern int)

open Classical in
/-- Where the example kernel puts a mapping. -/
noncomputable def lxAddr (pg pick : Nat) (s : State) (hint len : Nat) : Nat :=
  if hint ≠ 0 ∧ hint % pg = 0 ∧ Free pg s hint len then hint else pick

open Classical in
/-- The example kernel. -/
noncomputable def lx (pg pick : Nat) (deny : Req → Bool) : Kern State where
  ask s q :=
    match q with
    | .attach => if s.stopped ∨ deny q then (s, -1) else ({ s with stopped := true }, 0)
    | .detach => ({ s with stopped := false }, 0)
    | .open _ _ => if 3#32 ∈ s.fds ∨ deny q then (s, -13) else ({ s with fds := 3 :: s.fds }, 3)
    | .ftruncate _ len => if 0 ≤ len.toInt ∧ deny q = false then ({ s with file := len.toNat }, 0) else (s, -22)
    | .mmap hint len prot _ _ _ =>
      let addr := lxAddr pg pick s hint.toNat len.toNat
      if 0 < len.toNat ∧ 0 < addr ∧ addr % pg = 0 ∧ Free pg s addr len.toNat ∧ addr < 2 ^ 63 ∧ deny q = false then
        (s.change pg addr len.toNat fun _ _ => some ⟨prot, 0⟩, BitVec.ofNat 64 addr)
      else (s, -12)
    | .mprotect addr len prot =>
      if addr.toNat % pg = 0 ∧ Mapped pg s addr.toNat len.toNat ∧ deny q = false then
        (s.change pg addr.toNat len.toNat fun _ q => q.map fun q => { q with prot := prot }, 0)
      else if deny q then (s, -12)
      else
        (s.change pg addr.toNat len.toNat fun p q =>
          if decide (∀ i, i ≤ p → Touches pg addr.toNat len.toNat i → s.space i ≠ none) then
            q.map fun q => { q with prot := prot }
          else q, -12)
    | .munmap addr len =>
      if addr.toNat % pg = 0 ∧ 0 < len.toNat ∧ deny q = false then
        (s.change pg addr.toNat len.toNat fun _ _ => none, 0)
      else (s, -22)
    | .close fd => ({ s with fds := s.fds.erase fd }, 0)

theorem int_3 : int 3#64 = 3 := by decide
theorem int_0 : int 0#64 = 0 := by decide
theorem isErr_12 : IsErr (-12) := by unfold IsErr; decide

theorem lx_lawful (pg pick : Nat) (deny : Req → Bool) : Lawful pg (lx pg pick deny) := by
  intro s q
  cases q with
  | attach =>
    simp only [lx, Answers]
    split
    · exact Or.inr ⟨by dsimp only; decide, rfl⟩
    · rename_i h
      exact Or.inl ⟨int_0, by revert h; cases s.stopped <;> simp, rfl⟩
  | detach => rfl
  | «open» path flags =>
    simp only [lx, Answers]
    split
    · exact Or.inr ⟨by dsimp only; decide, rfl⟩
    · rename_i h
      exact Or.inl ⟨by dsimp only; decide, fun hm => h (Or.inl hm), rfl⟩
  | ftruncate fd len =>
    simp only [lx, Answers]
    split
    · rename_i h
      exact Or.inl ⟨int_0, h.1, rfl⟩
    · exact Or.inr rfl
  | mmap hint len prot flags fd off =>
    by_cases hc : 0 < len.toNat ∧ 0 < lxAddr pg pick s hint.toNat len.toNat ∧
        lxAddr pg pick s hint.toNat len.toNat % pg = 0 ∧ Free pg s (lxAddr pg pick s hint.toNat len.toNat) len.toNat ∧
        lxAddr pg pick s hint.toNat len.toNat < 2 ^ 63 ∧ deny (.mmap hint len prot flags fd off) = false
    · have ek : (lx pg pick deny).ask s (.mmap hint len prot flags fd off) =
          (s.change pg (lxAddr pg pick s hint.toNat len.toNat) len.toNat fun _ _ => some ⟨prot, 0⟩,
            BitVec.ofNat 64 (lxAddr pg pick s hint.toNat len.toNat)) := by
        simp only [lx]; rw [if_pos hc]
      rw [ek]
      have ha : hint.toNat ≠ 0 → hint.toNat % pg = 0 → Free pg s hint.toNat len.toNat →
          lxAddr pg pick s hint.toNat len.toNat = hint.toNat := fun a b c => if_pos ⟨a, b, c⟩
      generalize lxAddr pg pick s hint.toNat len.toNat = addr at hc ha ⊢
      obtain ⟨h1, h2, h3, h4, h5, _⟩ := hc
      have e : (BitVec.ofNat 64 addr).toNat = addr := by rw [BitVec.toNat_ofNat]; omega
      refine Or.inl ⟨?_, h1, by rw [e]; exact h2, by rw [e]; exact h3, by rw [e]; exact h4, ?_, fun _ => 0, by rw [e]⟩
      · rintro ⟨_, hn⟩
        rw [BitVec.toInt_eq_toNat_cond, e] at hn
        omega
      · intro g1 g2 g3
        rw [e, ha g1 g2 g3]
    · have ek : (lx pg pick deny).ask s (.mmap hint len prot flags fd off) = (s, -12) := by
        simp only [lx]; rw [if_neg hc]
      rw [ek]
      exact Or.inr ⟨Or.inl isErr_12, rfl⟩
  | mprotect addr len prot =>
    simp only [lx, Answers]
    by_cases hc : addr.toNat % pg = 0 ∧ Mapped pg s addr.toNat len.toNat ∧ deny (.mprotect addr len prot) = false
    · rw [if_pos hc]
      exact Or.inl ⟨int_0, hc.1, hc.2.1, rfl⟩
    · rw [if_neg hc]
      by_cases hd : deny (.mprotect addr len prot) = true
      · rw [if_pos hd]
        exact Or.inr ⟨by dsimp only; decide, fun _ => false, by simp [State.change]⟩
      · rw [if_neg hd]
        exact Or.inr ⟨by dsimp only; decide, _, rfl⟩
  | munmap addr len =>
    simp only [lx, Answers]
    split
    · rename_i h
      exact Or.inl ⟨int_0, h.1, h.2.1, rfl⟩
    · exact Or.inr ⟨by dsimp only; decide, rfl⟩
  | close fd => rfl

end Ulp.Linux
