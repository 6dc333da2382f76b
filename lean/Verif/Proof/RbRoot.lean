/-
`rb_erase` writes the root pointer but does not read it: from a state with the
same nodes and another root pointer it does the same to the nodes.
-/
import Verif.Proof.RbOps
namespace Ulp.Rb

/-- If the first ends, the second ends in a related result. -/
def Sim {α β : Type} (R : α → β → Prop) (x : Option α) (y : Option β) : Prop :=
  ∀ r, x = some r → ∃ r', y = some r' ∧ R r r'

/-- The same nodes. -/
def SameM (s s' : St) : Prop := s'.m = s.m

theorem Sim.bind {α β γ δ : Type} {R : α → β → Prop} {Q : γ → δ → Prop} {x : Option α} {y : Option β}
    {f : α → Option γ} {g : β → Option δ} (h : Sim R x y) (hf : ∀ a b, R a b → Sim Q (f a) (g b)) :
    Sim Q (x >>= f) (y >>= g) := by
  intro r hr
  cases x with
  | none => cases hr
  | some a =>
    obtain ⟨b, rfl, hab⟩ := h a rfl
    exact hf a b hab r hr

theorem Sim.ret {α β : Type} {R : α → β → Prop} {a : α} {b : β} (h : R a b) : Sim R (some a) (some b) := by
  rintro r hr
  cases hr
  exact ⟨b, rfl, h⟩

theorem Sim.ite {α β : Type} {R : α → β → Prop} {c : Prop} [Decidable c] {x x' : Option α} {y y' : Option β}
    (h : Sim R x y) (h' : Sim R x' y') : Sim R (if c then x else x') (if c then y else y') := by
  split
  · exact h
  · exact h'

theorem Sim.get {s s' : St} (h : SameM s s') (p : Nat) : Sim Eq (Rb.get s p) (Rb.get s' p) := by
  intro r hr
  refine ⟨r, ?_, rfl⟩
  rw [← hr, Rb.get, Rb.get, h]

theorem SameM.upd {s s' : St} (h : SameM s s') (p : Nat) (n : RbNode) : SameM (upd s p n) (Rb.upd s' p n) := by
  rw [SameM, Rb.upd, Rb.upd, h]

theorem Sim.setLeft {s s' : St} (h : SameM s s') (p v : Nat) : Sim SameM (setLeft s p v) (Rb.setLeft s' p v) :=
  (Sim.get h p).bind fun _ _ e => e ▸ Sim.ret (h.upd _ _)

theorem Sim.setRight {s s' : St} (h : SameM s s') (p v : Nat) : Sim SameM (setRight s p v) (Rb.setRight s' p v) :=
  (Sim.get h p).bind fun _ _ e => e ▸ Sim.ret (h.upd _ _)

theorem Sim.rbSetParent {s s' : St} (h : SameM s s') (p v : Nat) :
    Sim SameM (rbSetParent s p v) (Rb.rbSetParent s' p v) :=
  (Sim.get h p).bind fun _ _ e => e ▸ Sim.ret (h.upd _ _)

theorem Sim.rbSetParentColor {s s' : St} (h : SameM s s') (p v : Nat) (b : Bool) :
    Sim SameM (rbSetParentColor s p v b) (Rb.rbSetParentColor s' p v b) :=
  (Sim.get h p).bind fun _ _ e => e ▸ Sim.ret (h.upd _ _)

theorem Sim.rbSetBlack {s s' : St} (h : SameM s s') (p : Nat) : Sim SameM (rbSetBlack s p) (Rb.rbSetBlack s' p) :=
  (Sim.get h p).bind fun _ _ e => e ▸ Sim.ret (h.upd _ _)

theorem Sim.isRedNode {s s' : St} (h : SameM s s') (p : Nat) : Sim Eq (isRedNode s p) (Rb.isRedNode s' p) :=
  Sim.ite (Sim.ret rfl) ((Sim.get h p).bind fun _ _ e => e ▸ Sim.ret rfl)

theorem Sim.rbChangeChild {s s' : St} (h : SameM s s') (a b c : Nat) :
    Sim SameM (rbChangeChild s a b c) (Rb.rbChangeChild s' a b c) :=
  Sim.ite ((Sim.get h c).bind fun _ _ e => e ▸ Sim.ite (Sim.setLeft h _ _) (Sim.setRight h _ _)) (Sim.ret h)

theorem Sim.rbRotateSetParents {s s' : St} (h : SameM s s') (a b : Nat) (c : Bool) :
    Sim SameM (rbRotateSetParents s a b c) (Rb.rbRotateSetParents s' a b c) :=
  (Sim.get h a).bind fun _ _ e => e ▸ (Sim.rbSetParentColor h _ _ _).bind fun _ _ h =>
    (Sim.rbSetParentColor h _ _ _).bind fun _ _ h => Sim.rbChangeChild h _ _ _

theorem Sim.setParentBlackIf {s s' : St} (h : SameM s s') (a b : Nat) :
    Sim SameM (setParentBlackIf s a b) (Rb.setParentBlackIf s' a b) :=
  Sim.ite (Sim.rbSetParentColor h _ _ _) (Sim.ret h)

theorem Sim.setParentIf {s s' : St} (h : SameM s s') (a b : Nat) :
    Sim SameM (setParentIf s a b) (Rb.setParentIf s' a b) :=
  Sim.ite (Sim.rbSetParent h _ _) (Sim.ret h)

/-- Results with a second part. -/
def SameP {α : Type} (x y : St × α) : Prop := SameM x.1 y.1 ∧ y.2 = x.2

theorem Sim.eraseCase1L {s s' : St} (h : SameM s s') (a b : Nat) :
    Sim SameP (eraseCase1L s a b) (Rb.eraseCase1L s' a b) :=
  (Sim.get h b).bind fun _ _ e => e ▸ (Sim.setRight h _ _).bind fun _ _ h => (Sim.setLeft h _ _).bind fun _ _ h =>
    (Sim.rbSetParentColor h _ _ _).bind fun _ _ h => (Sim.rbRotateSetParents h _ _ _).bind fun _ _ h => Sim.ret ⟨h, rfl⟩

theorem Sim.eraseCase1R {s s' : St} (h : SameM s s') (a b : Nat) :
    Sim SameP (eraseCase1R s a b) (Rb.eraseCase1R s' a b) :=
  (Sim.get h b).bind fun _ _ e => e ▸ (Sim.setLeft h _ _).bind fun _ _ h => (Sim.setRight h _ _).bind fun _ _ h =>
    (Sim.rbSetParentColor h _ _ _).bind fun _ _ h => (Sim.rbRotateSetParents h _ _ _).bind fun _ _ h => Sim.ret ⟨h, rfl⟩

theorem Sim.eraseCase2 {s s' : St} (h : SameM s s') (a b : Nat) :
    Sim SameP (eraseCase2 s a b) (Rb.eraseCase2 s' a b) :=
  (Sim.rbSetParentColor h _ _ _).bind fun _ _ h => (Sim.get h a).bind fun _ _ e => e ▸
    Sim.ite ((Sim.rbSetBlack h _).bind fun _ _ h => Sim.ret ⟨h, rfl⟩) (Sim.ite (Sim.ret ⟨h, rfl⟩) (Sim.ret ⟨h, rfl⟩))

theorem Sim.eraseCase3L {s s' : St} (h : SameM s s') (a b c : Nat) :
    Sim SameM (eraseCase3L s a b c) (Rb.eraseCase3L s' a b c) :=
  (Sim.get h c).bind fun _ _ e => e ▸ (Sim.setLeft h _ _).bind fun _ _ h => (Sim.setRight h _ _).bind fun _ _ h =>
    (Sim.setRight h _ _).bind fun _ _ h => Sim.setParentBlackIf h _ _

theorem Sim.eraseCase3R {s s' : St} (h : SameM s s') (a b c : Nat) :
    Sim SameM (eraseCase3R s a b c) (Rb.eraseCase3R s' a b c) :=
  (Sim.get h c).bind fun _ _ e => e ▸ (Sim.setRight h _ _).bind fun _ _ h => (Sim.setLeft h _ _).bind fun _ _ h =>
    (Sim.setLeft h _ _).bind fun _ _ h => Sim.setParentBlackIf h _ _

theorem Sim.eraseCase4L {s s' : St} (h : SameM s s') (a b c : Nat) :
    Sim SameM (eraseCase4L s a b c) (Rb.eraseCase4L s' a b c) :=
  (Sim.get h b).bind fun _ _ e => e ▸ (Sim.setRight h _ _).bind fun _ _ h => (Sim.setLeft h _ _).bind fun _ _ h =>
    (Sim.rbSetParentColor h _ _ _).bind fun _ _ h => (Sim.setParentIf h _ _).bind fun _ _ h =>
      Sim.rbRotateSetParents h _ _ _

theorem Sim.eraseCase4R {s s' : St} (h : SameM s s') (a b c : Nat) :
    Sim SameM (eraseCase4R s a b c) (Rb.eraseCase4R s' a b c) :=
  (Sim.get h b).bind fun _ _ e => e ▸ (Sim.setLeft h _ _).bind fun _ _ h => (Sim.setRight h _ _).bind fun _ _ h =>
    (Sim.rbSetParentColor h _ _ _).bind fun _ _ h => (Sim.setParentIf h _ _).bind fun _ _ h =>
      Sim.rbRotateSetParents h _ _ _

theorem Sim.eraseMainL {s s' : St} (h : SameM s s') (a b : Nat) :
    Sim SameP (eraseMainL s a b) (Rb.eraseMainL s' a b) :=
  (Sim.get h b).bind fun _ _ e => e ▸ (Sim.isRedNode h _).bind fun _ _ e => e ▸
    Sim.ite ((Sim.isRedNode h _).bind fun _ _ e => e ▸ Sim.ite (Sim.eraseCase2 h _ _)
      ((Sim.eraseCase3L h _ _ _).bind fun _ _ h => (Sim.eraseCase4L h _ _ _).bind fun _ _ h => Sim.ret ⟨h, rfl⟩))
      ((Sim.eraseCase4L h _ _ _).bind fun _ _ h => Sim.ret ⟨h, rfl⟩)

theorem Sim.eraseMainR {s s' : St} (h : SameM s s') (a b : Nat) :
    Sim SameP (eraseMainR s a b) (Rb.eraseMainR s' a b) :=
  (Sim.get h b).bind fun _ _ e => e ▸ (Sim.isRedNode h _).bind fun _ _ e => e ▸
    Sim.ite ((Sim.isRedNode h _).bind fun _ _ e => e ▸ Sim.ite (Sim.eraseCase2 h _ _)
      ((Sim.eraseCase3R h _ _ _).bind fun _ _ h => (Sim.eraseCase4R h _ _ _).bind fun _ _ h => Sim.ret ⟨h, rfl⟩))
      ((Sim.eraseCase4R h _ _ _).bind fun _ _ h => Sim.ret ⟨h, rfl⟩)

theorem Sim.eraseStep {s s' : St} (h : SameM s s') (a b : Nat) :
    Sim SameP (eraseStep s a b) (Rb.eraseStep s' a b) :=
  (Sim.get h b).bind fun _ _ e => e ▸ Sim.ite
    ((Sim.get h _).bind fun _ _ e => e ▸ Sim.ite ((Sim.eraseCase1L h _ _).bind fun _ _ h => h.2 ▸ Sim.eraseMainL h.1 _ _)
      (Sim.eraseMainL h _ _))
    ((Sim.get h _).bind fun _ _ e => e ▸ Sim.ite ((Sim.eraseCase1R h _ _).bind fun _ _ h => h.2 ▸ Sim.eraseMainR h.1 _ _)
      (Sim.eraseMainR h _ _))

theorem Sim.eraseLoop {s s' : St} (h : SameM s s') (a b : Nat) :
    Sim SameM (eraseLoop s a b) (Rb.eraseLoop s' a b) := by
  intro r hr
  refine Rb.eraseLoop.partial_correctness
    (motive := fun s a b r => ∀ s', SameM s s' → ∃ r', Rb.eraseLoop s' a b = some r' ∧ SameM r r')
    ?_ s a b r hr s' h
  intro f ih s a b r hr s' h
  have hs := Sim.eraseStep h a b
  cases hx : Rb.eraseStep s a b with
  | none => rw [hx] at hr; cases hr
  | some x =>
    obtain ⟨y, ey, h1, h2⟩ := hs x hx
    rw [hx] at hr
    rw [Rb.eraseLoop, ey]
    simp only [Option.bind_eq_bind, Option.bind_some] at hr ⊢
    rw [h2]
    cases hq : x.2 with
    | none =>
      rw [hq] at hr
      simp only [Option.some.injEq] at hr
      subst hr
      exact ⟨y.1, rfl, h1⟩
    | some q =>
      rw [hq] at hr
      exact ih _ _ _ _ hr _ h1

theorem Sim.succLoop {s s' : St} (h : SameM s s') (a b : Nat) :
    Sim Eq (succLoop s a b) (Rb.succLoop s' a b) := by
  intro r hr
  refine ⟨r, ?_, rfl⟩
  refine Rb.succLoop.partial_correctness s
    (motive := fun a b r => Rb.succLoop s' a b = some r) ?_ a b r hr
  intro f ih a b r hr
  obtain hx | ⟨x, hx⟩ : Rb.get s b = none ∨ ∃ x, Rb.get s b = some x := by
    cases Rb.get s b <;> simp
  · rw [hx] at hr; cases hr
  · obtain ⟨y, ey, rfl⟩ := Sim.get h b x hx
    rw [hx] at hr
    rw [Rb.succLoop, ey]
    simp only [Option.bind_eq_bind, Option.bind_some] at hr ⊢
    by_cases hl : x.left ≠ 0
    · rw [if_pos hl] at hr ⊢
      exact ih _ _ _ hr
    · rw [if_neg hl] at hr ⊢
      exact hr

theorem Sim.eraseSplice {s s' : St} (h : SameM s s') (a b c d : Nat) :
    Sim SameP (eraseSplice s a b c d) (Rb.eraseSplice s' a b c d) :=
  (Sim.get h a).bind fun _ _ e => e ▸ (Sim.setLeft h _ _).bind fun _ _ h => (Sim.rbSetParent h _ _).bind fun _ _ h =>
    (Sim.get h a).bind fun _ _ e => e ▸ (Sim.rbChangeChild h _ _ _).bind fun _ _ h =>
      Sim.ite ((Sim.rbSetParentColor h _ _ _).bind fun _ _ h => (Sim.rbSetParentColor h _ _ _).bind fun _ _ h =>
        Sim.ret ⟨h, rfl⟩)
      ((Sim.get h b).bind fun _ _ e => e ▸ (Sim.rbSetParentColor h _ _ _).bind fun _ _ h => Sim.ret ⟨h, rfl⟩)

theorem Sim.rbErase0 {s s' : St} (h : SameM s s') (a : Nat) : Sim SameP (rbErase0 s a) (Rb.rbErase0 s' a) :=
  (Sim.get h a).bind fun _ _ e => e ▸ Sim.ite
    ((Sim.rbChangeChild h _ _ _).bind fun _ _ h => Sim.ite
      ((Sim.rbSetParentColor h _ _ _).bind fun _ _ h => Sim.ret ⟨h, rfl⟩) (Sim.ret ⟨h, rfl⟩))
    (Sim.ite ((Sim.rbSetParentColor h _ _ _).bind fun _ _ h => (Sim.rbChangeChild h _ _ _).bind fun _ _ h =>
      Sim.ret ⟨h, rfl⟩)
      ((Sim.get h _).bind fun _ _ e => e ▸ Sim.ite (Sim.eraseSplice h _ _ _ _)
        ((Sim.succLoop h _ _).bind fun _ _ e => e ▸ (Sim.get h _).bind fun _ _ e => e ▸
          (Sim.setLeft h _ _).bind fun _ _ h => (Sim.setRight h _ _).bind fun _ _ h =>
            (Sim.rbSetParent h _ _).bind fun _ _ h => Sim.eraseSplice h _ _ _ _)))

theorem Sim.rbErase {s s' : St} (h : SameM s s') (a : Nat) : Sim SameM (rbErase s a) (Rb.rbErase s' a) :=
  (Sim.rbErase0 h a).bind fun _ _ h => h.2 ▸ Sim.ite (Sim.eraseLoop h.1 _ _) (Sim.ret h.1)

/-- Erasing a node that is in no tree and all zero bytes: only the root pointer is
changed, to NULL. -/
theorem rbErase_zero {s : St} {n : Nat} (hn : n ≠ 0) (h : s.m n = some ⟨0, false, 0, 0⟩) :
    rbErase s n = some { s with root := 0 } := by
  simp [rbErase, rbErase0, Rb.get, hn, h, rbChangeChild]

end Ulp.Rb
