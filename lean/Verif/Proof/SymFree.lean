/-
Freeing the symbol indexes.
-/
import Verif.Proof.SymLink
namespace Ulp.Sym
open Rb (Tree IsTree RB St Mono)
open Rb.Tree (ids)

/-- What the steps of freeing leave alone: `p` is the symbol whose list of the
index `w` may change. -/
structure Eff (w : Which) (p : Nat) (s s' : Syms) : Prop where
  info : s'.info = s.info
  head : ∀ v, (s'.ix v).isHead = (s.ix v).isHead
  root : ∀ v, (s'.ix v).t.root = (s.ix v).t.root
  lists : ∀ v x, v ≠ w ∨ x ≠ p → (s'.ix v).lists x = (s.ix v).lists x
  dead : ∀ x, s.rc x = none → s'.rc x = none
  node : ∀ v x, s'.rc x ≠ none ∨ s.rc x = none → (s'.ix v).t.m x = (s.ix v).t.m x

theorem Eff.refl (w : Which) (p : Nat) (s : Syms) : Eff w p s s :=
  ⟨rfl, fun _ => rfl, fun _ => rfl, fun _ _ _ => rfl, fun _ h => h, fun _ _ _ => rfl⟩

theorem Eff.trans {w : Which} {p : Nat} {s s1 s2 : Syms} (h : Eff w p s s1) (h' : Eff w p s1 s2) : Eff w p s s2 where
  info := h'.info.trans h.info
  head := fun v => (h'.head v).trans (h.head v)
  root := fun v => (h'.root v).trans (h.root v)
  lists := fun v x hx => (h'.lists v x hx).trans (h.lists v x hx)
  dead := fun x hx => h'.dead x (h.dead x hx)
  node := by
    intro v x hx
    rcases hx with hx | hx
    · rw [h'.node v x (Or.inl hx), h.node v x (Or.inl fun e => hx (h'.dead x e))]
    · rw [h'.node v x (Or.inr (h.dead x hx)), h.node v x (Or.inr hx)]

/-- Dropping one reference. -/
theorem freeTaskSym_ok (w : Which) (p : Nat) {s : Syms} {q c : Nat} (h : s.rc q = some (c + 1)) :
    ∃ s', freeTaskSym s q = some s' ∧ Eff w p s s' ∧ (∀ v, (s'.ix v).lists = (s.ix v).lists) ∧
      ∀ x, s'.rc x = if x = q then (if c = 0 then none else some c) else s.rc x := by
  have hd : decr (c + 1) = c := by simp [decr]
  by_cases hc : c = 0
  · refine ⟨_, by rw [freeTaskSym, h, Option.bind_some, hd, if_pos hc], ?_, ?_, ?_⟩
    · refine ⟨rfl, ?_, ?_, ?_, ?_, ?_⟩
      · intro v; cases v <;> rfl
      · intro v; cases v <;> rfl
      · intro v x _; cases v <;> rfl
      · intro x hx
        simp only
        split
        · rfl
        · exact hx
      · intro v x hx
        have hxq : x ≠ q := by
          rintro rfl
          simp [h] at hx
        cases v <;> simp [Syms.ix, Index.drop, hxq]
    · intro v; cases v <;> rfl
    · intro x
      simp [hc]
  · refine ⟨_, by rw [freeTaskSym, h, Option.bind_some, hd, if_neg hc], ?_, ?_, ?_⟩
    · refine ⟨rfl, ?_, ?_, ?_, ?_, ?_⟩
      · intro v; cases v <;> rfl
      · intro v; cases v <;> rfl
      · intro v x _; cases v <;> rfl
      · intro x hx
        simp only
        split
        · rename_i e; rw [e, h] at hx; cases hx
        · exact hx
      · intro v x _; cases v <;> rfl
    · intro v; cases v <;> rfl
    · intro x
      simp [hc]

theorem freeExtras_ok (w : Which) (p : Nat) (c : Nat → Nat) : ∀ {l : List Nat} {s : Syms} {cp : Nat},
    l.Nodup → p ∉ l → s.rc p = some (cp + 1 + l.length) → (∀ q ∈ l, s.rc q = some (c q + 1)) → (s.ix w).lists p = l →
    ∃ s', freeExtras w s p l = some s' ∧ Eff w p s s' ∧ (s'.ix w).lists p = [] ∧ s'.rc p = some (cp + 1) ∧
      (∀ q ∈ l, s'.rc q = if c q = 0 then none else some (c q)) ∧
      ∀ x, x ≠ p → x ∉ l → s'.rc x = s.rc x
  | [], s, cp, _, _, hp, _, hl => ⟨s, rfl, Eff.refl w p s, hl, hp, by simp, fun _ _ _ => rfl⟩
  | q :: l, s, cp, hnd, hpl, hp, hq, hl => by
    rw [List.nodup_cons] at hnd
    have hpq : p ≠ q := fun e => hpl (by simp [e])
    have hpl' : p ∉ l := fun h => hpl (by simp [h])
    rw [freeExtras, if_pos]
    · generalize hs1 : s.setIx w { s.ix w with lists := fun x => if x = p then l else (s.ix w).lists x } = s1
      have hrc1 : s1.rc = s.rc := by rw [← hs1, rc_setIx]
      have hix1 : s1.ix w = { s.ix w with lists := fun x => if x = p then l else (s.ix w).lists x } := by
        rw [← hs1, ix_setIx]
      have E1 : Eff w p s s1 := by
        refine ⟨by rw [← hs1, info_setIx], ?_, ?_, ?_, ?_, ?_⟩
        · intro v; rw [← hs1]; cases v <;> cases w <;> rfl
        · intro v; rw [← hs1]; cases v <;> cases w <;> rfl
        · intro v x hx
          rw [← hs1]
          clear hs1 hix1
          cases v <;> cases w <;> first | rfl | (simp only [ne_eq, not_true_eq_false, false_or] at hx
                                                 simp [Syms.ix, Syms.setIx, hx])
        · intro x hx; rw [hrc1]; exact hx
        · intro v x _; rw [← hs1]; cases v <;> cases w <;> rfl
      have hd : decr (cp + 1 + (q :: l).length) = cp + 1 + l.length := by
        rw [decr, if_neg (by simp)]; simp
      generalize hs2 : ({ s1 with rc := fun x => if x = p then some (cp + 1 + l.length) else s1.rc x } : Syms) = s2
      have e2 : decRc s1 p = some s2 := by
        rw [decRc, hrc1, hp, Option.bind_some, hd, ← hs2, hrc1]
      have hrc2 : ∀ x, s2.rc x = if x = p then some (cp + 1 + l.length) else s.rc x := by
        intro x; rw [← hs2, hrc1]
      have hix2 : ∀ v, s2.ix v = s1.ix v := by
        intro v; rw [← hs2]; cases v <;> rfl
      have E2 : Eff w p s1 s2 := by
        refine ⟨by rw [← hs2], fun v => by rw [hix2], fun v => by rw [hix2], fun v x _ => by rw [hix2], ?_,
          fun v x _ => by rw [hix2]⟩
        intro x hx
        rw [hrc2]
        rw [hrc1] at hx
        split
        · rename_i e; rw [e, hp] at hx; cases hx
        · exact hx
      obtain ⟨s3, e3, E3, hl3, hrc3⟩ := freeTaskSym_ok w p (s := s2) (q := q) (c := c q)
        (by rw [hrc2, if_neg (Ne.symm hpq)]; exact hq q (by simp))
      obtain ⟨s4, e4, E4, hl4, hp4, hq4, hx4⟩ := freeExtras_ok w p c (l := l) (s := s3) (cp := cp) hnd.2 hpl'
        (by rw [hrc3, if_neg hpq, hrc2, if_pos rfl])
        (by
          intro y hy
          have hyp : y ≠ p := fun e => hpl' (e ▸ hy)
          have hyq : y ≠ q := fun e => hnd.1 (e ▸ hy)
          rw [hrc3, if_neg hyq, hrc2, if_neg hyp]
          exact hq y (by simp [hy]))
        (by rw [hl3, hix2, hix1]; simp)
      refine ⟨s4, ?_, ((E1.trans E2).trans E3).trans E4, hl4, hp4, ?_, ?_⟩
      · rw [e2, Option.bind_some, e3, Option.bind_some]
        exact e4
      · intro y hy
        rcases List.mem_cons.1 hy with rfl | hy
        · rw [hx4 y (Ne.symm hpq) hnd.1, hrc3, if_pos rfl]
        · exact hq4 y hy
      · intro x hxp hxl
        rw [List.mem_cons, not_or] at hxl
        rw [hx4 x hxp hxl.2, hrc3, if_neg hxl.1, hrc2, if_neg hxp]
    · rw [List.all_eq_true]
      intro x hx
      rcases List.mem_cons.1 hx with rfl | hx
      · rw [hp]; rfl
      · rw [hq x hx]; rfl

/-- The callback on a symbol in the tree. -/
theorem freeCb_ok (w : Which) (c : Nat → Nat) {s : Syms} {p : Nat} {l : List Nat} (hh : (s.ix w).isHead p = true)
    (hl : (s.ix w).lists p = l) (hnd : (p :: l).Nodup) (hp : s.rc p = some (c p + 1 + l.length))
    (hq : ∀ q ∈ l, s.rc q = some (c q + 1)) :
    ∃ s', freeCb w s p = some s' ∧ Eff w p s s' ∧
      ∀ x, s'.rc x = if x ∈ p :: l then (if c x = 0 then none else some (c x)) else s.rc x := by
  rw [List.nodup_cons] at hnd
  obtain ⟨s1, e1, E1, hl1, hp1, hq1, hx1⟩ := freeExtras_ok w p c hnd.2 hnd.1 hp hq hl
  obtain ⟨s2, e2, E2, _, hrc2⟩ := freeTaskSym_ok w p hp1
  refine ⟨s2, ?_, E1.trans E2, ?_⟩
  · rw [freeCb, if_pos hh, hl, e1]
    exact e2
  · intro x
    rw [hrc2]
    by_cases hxp : x = p
    · subst hxp
      rw [if_pos rfl, if_pos (show x ∈ x :: l by simp)]
    · rw [if_neg hxp]
      by_cases hxl : x ∈ l
      · rw [if_pos (by simp [hxl])]
        exact hq1 x hxl
      · rw [if_neg (by simp [hxp, hxl])]
        exact hx1 x hxp hxl

/-- Freeing one index: each symbol in it loses the references the index has. -/
theorem freeIndex_ok (w : Which) (c : Nat → Nat) {s : Syms} {t : Tree} (h : IsTree (s.ix w).t t)
    (hnd : (members (s.ix w).lists (ids t)).Nodup) (hh : ∀ x ∈ ids t, (s.ix w).isHead x = true)
    (hrc : ∀ x ∈ members (s.ix w).lists (ids t), s.rc x = some (contrib (s.ix w).lists (ids t) x + c x)) :
    ∃ s', freeIndex w s = some s' ∧
      (∀ x, s'.rc x = if x ∈ members (s.ix w).lists (ids t) then (if c x = 0 then none else some (c x)) else s.rc x) ∧
      s'.info = s.info ∧ (s'.ix w.other).isHead = (s.ix w.other).isHead ∧
      (s'.ix w.other).t.root = (s.ix w.other).t.root ∧ (s'.ix w.other).lists = (s.ix w.other).lists ∧
      (∀ x, s'.rc x ≠ none ∨ s.rc x = none → (s'.ix w.other).t.m x = (s.ix w.other).t.m x) := by
  generalize hL : (s.ix w).lists = L at hnd hrc ⊢
  have hwo : w.other ≠ w := by cases w <;> simp [Which.other]
  have ok : Rb.DestroyOK (fun s : Syms => (s.ix w).t) (fun s t => s.setIx w { s.ix w with t := t }) (freeCb w)
      (fun rest q => (members L rest).Nodup ∧ (∀ x ∈ members L rest, x ∈ members L (ids t)) ∧
        (∀ x ∈ rest, (q.ix w).lists x = L x ∧ (q.ix w).isHead x = true) ∧
        (∀ x ∈ members L rest, q.rc x = some (contrib L rest x + c x)) ∧
        (∀ x ∈ members L (ids t), x ∉ members L rest → q.rc x = if c x = 0 then none else some (c x)) ∧
        (∀ x ∉ members L (ids t), q.rc x = s.rc x) ∧
        q.info = s.info ∧ (q.ix w.other).isHead = (s.ix w.other).isHead ∧
        (q.ix w.other).t.root = (s.ix w.other).t.root ∧ (q.ix w.other).lists = (s.ix w.other).lists ∧
        (∀ x, s.rc x = none → q.rc x = none) ∧
        (∀ x, q.rc x ≠ none ∨ s.rc x = none → (q.ix w.other).t.m x = (s.ix w.other).t.m x)) := by
    refine ⟨fun _ _ => by rw [ix_setIx], ?_, ?_⟩
    · rintro i rest q hni hi0 hal ⟨h1, h1', h2, h3, h4, h5, h6, h7, h8, h9, h10, h11⟩
      rw [members_cons, List.nodup_append] at h1
      obtain ⟨h1a, h1b, h1c⟩ := h1
      rw [List.nodup_cons] at hni
      have hdis : ∀ x ∈ i :: L i, x ∉ members L rest := fun x hx hm => h1c x hx x hm rfl
      have hcnt : ∀ x, (members L (i :: rest)).count x = (i :: L i).count x + (members L rest).count x := by
        intro x; rw [members_cons, List.count_append]
      have hci : contrib L (i :: rest) i = 1 + (L i).length := by
        rw [contrib, hcnt, h1a.count, if_pos (by simp), List.count_eq_zero_of_not_mem (hdis i (by simp)),
          if_pos (by simp)]
      have hcq : ∀ y ∈ L i, contrib L (i :: rest) y = 1 := by
        intro y hy
        have hy' : y ∈ i :: L i := by simp [hy]
        have hyi : y ≠ i := by
          rintro rfl
          rw [List.nodup_cons] at h1a
          exact h1a.1 hy
        have hyr : y ∉ rest := fun hm => hdis y hy' (head_mem hm)
        rw [contrib, hcnt, h1a.count, if_pos hy', List.count_eq_zero_of_not_mem (hdis y hy'),
          if_neg (by simp [hyi, hyr])]
      have hcr : ∀ y ∈ members L rest, contrib L (i :: rest) y = contrib L rest y := by
        intro y hy
        have hyn : y ∉ i :: L i := fun hm => hdis y hm hy
        have hyi : y ≠ i := fun e => hyn (by simp [e])
        rw [contrib, contrib, hcnt, List.count_eq_zero_of_not_mem hyn, Nat.zero_add]
        simp only [List.mem_cons, hyi, false_or]
      obtain ⟨q', e, E, hrc'⟩ := freeCb_ok w c (s := q) (p := i) (l := L i) (h2 i (by simp)).2 (h2 i (by simp)).1 h1a
        (by rw [h3 i (head_mem (by simp)), hci]; congr 1; omega)
        (by
          intro y hy
          rw [h3 y (extra_mem (h := i) (by simp) hy), hcq y hy]
          congr 1; omega)
      refine ⟨q', e, ⟨h1b, ?_, ?_, ?_, ?_, ?_, ?_, ?_, ?_, ?_, ?_, ?_⟩, ?_⟩
      · intro x hx
        exact h1' x (by rw [members_cons, List.mem_append]; exact Or.inr hx)
      · intro x hx
        have hxi : x ≠ i := fun e => hni.1 (e ▸ hx)
        rw [E.lists w x (Or.inr hxi), E.head]
        exact h2 x (by simp [hx])
      · intro x hx
        rw [hrc', if_neg fun hm => hdis x hm hx, h3 x (by rw [members_cons, List.mem_append]; exact Or.inr hx), hcr x hx]
      · intro x hx hxr
        rw [hrc']
        by_cases hxi : x ∈ i :: L i
        · rw [if_pos hxi]
        · rw [if_neg hxi]
          exact h4 x hx (by rw [members_cons, List.mem_append, not_or]; exact ⟨hxi, hxr⟩)
      · intro x hx
        rw [hrc', if_neg]
        · exact h5 x hx
        · intro hm
          exact hx (h1' x (by rw [members_cons, List.mem_append]; exact Or.inl hm))
      · rw [E.info]; exact h6
      · rw [E.head]; exact h7
      · rw [E.root]; exact h8
      · funext x
        rw [E.lists _ x (Or.inl hwo), h9]
      · intro x hx
        exact E.dead x (h10 x hx)
      · intro x hx
        rcases hx with hx | hx
        · rw [E.node _ x (Or.inl hx)]
          exact h11 x (Or.inl fun e => hx (E.dead x e))
        · rw [E.node _ x (Or.inr (h10 x hx))]
          exact h11 x (Or.inr hx)
      · intro x hx
        refine E.node w x (Or.inl ?_)
        rw [hrc', if_neg fun hm => hdis x hm (head_mem hx), h3 x (head_mem (by simp [hx]))]
        simp
    · rintro rest q t' ⟨h1, h1', h2, h3, h4, h5, h6, h7, h8, h9, h10, h11⟩ _ _ _
      rw [ix_setIx_other, ix_setIx, rc_setIx, info_setIx]
      exact ⟨h1, h1', h2, h3, h4, h5, h6, h7, h8, h9, h10, h11⟩
  obtain ⟨s', e, _, _, _, _, h4, h5, h6, h7, h8, h9, _, h11⟩ := Rb.rbDestroyWith_ok ok (s := s) (t := t) h
    ⟨hnd, fun _ h => h, fun x hx => ⟨by rw [hL], hh x hx⟩, hrc, fun x hx hn => absurd hx hn, fun _ _ => rfl, rfl, rfl,
      rfl, rfl, fun _ h => h, fun _ _ => rfl⟩
  refine ⟨s', e, ?_, h6, h7, h8, h9, h11⟩
  intro x
  split
  · rename_i hx
    exact h4 x hx (by simp [members])
  · rename_i hx
    exact h5 x hx

/-- Freeing both indexes. -/
theorem freeTaskSyms_ok {s : Syms} {R : List SymSpec.Reg} {tn ta : Tree} (h : SInv s R tn ta) :
    ∃ s', freeTaskSyms s = some s' ∧
      ∀ x, s'.rc x = if x ∈ members s.names.lists (ids tn) ∨ x ∈ members s.addrs.lists (ids ta) then none else s.rc x := by
  obtain ⟨s1, e1, hrc1, _, hh1, hr1, hl1, hm1⟩ := freeIndex_ok .name (fun x => contrib s.addrs.lists (ids ta) x)
    (s := s) h.names.tree h.names.nodup h.names.heads (by
      intro x hx
      obtain ⟨r, hr, rfl⟩ := h.nsub x hx
      exact h.rc r hr)
  change s1.addrs.isHead = s.addrs.isHead at hh1
  change s1.addrs.t.root = s.addrs.t.root at hr1
  change s1.addrs.lists = s.addrs.lists at hl1
  change ∀ x, s1.rc x ≠ none ∨ s.rc x = none → s1.addrs.t.m x = s.addrs.t.m x at hm1
  change ∀ x, s1.rc x = if x ∈ members s.names.lists (ids tn) then _ else _ at hrc1
  have hrcA : ∀ x ∈ members s.addrs.lists (ids ta), s1.rc x = some (contrib s.addrs.lists (ids ta) x) := by
    intro x hx
    rw [hrc1]
    split
    · rw [if_neg (contrib_pos hx)]
    · rename_i hxn
      obtain ⟨r, hr, rfl⟩ := h.asub x hx
      rw [h.rc r hr, contrib_eq_zero hxn, Nat.zero_add]
  have ht1 : IsTree s1.addrs.t ta := by
    refine ⟨hr1.trans h.addrs.tree.root, h.addrs.tree.rep.frame ?_, h.addrs.tree.nodup⟩
    intro x hx
    refine hm1 x (Or.inl ?_)
    rw [hrcA x (head_mem hx)]
    simp
  obtain ⟨s2, e2, hrc2, _⟩ := freeIndex_ok .addr (fun _ => 0) (s := s1) ht1
    (by rw [show s1.ix .addr = s1.addrs from rfl, hl1]; exact h.addrs.nodup)
    (by rw [show s1.ix .addr = s1.addrs from rfl, hh1]; exact h.addrs.heads)
    (by rw [show s1.ix .addr = s1.addrs from rfl, hl1]; exact hrcA)
  refine ⟨s2, by rw [freeTaskSyms, e1]; exact e2, ?_⟩
  intro x
  rw [hrc2, show s1.ix .addr = s1.addrs from rfl, hl1]
  by_cases hxa : x ∈ members s.addrs.lists (ids ta)
  · rw [if_pos hxa, if_pos (Or.inr hxa), if_pos rfl]
  · rw [if_neg hxa, hrc1]
    by_cases hxn : x ∈ members s.names.lists (ids tn)
    · rw [if_pos hxn, if_pos (Or.inl hxn), if_pos (contrib_eq_zero hxa)]
    · rw [if_neg hxn, if_neg (by simp [hxa, hxn])]

end Ulp.Sym
