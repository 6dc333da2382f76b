/-
`rb_replace_node`: the tree with another node in the place of one.
-/
import Verif.Proof.RbOps
namespace Ulp.Rb
open Tree Comp

/-- Two trees that are alike to the red-black rules. -/
structure Alike (t t' : Tree) : Prop where
  bh : ∀ n, BH t n ↔ BH t' n
  nrr : NRR t ↔ NRR t'
  red : isRed t = isRed t'

theorem Alike.other (c : Bool) (l r : Tree) (i j : Nat) : Alike (node c l i r) (node c l j r) := by
  cases c <;> exact ⟨fun _ => Iff.rfl, Iff.rfl, rfl⟩

theorem Alike.node {l l' r r' : Tree} (hl : Alike l l') (hr : Alike r r') (c : Bool) (i : Nat) :
    Alike (node c l i r) (node c l' i r') := by
  refine ⟨?_, ?_, rfl⟩
  · intro n
    cases c
    · simp only [BH, hl.bh, hr.bh]
    · simp only [BH, hl.bh, hr.bh]
  · simp only [NRR, hl.nrr, hr.nrr, hl.red, hr.red]

theorem Alike.rfl (t : Tree) : Alike t t := ⟨fun _ => Iff.rfl, Iff.rfl, Eq.refl _⟩

theorem Alike.plug : ∀ (K : List Frame) {t t' : Tree}, Alike t t' → Alike (plug K t) (plug K t')
  | [], _, _, h => h
  | f :: K, t, t', h => by
    refine Alike.plug K ?_
    unfold Tree.mk
    by_cases hd : f.d = true
    · rw [if_pos hd, if_pos hd]
      exact Alike.node (Alike.rfl _) h _ _
    · rw [if_neg hd, if_neg hd]
      exact Alike.node h (Alike.rfl _) _ _

theorem Alike.rb {t t' : Tree} (h : Alike t t') (hr : RB t) : RB t' := by
  obtain ⟨h1, h2, n, h3⟩ := hr
  exact ⟨by rw [← h.red]; exact h1, h.nrr.1 h2, n, (h.bh n).1 h3⟩

/-- `rb_replace_node` -/
theorem rbReplaceNode_tree {s : St} {t : Tree} {n new : Nat} (h : IsTree s t) (hrb : RB t) (hn : n ∈ ids t)
    (hw0 : new ≠ 0) (hw : new ∉ ids t) (ha : s.m new ≠ none) :
    ∃ s' t' a b, rbReplaceNode s n new = some s' ∧ IsTree s' t' ∧ RB t' ∧ ids t = a ++ n :: b ∧
      ids t' = a ++ new :: b ∧ s'.m n = s.m n ∧ (∀ x, x ≠ 0 → x ∉ ids t → x ≠ new → s'.m x = s.m x) := by
  obtain ⟨K, c, l, r, rfl⟩ := exists_plug hn
  obtain ⟨old, hold⟩ := Option.ne_none_iff_exists'.1 ha
  have h0 : Holds s s [ctx K n, tree (cpar 0 K) (Tree.node c l n r)] := RepT_plug.1 h.repT
  have h1 : Holds s s [cell n (nd false (cpar 0 K) c (ptr l) (ptr r)), tree n l, tree n r, ctx K n] :=
    Holds.untree (d := false) (h0.front 1 rfl)
  have hids : ids (Rb.plug K (Tree.node c l n r)) = lft K ++ (ids l ++ n :: ids r) ++ rgt K := ids_plug _ _
  have h2 : Holds s s [cell n (nd false (cpar 0 K) c (ptr l) (ptr r)), tree n l, tree n r, ctx K n, cell new old] := by
    refine ⟨?_, ?_, fun _ _ _ => rfl⟩
    · intro c hc
      simp only [List.mem_cons, List.not_mem_nil, or_false] at hc
      rcases hc with rfl | rfl | rfl | rfl | rfl
      · exact h1.at 0 rfl
      · exact h1.at 1 rfl
      · exact h1.at 2 rfl
      · exact h1.at 3 rfl
      · exact ⟨hw0, hold⟩
    · have hnd := h1.nodup
      have hmem : new ∉ [cell n (nd false (cpar 0 K) c (ptr l) (ptr r)), tree n l, tree n r, ctx K n].flatMap Comp.ids := by
        intro hm
        have hc : 0 < (ids (Rb.plug K (Tree.node c l n r))).count new := by
          rw [count_ids_plug]
          have := List.count_pos_iff.2 hm
          simp [Comp.ids, Tree.ids, List.count_cons, List.count_append, Ne.symm hw0] at this ⊢
          omega
        exact hw (List.count_pos_iff.1 hc)
      have : [cell n (nd false (cpar 0 K) c (ptr l) (ptr r)), tree n l, tree n r, ctx K n, cell new old].flatMap Comp.ids =
          [cell n (nd false (cpar 0 K) c (ptr l) (ptr r)), tree n l, tree n r, ctx K n].flatMap Comp.ids ++ [new] := by
        simp [Comp.ids]
      rw [this, List.nodup_append]
      refine ⟨hnd, by simp, ?_⟩
      intro x hx y hy
      rw [List.mem_singleton] at hy
      rw [hy]
      exact fun e => hmem (by rw [← e]; exact hx)
  have hg := h2.get 0 rfl
  have hgw := h2.get 4 rfl
  have hn0 := h2.ne_zero 0 rfl
  have hnK : n ∉ idsC K := fun hm => h2.disj (j := 0) (k := 3) (by omega) rfl rfl n (by simp [Comp.ids])
    (by simp [Comp.ids, hm])
  have h3 := h2.upd 4 (nd false (cpar 0 K) c (ptr l) (ptr r)) rfl
  obtain ⟨s1, e1, h4⟩ := h3.treeParIf 1 new rfl
  obtain ⟨s2, e2, h5⟩ := h4.treeParIf 2 new rfl
  obtain ⟨s3, e3, h6⟩ := h5.changeChild 3 new rfl hnK hn0
  have h7 : Holds s s3 [ctx K (ptr (Tree.node c l new r)), tree (cpar 0 K) (Tree.node c l new r),
      cell n (nd false (cpar 0 K) c (ptr l) (ptr r))] := by
    refine h6.refold (by intro x; simp [Comp.ids, Tree.ids, List.count_cons, List.count_append]; omega) ?_
    intro c' hc
    simp only [List.mem_cons, List.not_mem_nil, or_false] at hc
    rcases hc with rfl | rfl | rfl
    · exact h6.at 3 rfl
    · exact ⟨hw0, (h6.at 4 rfl).2, h6.at 1 rfl, h6.at 2 rfl⟩
    · exact h6.at 0 rfl
  have h8 : Holds s3 s3 [ctx K (ptr (Tree.node c l new r)), tree (cpar 0 K) (Tree.node c l new r)] :=
    Holds.rebase (cs' := [cell n (nd false (cpar 0 K) c (ptr l) (ptr r))]) h7
  refine ⟨s3, Rb.plug K (Tree.node c l new r), lft K ++ ids l, ids r ++ rgt K, ?_, (RepT_plug.2 h8).isTree,
    (Alike.plug K (Alike.other c l r n new)).rb hrb, by rw [hids]; simp, by rw [ids_plug]; simp [Tree.ids], ?_, ?_⟩
  · have e1' : setParentIf (upd s new (nd false (cpar 0 K) c (ptr l) (ptr r))) (ptr l) new = some s1 := e1
    simp [rbReplaceNode, hg, hgw, e1', e2, e3]
  · rw [(h7.at 2 rfl).2, (h1.at 0 rfl).2]
  · intro x hx0 hx hxw
    refine h7.outside x hx0 ?_
    intro hm
    have hc : 0 < (ids (Rb.plug K (Tree.node c l n r))).count x := by
      rw [count_ids_plug]
      have := List.count_pos_iff.2 hm
      simp [Comp.ids, Tree.ids, List.count_cons, List.count_append, Ne.symm hx0, Ne.symm hxw] at this ⊢
      omega
    exact hx (List.count_pos_iff.1 hc)

end Ulp.Rb
