/-
`rb_erase` on trees.
-/
import Verif.Proof.RbFun
namespace Ulp.Rb
open Tree Comp

@[simp] theorem nd_false_left (par : Nat) (c : Bool) (a b : Nat) : (nd false par c a b).left = a := rfl
@[simp] theorem nd_false_right (par : Nat) (c : Bool) (a b : Nat) : (nd false par c a b).right = b := rfl

/-- The leftmost node of `node c l i r`, with the path to it added to `K`: the
path, the node's colour, the node, its right subtree. -/
def popMin (K : List Frame) (c : Bool) : Tree → Nat → Tree → List Frame × Bool × Nat × Tree
  | leaf, i, r => (K, c, i, r)
  | node c2 l2 i2 r2, i, r => popMin (⟨false, c, i, r⟩ :: K) c2 l2 i2 r2

/-- Putting `t` where a node of colour `c` was removed. -/
def eraseSpot (K : List Frame) (c : Bool) : Tree → Option Tree
  | leaf => if c then eraseFix K leaf else some (plug K leaf)
  | t => some (plug K t)

/-- The tree after removing the node with colour `c` and subtrees `l`, `r` at the
end of the path `K`. -/
def eraseTree (K : List Frame) (c : Bool) : Tree → Tree → Option Tree
  | leaf, r => eraseSpot K c (recolor c r)
  | l, leaf => some (plug K (recolor c l))
  | l, node rc rl ri rr =>
    let q := popMin [] rc rl ri rr
    eraseSpot (q.1 ++ ⟨true, c, q.2.2.1, l⟩ :: K) q.2.1 (blacken q.2.2.2)

theorem plug_popMin : ∀ (l : Tree) (K : List Frame) (c : Bool) (i : Nat) (r : Tree),
    plug (popMin K c l i r).1 (node (popMin K c l i r).2.1 leaf (popMin K c l i r).2.2.1 (popMin K c l i r).2.2.2)
      = plug K (node c l i r)
  | leaf, K, c, i, r => rfl
  | node c2 l2 i2 r2, K, c, i, r => by
    rw [popMin, plug_popMin l2]
    rfl

theorem popMin_left : ∀ (l : Tree) (K : List Frame) (c : Bool) (i : Nat) (r : Tree),
    (∀ f ∈ K, f.d = false) → ∀ f ∈ (popMin K c l i r).1, f.d = false
  | leaf, K, c, i, r, h => h
  | node c2 l2 i2 r2, K, c, i, r, h => by
    rw [popMin]
    refine popMin_left l2 _ _ _ _ ?_
    intro f hf
    rcases List.mem_cons.1 hf with rfl | hf
    · rfl
    · exact h f hf

theorem popMin_ne : ∀ (l : Tree) (K : List Frame) (c : Bool) (i : Nat) (r : Tree),
    K ≠ [] → (popMin K c l i r).1 ≠ []
  | leaf, K, c, i, r, h => h
  | node c2 l2 i2 r2, K, c, i, r, _ => popMin_ne l2 _ _ _ _ (by simp)

/-- The descent to the successor. -/
theorem succLoop_ok {s : St} {pp : Nat} : ∀ (l : Tree) (K : List Frame) (c : Bool) (i : Nat) (r : Tree),
    Rep s.m (cpar pp K) (node c l i r) →
    succLoop s (cpar pp K) i = some (cpar pp (popMin K c l i r).1, (popMin K c l i r).2.2.1)
  | leaf, K, c, i, r, h => by
    rw [succLoop, get, if_neg h.1, h.2.1]
    simp [ptr, popMin]
  | node c2 l2 i2 r2, K, c, i, r, h => by
    rw [succLoop, get, if_neg h.1, h.2.1]
    have := succLoop_ok (pp := pp) l2 (⟨false, c, i, r⟩ :: K) c2 i2 r2 h.2.2.1
    rw [cpar] at this
    simp only [Option.bind_eq_bind, Option.bind_some, ptr, ne_eq, h.2.2.1.1, not_false_eq_true, if_true, popMin]
    exact this

theorem CRep_append {m : Nat → Option RbNode} {pp : Nat} {f : Frame} {K : List Frame} :
    ∀ {K2 : List Frame} {h : Nat}, CRep m pp (K2 ++ f :: K) h ↔
      CRep m f.i K2 h ∧ CRep m pp (f :: K) (ptop K2 h)
  | [], h => by simp [CRep, ptop]
  | g :: K2, h => by
    have hp : cpar pp (K2 ++ f :: K) = cpar f.i K2 := by cases K2 <;> rfl
    rw [List.cons_append, CRep, CRep_append, hp, ptop]
    constructor
    · rintro ⟨a, b, c, d, e⟩
      exact ⟨⟨a, b, c, d⟩, e⟩
    · rintro ⟨⟨a, b, c, d⟩, e⟩
      exact ⟨a, b, c, d, e⟩

theorem cpar_append (pp : Nat) (f : Frame) (K K2 : List Frame) :
    cpar pp (K2 ++ f :: K) = cpar f.i K2 := by cases K2 <;> rfl

theorem ptop_append (f : Frame) (K : List Frame) : ∀ (K2 : List Frame) (h : Nat),
    ptop (K2 ++ f :: K) h = ptop K f.i
  | [], _ => rfl
  | g :: K2, _ => ptop_append f K K2 g.i

theorem count_idsC_append (x : Nat) (K : List Frame) : ∀ (K2 : List Frame),
    (idsC (K2 ++ K)).count x = (idsC K2).count x + (idsC K).count x
  | [] => by simp [idsC]
  | g :: K2 => by
    simp only [List.cons_append, idsC, List.count_cons, List.count_append, count_idsC_append x K K2]
    omega

theorem ptop_mem : ∀ {K : List Frame} {h : Nat}, K ≠ [] → ptop K h ∈ idsC K
  | [], h, hK => absurd rfl hK
  | [f], h, _ => by simp [ptop, idsC]
  | f :: g :: K, h, _ => by
    rw [ptop, idsC]
    have := ptop_mem (K := g :: K) (h := f.i) (by simp)
    simp [this]

/-- Changing the parent of the top of a path. -/
theorem CRep_reparent {m m' : Nat → Option RbNode} {pp p' : Nat} : ∀ {K : List Frame} {h : Nat} {n : RbNode},
    K ≠ [] → CRep m pp K h → (idsC K).Nodup → m (ptop K h) = some n →
    m' (ptop K h) = some { n with par := p' } → (∀ x, x ≠ ptop K h → m' x = m x) → CRep m' p' K h
  | [], _, _, hK, _, _, _, _, _ => absurd rfl hK
  | [f], h, n, _, hr, hn, e1, e2, ho => by
    obtain ⟨h1, h2, h3, _⟩ := hr
    simp only [ptop] at e1 e2 ho
    rw [h2] at e1
    cases e1
    refine ⟨h1, ?_, h3.frame fun x hx => ho x ?_, trivial⟩
    · rw [e2]
      cases f.d <;> rfl
    · intro e
      simp only [idsC, List.append_nil, List.nodup_cons] at hn
      exact hn.1 (by rw [← e]; exact hx)
  | f :: g :: K, h, n, _, hr, hn, e1, e2, ho => by
    obtain ⟨h1, h2, h3, h4⟩ := hr
    rw [ptop] at e1 e2 ho
    have htop : ptop (g :: K) f.i ∈ idsC (g :: K) := ptop_mem (by simp)
    have hn' := List.nodup_cons.1 hn
    have hn2 := List.nodup_append.1 hn'.2
    refine ⟨h1, ?_, h3.frame fun x hx => ho x ?_, CRep_reparent (by simp) h4 hn2.2.1 e1 e2 ho⟩
    · rw [ho f.i, h2]
      · rfl
      · intro e
        refine hn'.1 (List.mem_append.2 (Or.inr ?_))
        have e' : f.i = ptop (g :: K) f.i := e
        rw [e']
        exact htop
    · intro e
      exact hn2.2.2 x hx _ htop e

theorem CRep_top {m : Nat → Option RbNode} {pp : Nat} : ∀ {K : List Frame} {h : Nat}, K ≠ [] → CRep m pp K h →
    ptop K h ≠ 0 ∧ ∃ n, m (ptop K h) = some n
  | [], _, hK, _ => absurd rfl hK
  | [f], h, _, hr => ⟨hr.1, _, hr.2.1⟩
  | f :: g :: K, h, _, hr => CRep_top (K := g :: K) (h := f.i) (by simp) hr.2.2.2

theorem Holds.subPar {s0 s : St} {cs : List Comp} (h : Holds s0 s cs) (k : Nat) {pp : Nat} {K : List Frame}
    {hole : Nat} (p' : Nat) (hk : cs[k]? = some (Comp.sub pp K hole)) (hK : K ≠ []) :
    ∃ s', rbSetParent s (ptop K hole) p' = some s' ∧ Holds s0 s' (cs.set k (Comp.sub p' K hole)) := by
  have hr : CRep s.m pp K hole := h.at k hk
  obtain ⟨h0, n, hn⟩ := CRep_top hK hr
  refine ⟨Rb.upd s (ptop K hole) { n with par := p' }, ?_, h.step hk ?_ rfl ?_ fun _ => rfl⟩
  · simp [rbSetParent, Rb.get, h0, hn]
  · have hnd := h.nodup
    obtain ⟨a, b, e, _⟩ := split_of_getElem? hk
    rw [e] at hnd
    simp only [List.flatMap_append, List.flatMap_cons, Comp.ids] at hnd
    have h5 := (List.nodup_append.1 (List.nodup_append.1 hnd).2.1).1
    refine CRep_reparent hK hr h5 hn (by simp [Rb.upd]) fun x hx => by simp [Rb.upd, hx]
  · intro x hx
    have : x ≠ ptop K hole := fun e => hx (by rw [e]; exact ptop_mem hK)
    simp [Rb.upd, this]

theorem Holds.subHole {s0 s : St} {cs : List Comp} (h : Holds s0 s cs) (k : Nat) {pp : Nat} {f : Frame}
    {K : List Frame} {hole : Nat} (v : Nat) (hk : cs[k]? = some (Comp.sub pp (f :: K) hole)) (hd : f.d = false) :
    ∃ s', setLeft s f.i v = some s' ∧ Holds s0 s' (cs.set k (Comp.sub pp (f :: K) v)) := by
  obtain ⟨h1, h2, h3, h4⟩ : CRep s.m pp (f :: K) hole := h.at k hk
  refine ⟨Rb.upd s f.i (nd f.d (cpar pp K) f.c v (ptr f.sib)), ?_, h.step hk ?_ rfl ?_ fun _ => rfl⟩
  · simp [setLeft, Rb.get, h1, h2, hd, nd]
  · have hnd := h.nodup
    obtain ⟨a, b, e, _⟩ := split_of_getElem? hk
    rw [e] at hnd
    simp only [List.flatMap_append, List.flatMap_cons, Comp.ids] at hnd
    have h5 := (List.nodup_append.1 (List.nodup_append.1 hnd).2.1).1
    have h6 := (List.nodup_cons.1 h5).1
    refine ⟨h1, by simp [Rb.upd], h3.frame fun x hx => ?_, h4.frame fun x hx => ?_⟩
    · have : x ≠ f.i := fun e => h6 (by rw [← e]; simp [hx])
      simp [Rb.upd, this]
    · have : x ≠ f.i := fun e => h6 (by rw [← e]; simp [hx])
      simp [Rb.upd, this]
  · intro x hx
    have : x ≠ f.i := fun e => hx (by simp [Comp.ids, idsC, e])
    simp [Rb.upd, this]

theorem eraseSplice_ok {s0 s : St} {K K2 : List Frame} {n su y x z : Nat} {c sc : Bool} {l rr : Tree}
    (hl : l ≠ leaf)
    (h : Holds s0 s [ctx K n, cell n (nd false (cpar 0 K) c (ptr l) y), tree n l, Comp.sub su K2 (ptr rr),
      cell su (nd false x sc 0 (ptop K2 (ptr rr))), tree z rr]) :
    ∃ s', eraseSplice s n su (cpar su K2) (ptr rr) =
        some (s', if rr = leaf ∧ sc = true then cpar su K2 else 0) ∧
      Holds s0 s' [ctx (K2 ++ ⟨true, c, su, l⟩ :: K) (ptr rr),
        tree (cpar 0 (K2 ++ ⟨true, c, su, l⟩ :: K)) (blacken rr),
        cell n (nd false (cpar 0 K) c (ptr l) y)] := by
  have hn0 := h.ne_zero 1 rfl
  have hnK : n ∉ idsC K := fun hm => h.disj (j := 0) (k := 1) (by omega) rfl rfl n (by simp [Comp.ids, hm])
    (by simp [Comp.ids])
  have hgn := h.get 1 rfl
  have hl0 : ptr l ≠ 0 := fun e => hl ((Rep.ptr_zero (h.at 2 rfl : Rep s.m n l)).1 e)
  obtain ⟨s1, e1, h1⟩ := h.setNear 4 (ptr l) rfl
  obtain ⟨s2, e2, h2⟩ := h1.treePar 2 su rfl hl0
  have hgn2 := h2.get 1 rfl
  obtain ⟨s3, e3, h3⟩ := h2.changeChild 0 su rfl hnK hn0
  have hgs := h3.get 4 rfl
  obtain ⟨s4, e4, h4⟩ := h3.setParCol 4 (cpar 0 K) c rfl
  have e1' : setLeft s su (ptr l) = some s1 := e1
  have hfold : ∀ {s' : St}, Holds s0 s' [ctx K su, cell n (nd false (cpar 0 K) c (ptr l) y), tree su l,
      Comp.sub su K2 (ptr rr), cell su (nd false (cpar 0 K) c (ptr l) (ptop K2 (ptr rr))),
      tree (cpar su K2) (blacken rr)] → Holds s0 s' [ctx (K2 ++ ⟨true, c, su, l⟩ :: K) (ptr rr),
        tree (cpar 0 (K2 ++ ⟨true, c, su, l⟩ :: K)) (blacken rr),
        cell n (nd false (cpar 0 K) c (ptr l) y)] := by
    intro s' h
    refine h.refold ?_ ?_
    · intro x
      simp [Comp.ids, List.count_cons, List.count_append, count_idsC_append, idsC]
      omega
    · intro c' hc
      simp only [List.mem_cons, List.not_mem_nil, or_false] at hc
      rcases hc with rfl | rfl | rfl
      · obtain ⟨hK, hroot⟩ := h.at 0 rfl
        refine ⟨CRep_append.2 ⟨h.at 3 rfl, h.ne_zero 4 rfl, (h.at 4 rfl).2, h.at 2 rfl, hK⟩, ?_⟩
        rw [hroot, ptop_append]
      · rw [cpar_append]
        exact h.at 5 rfl
      · exact h.at 1 rfl
  by_cases hr : rr = leaf
  · subst hr
    refine ⟨s4, ?_, hfold ?_⟩
    · have hp : ptr leaf = 0 := rfl
      rw [hp] at hgs
      simp [eraseSplice, hgn, e1', e2, hgn2, e3, hgs, e4, hp]
    · refine h4.refold (fun _ => rfl) ?_
      intro c' hc
      simp only [List.mem_cons, List.not_mem_nil, or_false] at hc
      rcases hc with rfl | rfl | rfl | rfl | rfl | rfl
      · exact h4.at 0 rfl
      · exact h4.at 1 rfl
      · exact h4.at 2 rfl
      · exact h4.at 3 rfl
      · exact h4.at 4 rfl
      · trivial
  · have hr0 : ptr rr ≠ 0 := fun e => hr ((Rep.ptr_zero (h.at 5 rfl : Rep s.m z rr)).1 e)
    obtain ⟨s5, e5, h5⟩ := h4.treeSet 5 (cpar su K2) true rfl hr0
    rw [← blacken_eq] at h5
    refine ⟨s5, ?_, hfold h5⟩
    simp [eraseSplice, hgn, e1', e2, hgn2, e3, hr0, e4, e5, hr]

/-- Looking only at some of the parts. -/
theorem Holds.rebase {s0 s : St} {cs cs' : List Comp} (h : Holds s0 s (cs ++ cs')) : Holds s s cs := by
  refine ⟨fun c hc => h.each c (by simp [hc]), ?_, fun _ _ _ => rfl⟩
  have := h.nodup
  rw [List.flatMap_append] at this
  exact (List.nodup_append.1 this).1

theorem eraseSpot_node {K : List Frame} {c : Bool} {t : Tree} (h : t ≠ leaf) :
    eraseSpot K c t = some (plug K t) := by
  cases t with
  | leaf => exact absurd rfl h
  | node => rfl

/-- The end of `rb_erase`. -/
theorem eraseSpot_ok {s0 s s' : St} {K : List Frame} {c : Bool} {t T : Tree} {n : Nat} {nn : RbNode} {reb : Nat}
    (h : Holds s0 s' [ctx K (ptr t), tree (cpar 0 K) t, cell n nn]) (hT : eraseSpot K c t = some T)
    (hreb : reb = if t = leaf ∧ c = true then cpar 0 K else 0)
    (he : rbErase0 s n = some (s', reb)) :
    ∃ s'', rbErase s n = some s'' ∧ RepT s' s'' T ∧ s''.m n = some nn ∧ n ∉ ids T ∧
      (∀ x, x ≠ 0 → x ≠ n → x ∉ ids T → s''.m x = s0.m x) := by
  have hb : Holds s' s' [ctx K (ptr t), tree (cpar 0 K) t] := Holds.rebase (cs' := [cell n nn]) h
  have hn0 := h.ne_zero 2 rfl
  have hids : ∀ {T' : Tree} {s2 : St}, RepT s' s2 T' → (∀ x, (ids T').count x = (ids t).count x + (idsC K).count x) →
      s2.m n = some nn ∧ n ∉ ids T' ∧ (∀ x, x ≠ 0 → x ≠ n → x ∉ ids T' → s2.m x = s0.m x) := by
    intro T' s2 hr hcnt
    have hmem : ∀ x, x ∈ ids T' ↔ x ∈ ids t ∨ x ∈ idsC K := by
      intro x
      rw [← List.count_pos_iff, ← List.count_pos_iff, ← List.count_pos_iff, hcnt]
      omega
    have hnot : n ∉ ids T' := by
      rw [hmem]
      rintro (hm | hm)
      · exact h.disj (j := 1) (k := 2) (by omega) rfl rfl n hm (by simp [Comp.ids])
      · exact h.disj (j := 0) (k := 2) (by omega) rfl rfl n (by simp [Comp.ids, hm]) (by simp [Comp.ids])
    refine ⟨?_, hnot, ?_⟩
    · rw [hr.outside n hn0 (by simp [Comp.ids, idsC, hnot, hn0])]
      exact (h.at 2 rfl).2
    · intro x hx0 hxn hx
      rw [hr.outside x hx0 (by simp [Comp.ids, idsC, hx, hx0])]
      refine h.outside x hx0 ?_
      rw [hmem] at hx
      simp only [List.flatMap_cons, List.flatMap_nil, Comp.ids, List.mem_append, List.mem_cons,
        List.not_mem_nil, or_false, not_or] at hx ⊢
      exact ⟨⟨hx0, hx.2⟩, hx.1, hxn⟩
  have hdone : reb = 0 → T = plug K t → ∃ s'', rbErase s n = some s'' ∧ RepT s' s'' T ∧ s''.m n = some nn ∧
      n ∉ ids T ∧ (∀ x, x ≠ 0 → x ≠ n → x ∉ ids T → s''.m x = s0.m x) := by
    intro h0 hT
    subst hT
    have hr := RepT_plug.2 hb
    obtain ⟨a1, a2, a3⟩ := hids hr fun x => count_ids_plug x K t
    exact ⟨s', by simp [rbErase, he, h0], hr, a1, a2, a3⟩
  by_cases ht : t = leaf
  · subst ht
    cases c
    · simp only [eraseSpot, Bool.false_eq_true, if_false, Option.some.injEq] at hT
      exact hdone (by simp [hreb]) hT.symm
    · simp only [eraseSpot, if_true] at hT
      by_cases hK : K = []
      · subst hK
        rw [eraseFix] at hT
        cases hT
        exact hdone (by simp [hreb, cpar]) rfl
      · have hc0 : cpar 0 K ≠ 0 := fun e => hK ((cpar_zero (h.at 0 rfl).1).1 e)
        obtain ⟨s2, e2, hr⟩ := eraseLoop_ok K leaf T s' hK hb hT
        have hcnt : ∀ x, (ids T).count x = (ids leaf).count x + (idsC K).count x := by
          intro x
          rw [ids_eraseFix hT, count_ids_plug]
        obtain ⟨a1, a2, a3⟩ := hids hr hcnt
        refine ⟨s2, ?_, hr, a1, a2, a3⟩
        simp only [ptr] at e2
        simp [rbErase, he, hreb, hc0, e2]
  · rw [eraseSpot_node ht] at hT
    cases hT
    exact hdone (by simp [hreb, ht]) rfl

/-- `rb_erase` refines `eraseTree`. -/
theorem rbErase_ok {s0 s : St} {K : List Frame} {c : Bool} {l r T : Tree} {n : Nat}
    (h : RepT s0 s (plug K (node c l n r))) (hT : eraseTree K c l r = some T) :
    ∃ s' s1, rbErase s n = some s' ∧ RepT s1 s' T ∧ s'.m n = s.m n ∧ n ∉ ids T ∧
      (∀ x, x ≠ 0 → x ≠ n → x ∉ ids T → s'.m x = s0.m x) := by
  have h0 : Holds s0 s [ctx K n, tree (cpar 0 K) (node c l n r)] := RepT_plug.1 h
  have h1 : Holds s0 s [cell n (nd false (cpar 0 K) c (ptr l) (ptr r)), tree n l, tree n r, ctx K n] :=
    Holds.untree (d := false) (h0.front 1 rfl)
  have hg := h1.get 0 rfl
  have hn0 := h1.ne_zero 0 rfl
  have hmn : s.m n = some (nd false (cpar 0 K) c (ptr l) (ptr r)) := (h1.at 0 rfl).2
  have hnK : n ∉ idsC K := fun hm => h1.disj (j := 0) (k := 3) (by omega) rfl rfl n (by simp [Comp.ids])
    (by simp [Comp.ids, hm])
  have hrl : Rep s.m n l := h1.at 1 rfl
  have hrr : Rep s.m n r := h1.at 2 rfl
  cases l with
  | leaf =>
    rw [eraseTree] at hT
    obtain ⟨s1, e1, k1⟩ := h1.changeChild 3 (ptr r) rfl hnK hn0
    have hp : ptr leaf = 0 := rfl
    by_cases hr : r = leaf
    · subst hr
      have k2 : Holds s0 s1 [ctx K (ptr leaf), tree (cpar 0 K) leaf,
          cell n (nd false (cpar 0 K) c (ptr leaf) (ptr leaf))] := by
        refine k1.refold (by intro x; simp [Comp.ids, Tree.ids, List.count_cons, List.count_append]; omega) ?_
        intro c' hc
        simp only [List.mem_cons, List.not_mem_nil, or_false] at hc
        rcases hc with rfl | rfl | rfl
        · exact k1.at 3 rfl
        · trivial
        · exact k1.at 0 rfl
      rw [hp] at hg e1
      obtain ⟨s2, a1, a2, a3, a4, a5⟩ := eraseSpot_ok k2 hT rfl
        (s := s) (by cases c <;> simp [rbErase0, hg, e1])
      exact ⟨s2, s1, a1, a2, by rw [a3, hmn], a4, a5⟩
    · have hr0 : ptr r ≠ 0 := fun e => hr (hrr.ptr_zero.1 e)
      obtain ⟨s2, e2, k2⟩ := k1.treeSet 2 (cpar 0 K) c rfl hr0
      have k3 : Holds s0 s2 [ctx K (ptr (recolor c r)), tree (cpar 0 K) (recolor c r),
          cell n (nd false (cpar 0 K) c (ptr leaf) (ptr r))] := by
        rw [ptr_recolor]
        refine k2.refold (by intro x; simp [Comp.ids, Tree.ids, List.count_cons, List.count_append]; omega) ?_
        intro c' hc
        simp only [List.mem_cons, List.not_mem_nil, or_false] at hc
        rcases hc with rfl | rfl | rfl
        · exact k2.at 3 rfl
        · exact k2.at 2 rfl
        · exact k2.at 0 rfl
      have hne : recolor c r ≠ leaf := by
        cases r with
        | leaf => exact absurd rfl hr
        | node => simp [recolor]
      rw [hp] at hg
      obtain ⟨s3, a1, a2, a3, a4, a5⟩ := eraseSpot_ok k3 hT rfl
        (s := s) (by simp [rbErase0, hg, e1, hr0, e2, hne])
      exact ⟨s3, s2, a1, a2, by rw [a3, hmn], a4, a5⟩
  | node lc ll li lr =>
    have hl0 : ptr (node lc ll li lr) ≠ 0 := hrl.1
    cases r with
    | leaf =>
      have hp : ptr leaf = 0 := rfl
      simp only [eraseTree] at hT
      obtain ⟨s1, e1, k1⟩ := h1.treeSet 1 (cpar 0 K) c rfl hl0
      obtain ⟨s2, e2, k2⟩ := k1.changeChild 3 li rfl hnK hn0
      have k3 : Holds s0 s2 [ctx K (ptr (recolor c (node lc ll li lr))),
          tree (cpar 0 K) (recolor c (node lc ll li lr)),
          cell n (nd false (cpar 0 K) c (ptr (node lc ll li lr)) (ptr leaf))] := by
        refine k2.refold (by intro x; simp [Comp.ids, Tree.ids, List.count_cons, List.count_append]; omega) ?_
        intro c' hc
        simp only [List.mem_cons, List.not_mem_nil, or_false] at hc
        rcases hc with rfl | rfl | rfl
        · exact k2.at 3 rfl
        · exact k2.at 1 rfl
        · exact k2.at 0 rfl
      rw [hp] at hg
      have hli : li ≠ 0 := hl0
      simp only [ptr] at hg e1
      obtain ⟨s3, a1, a2, a3, a4, a5⟩ := eraseSpot_ok (c := c) k3 (T := T)
        (by rw [eraseSpot_node (by simp [recolor])]; exact hT) rfl
        (s := s) (by simp [rbErase0, hg, e1, hli, e2, recolor])
      exact ⟨s3, s2, a1, a2, by rw [a3, hmn], a4, a5⟩
    | node rc rl ri rr =>
      simp only [eraseTree] at hT
      -- the successor
      have hpm := plug_popMin rl [] rc ri rr
      have hleft := popMin_left rl [] rc ri rr (by simp)
      have hri0 : ri ≠ 0 := hrr.1
      have hgc : get s ri = some ⟨n, rc, ptr rl, ptr rr⟩ := by rw [get, if_neg hri0, hrr.2.1]
      have hli : li ≠ 0 := hl0
      simp only [ptr] at hg
      have hsucc : rl ≠ leaf → succLoop s ri (ptr rl) =
          some (cpar n (popMin [] rc rl ri rr).1, (popMin [] rc rl ri rr).2.2.1) ∧
          (popMin [] rc rl ri rr).1 ≠ [] := by
        intro hrl'
        cases rl with
        | leaf => exact absurd rfl hrl'
        | node c2 l2 i2 r2 =>
          have := succLoop_ok (s := s) (pp := n) l2 [⟨false, rc, ri, rr⟩] c2 i2 r2 hrr.2.2.1
          rw [cpar] at this
          rw [popMin]
          exact ⟨this, popMin_ne _ _ _ _ _ (by simp)⟩
      have hnil : rl = leaf → (popMin [] rc rl ri rr).1 = [] ∧ (popMin [] rc rl ri rr).2.2.1 = ri ∧
          (popMin [] rc rl ri rr).2.2.2 = rr := by
        intro e
        subst e
        exact ⟨rfl, rfl, rfl⟩
      revert hT hpm hleft hsucc hnil
      generalize popMin [] rc rl ri rr = q
      obtain ⟨K2, sc, su, rr2⟩ := q
      intro hT hpm hleft hsucc hnil
      simp only [plug] at hpm hT hleft hsucc hnil
      have hrr' := hrr
      rw [← hpm] at hrr'
      rw [Rep_plug] at hrr'
      obtain ⟨hsub, hsu0, hmsu, _, hrr2⟩ := hrr'
      have hptr : ptop K2 su = ri := by
        have := congrArg ptr hpm
        rw [ptr_plug] at this
        exact this
      have k0 : Holds s0 s [ctx K n, cell n (nd false (cpar 0 K) c li ri), tree n (node lc ll li lr),
          Comp.sub n K2 su, cell su (nd false (cpar n K2) sc 0 (ptr rr2)), tree su rr2] := by
        refine h1.refold ?_ ?_
        · intro x
          have hcnt : (Tree.ids (node rc rl ri rr)).count x =
              (Tree.ids (node sc leaf su rr2)).count x + (idsC K2).count x := by rw [← hpm, count_ids_plug]
          simp only [List.flatMap_cons, List.flatMap_nil, Comp.ids, List.count_append, List.count_cons,
            List.count_nil, Tree.ids] at hcnt ⊢
          omega
        · intro c' hc
          simp only [List.mem_cons, List.not_mem_nil, or_false] at hc
          rcases hc with rfl | rfl | rfl | rfl | rfl | rfl
          · exact h1.at 3 rfl
          · exact h1.at 0 rfl
          · exact h1.at 1 rfl
          · exact hsub
          · exact ⟨hsu0, hmsu⟩
          · exact hrr2
      by_cases hrl' : rl = leaf
      · obtain ⟨e1, e2, e3⟩ := hnil hrl'
        subst e1
        subst e2
        subst e3
        subst hrl'
        have k1 : Holds s0 s [ctx K n, cell n (nd false (cpar 0 K) c (ptr (node lc ll li lr)) su),
            tree n (node lc ll li lr), Comp.sub su [] (ptr rr2),
            cell su (nd false n sc 0 (ptop [] (ptr rr2))), tree su rr2] := by
          refine k0.refold (fun _ => rfl) ?_
          intro c' hc
          simp only [List.mem_cons, List.not_mem_nil, or_false] at hc
          rcases hc with rfl | rfl | rfl | rfl | rfl | rfl
          · exact k0.at 0 rfl
          · exact k0.at 1 rfl
          · exact k0.at 2 rfl
          · trivial
          · exact k0.at 4 rfl
          · exact k0.at 5 rfl
        obtain ⟨s1, e1, k2⟩ := eraseSplice_ok (by simp) k1
        simp only [cpar] at e1
        rw [← ptr_blacken] at k2
        obtain ⟨s2, a1, a2, a3, a4, a5⟩ := eraseSpot_ok k2 hT rfl (s := s) (by
          have hb : blacken rr2 = leaf ↔ rr2 = leaf := by cases rr2 <;> simp [blacken]
          have hp : ptr leaf = 0 := rfl
          simp [rbErase0, hg, hli, hri0, hgc, e1, hp, hb, cpar])
        exact ⟨s2, s1, a1, a2, by rw [a3, hmn]; rfl, a4, a5⟩
      · obtain ⟨hsl, hK2⟩ := hsucc hrl'
        have hrl0 : ptr rl ≠ 0 := fun e => hrl' (hrr.2.2.1.ptr_zero.1 e)
        cases K2 with
        | nil => exact absurd rfl hK2
        | cons f K2 =>
        have hfd : f.d = false := hleft f (by simp)
        have hgsu := k0.get 4 rfl
        obtain ⟨s1, e1, k1⟩ := k0.subHole 3 (ptr rr2) rfl hfd
        obtain ⟨s2, e2, k2⟩ := k1.setFar 4 ri rfl
        obtain ⟨s3, e3, k3⟩ := k2.subPar 3 su rfl (by simp)
        have hptr' : ptop (f :: K2) (ptr rr2) = ri := hptr
        have k4 : Holds s0 s3 [ctx K n, cell n (nd false (cpar 0 K) c (ptr (node lc ll li lr)) ri),
            tree n (node lc ll li lr), Comp.sub su (f :: K2) (ptr rr2),
            cell su (nd false (cpar n (f :: K2)) sc 0 (ptop (f :: K2) (ptr rr2))), tree su rr2] := by
          rw [hptr']
          exact k3
        obtain ⟨s4, e4, k5⟩ := eraseSplice_ok (by simp) k4
        rw [hptr'] at e3
        rw [← ptr_blacken] at k5
        have e2' : setRight s1 su ri = some s2 := e2
        simp only [cpar] at e4 hsl
        obtain ⟨s5, a1, a2, a3, a4, a5⟩ := eraseSpot_ok k5 hT rfl (s := s) (by
          have hb : blacken rr2 = leaf ↔ rr2 = leaf := by cases rr2 <;> simp [blacken]
          simp [rbErase0, hg, hli, hri0, hgc, hrl0, hsl, hgsu, e1, e2', e3, e4, hb, cpar])
        exact ⟨s5, s4, a1, a2, by rw [a3, hmn]; rfl, a4, a5⟩

end Ulp.Rb
