/-
Walking over a tree, and freeing one.
-/
import Verif.Proof.RbOps
namespace Ulp.Rb
open Tree
open Comp (ctx cell tree)

/-- The first of a list of nodes, NULL if there is none. -/
def hd : List Nat → Nat
  | [] => 0
  | x :: _ => x

theorem hd_append {a : List Nat} (b : List Nat) (h : a ≠ []) : hd (a ++ b) = hd a := by
  cases a with
  | nil => exact absurd rfl h
  | cons => rfl

theorem ids_ne_nil (c : Bool) (l : Tree) (i : Nat) (r : Tree) : ids (node c l i r) ≠ [] := by
  simp [ids]

theorem goLeft_ok {s : St} : ∀ {l r : Tree} {i par : Nat} {c : Bool}, Rep s.m par (node c l i r) →
    goLeft s i = some (hd (ids (node c l i r)))
  | leaf, r, i, par, c, h => by
    rw [goLeft, get, if_neg h.1, h.2.1]
    simp [ptr, ids, hd]
  | node c2 l2 i2 r2, r, i, par, c, h => by
    rw [goLeft, get, if_neg h.1, h.2.1]
    simp only [Option.bind_eq_bind, Option.bind_some, ptr, ne_eq, h.2.2.1.1, not_false_eq_true, if_true]
    rw [goLeft_ok h.2.2.1, ids.eq_2 c, hd_append _ (ids_ne_nil _ _ _ _)]

theorem goRight_ok {s : St} : ∀ {r l : Tree} {i par : Nat} {c : Bool}, Rep s.m par (node c l i r) →
    goRight s i = some (hd (ids (node c l i r)).reverse)
  | leaf, l, i, par, c, h => by
    rw [goRight, get, if_neg h.1, h.2.1]
    simp [ptr, ids, hd]
  | node c2 l2 i2 r2, l, i, par, c, h => by
    rw [goRight, get, if_neg h.1, h.2.1]
    simp only [Option.bind_eq_bind, Option.bind_some, ptr, ne_eq, h.2.2.2.1, not_false_eq_true, if_true]
    rw [goRight_ok h.2.2.2, ids.eq_2 c, List.reverse_append, List.reverse_cons, List.append_assoc,
      hd_append _ (by simp [ids])]

theorem ptr_mem {t : Tree} (h : ptr t ≠ 0) : ptr t ∈ ids t := by
  cases t with
  | leaf => exact absurd rfl h
  | node => simp [ptr, ids]

theorem nodup_tail {p : Nat} {f : Frame} {K : List Frame} (h : (p :: idsC (f :: K)).Nodup) :
    (f.i :: idsC K).Nodup := by
  have h1 := (List.nodup_cons.1 h).2
  rw [idsC] at h1
  obtain ⟨h2, h3⟩ := List.nodup_cons.1 h1
  exact List.nodup_cons.2 ⟨fun hm => h2 (by simp [hm]), (List.nodup_append.1 h3).2.1⟩

theorem ne_sib {p : Nat} {f : Frame} {K : List Frame} (h : (p :: idsC (f :: K)).Nodup) (hp : p ≠ 0) :
    p ≠ ptr f.sib := by
  intro e
  have := ptr_mem (t := f.sib) (by rw [← e]; exact hp)
  refine (List.nodup_cons.1 h).1 ?_
  rw [idsC, e]
  simp [this]

theorem nextUp_ok {s : St} : ∀ {K : List Frame} {p : Nat} {n : RbNode}, CRep s.m 0 K p → p ≠ 0 → s.m p = some n →
    n.par = cpar 0 K → (p :: idsC K).Nodup → nextUp s p = some (hd (rgt K))
  | [], p, n, _, hp, hn, hpar, _ => by
    rw [nextUp, get, if_neg hp, hn]
    simp [hpar, cpar, rgt, hd]
  | f :: K, p, n, h, hp, hn, hpar, hr => by
    have hps := ne_sib hr hp
    obtain ⟨h1, h2, h3, h4⟩ := h
    rw [nextUp, get, if_neg hp, hn]
    simp only [Option.bind_eq_bind, Option.bind_some, hpar, cpar, h1, if_false, get, h2]
    cases hd' : f.d
    · simp [nd, hps, rgt, hd', hd]
    · simp only [nd, if_true]
      rw [rgt, hd', if_pos rfl]
      exact nextUp_ok h4 h1 h2 (by simp) (nodup_tail hr)

theorem prevUp_ok {s : St} : ∀ {K : List Frame} {p : Nat} {n : RbNode}, CRep s.m 0 K p → p ≠ 0 → s.m p = some n →
    n.par = cpar 0 K → (p :: idsC K).Nodup → prevUp s p = some (hd (lft K).reverse)
  | [], p, n, _, hp, hn, hpar, _ => by
    rw [prevUp, get, if_neg hp, hn]
    simp [hpar, cpar, lft, hd]
  | f :: K, p, n, h, hp, hn, hpar, hr => by
    have hps := ne_sib hr hp
    obtain ⟨h1, h2, h3, h4⟩ := h
    rw [prevUp, get, if_neg hp, hn]
    simp only [Option.bind_eq_bind, Option.bind_some, hpar, cpar, h1, if_false, get, h2]
    cases hd' : f.d
    · simp only [nd, if_false, Bool.false_eq_true, if_true]
      rw [lft, hd', if_neg (by simp)]
      exact prevUp_ok h4 h1 h2 (by simp) (nodup_tail hr)
    · simp [nd, hps, lft, hd', hd]

/-- What is known about a node of a tree. -/
theorem node_of_tree {s : St} {K : List Frame} {c : Bool} {l r : Tree} {n : Nat}
    (h : IsTree s (plug K (node c l n r))) : CRep s.m 0 K n ∧ Rep s.m (cpar 0 K) (node c l n r) ∧
      (n :: idsC K).Nodup ∧ n ≠ cpar 0 K := by
  obtain ⟨h1, h2⟩ := Rep_plug.1 h.rep
  have hn : (n :: idsC K).Nodup := by
    have hnd := h.nodup
    rw [List.nodup_iff_count] at hnd ⊢
    intro a
    have := hnd a
    rw [count_ids_plug] at this
    simp only [ids, List.count_append, List.count_cons] at this ⊢
    omega
  refine ⟨h1, h2, hn, ?_⟩
  cases K with
  | nil => exact h2.1
  | cons f K =>
    intro e
    refine (List.nodup_cons.1 hn).1 ?_
    rw [e]
    simp [cpar, idsC]

theorem rbNext_ok {s : St} {K : List Frame} {c : Bool} {l r : Tree} {n : Nat}
    (h : IsTree s (plug K (node c l n r))) : rbNext s n = some (hd (ids r ++ rgt K)) := by
  obtain ⟨h1, h2, hn, hne⟩ := node_of_tree h
  rw [rbNext, get, if_neg h2.1, h2.2.1]
  simp only [Option.bind_eq_bind, Option.bind_some, emptyNode]
  rw [if_neg (by simp [Ne.symm hne])]
  cases r with
  | leaf =>
    rw [if_neg (by simp [ptr]), nextUp_ok h1 h2.1 h2.2.1 rfl hn]
    rfl
  | node rc rl ri rr =>
    rw [if_pos (by simpa [ptr] using h2.2.2.2.1), hd_append _ (ids_ne_nil _ _ _ _)]
    exact goLeft_ok h2.2.2.2

theorem rbPrev_ok {s : St} {K : List Frame} {c : Bool} {l r : Tree} {n : Nat}
    (h : IsTree s (plug K (node c l n r))) : rbPrev s n = some (hd (lft K ++ ids l).reverse) := by
  obtain ⟨h1, h2, hn, hne⟩ := node_of_tree h
  rw [rbPrev, get, if_neg h2.1, h2.2.1]
  simp only [Option.bind_eq_bind, Option.bind_some, emptyNode]
  rw [if_neg (by simp [Ne.symm hne])]
  cases l with
  | leaf =>
    rw [if_neg (by simp [ptr]), prevUp_ok h1 h2.1 h2.2.1 rfl hn]
    simp [ids]
  | node rc rl ri rr =>
    rw [if_pos (by simpa [ptr] using h2.2.2.1.1), List.reverse_append, hd_append _ (by simp [ids])]
    exact goRight_ok h2.2.2.1

/-- `rb_next` in terms of the sequence of nodes. -/
theorem rbNext_seq {s : St} {t : Tree} {a b : List Nat} {n : Nat} (h : IsTree s t) (e : ids t = a ++ n :: b) :
    rbNext s n = some (hd b) := by
  obtain ⟨K, c, l, r, rfl⟩ := exists_plug (t := t) (n := n) (by rw [e]; simp)
  have e' : ids (plug K (node c l n r)) = (lft K ++ ids l) ++ n :: (ids r ++ rgt K) := by
    rw [ids_plug]; simp [ids]
  rw [(split_unique e e' h.nodup).2]
  exact rbNext_ok h

theorem rbPrev_seq {s : St} {t : Tree} {a b : List Nat} {n : Nat} (h : IsTree s t) (e : ids t = a ++ n :: b) :
    rbPrev s n = some (hd a.reverse) := by
  obtain ⟨K, c, l, r, rfl⟩ := exists_plug (t := t) (n := n) (by rw [e]; simp)
  have e' : ids (plug K (node c l n r)) = (lft K ++ ids l) ++ n :: (ids r ++ rgt K) := by
    rw [ids_plug]; simp [ids]
  rw [(split_unique e e' h.nodup).1]
  exact rbPrev_ok h

theorem rbFirst_ok {s : St} {t : Tree} (h : IsTree s t) : rbFirst s = some (hd (ids t)) := by
  rw [rbFirst, h.root]
  cases t with
  | leaf => simp [ptr, ids, hd]
  | node c l i r =>
    rw [if_neg (show ptr (node c l i r) ≠ 0 from h.rep.1)]
    exact goLeft_ok h.rep

theorem rbLast_ok {s : St} {t : Tree} (h : IsTree s t) : rbLast s = some (hd (ids t).reverse) := by
  rw [rbLast, h.root]
  cases t with
  | leaf => simp [ptr, ids, hd]
  | node c l i r =>
    rw [if_neg (show ptr (node c l i r) ≠ 0 from h.rep.1)]
    exact goRight_ok h.rep

theorem hd_ne_zero {s : St} {t : Tree} (h : IsTree s t) {x : Nat} {b : List Nat} (hs : ∀ y ∈ x :: b, y ∈ ids t) :
    hd (x :: b) ≠ 0 := h.rep.ne_zero x (hs x (by simp))

/-! Post-order -/

theorem leftDeepest_ok {s : St} : ∀ {t : Tree} {par : Nat}, t ≠ leaf → Rep s.m par t →
    leftDeepest s (ptr t) = some (hd (post t))
  | leaf, _, h, _ => absurd rfl h
  | node c leaf i leaf, par, _, h => by
    rw [leftDeepest, ptr, get, if_neg h.1, h.2.1]
    simp [ptr, post, hd]
  | node c leaf i (node c2 l2 i2 r2), par, _, h => by
    rw [leftDeepest, ptr, get, if_neg h.1, h.2.1]
    have := leftDeepest_ok (t := node c2 l2 i2 r2) (by simp) h.2.2.2
    simp only [ptr] at this
    simp only [Option.bind_eq_bind, Option.bind_some, ptr, ne_eq, not_true, if_false, h.2.2.2.1, not_false_eq_true,
      if_true, this]
    simp only [post.eq_2 c, post.eq_1, List.nil_append]
    rw [hd_append _ (by simp [post])]
  | node c (node c2 l2 i2 r2) i r, par, _, h => by
    rw [leftDeepest, ptr, get, if_neg h.1, h.2.1]
    have := leftDeepest_ok (t := node c2 l2 i2 r2) (by simp) h.2.2.1
    simp only [ptr] at this
    simp only [Option.bind_eq_bind, Option.bind_some, ptr, ne_eq, h.2.2.1.1, not_false_eq_true,
      if_true, this]
    rw [post.eq_2 c, List.append_assoc, hd_append _ (by simp [post])]

/-- What post-order visits before and after the subtree at the end of a path. -/
def preP : List Frame → List Nat
  | [] => []
  | f :: K => preP K ++ (if f.d then post f.sib else [])

def postP : List Frame → List Nat
  | [] => []
  | f :: K => (if f.d then [] else post f.sib) ++ f.i :: postP K

theorem post_plug : ∀ (K : List Frame) (t : Tree), post (plug K t) = preP K ++ post t ++ postP K
  | [], t => by simp [plug, preP, postP]
  | f :: K, t => by
    rw [plug, post_plug K, preP, postP]
    cases f.d <;> simp [Tree.mk, post]

theorem count_post (x : Nat) : ∀ t : Tree, (post t).count x = (ids t).count x
  | leaf => rfl
  | node c l i r => by
    simp only [post, ids, List.count_append, List.count_cons, List.count_nil, count_post x l, count_post x r]
    omega

theorem post_perm (t : Tree) : (post t).Perm (ids t) := List.perm_iff_count.2 fun x => count_post x t

theorem rbNextPostorder_ok {s : St} {K : List Frame} {c : Bool} {l r : Tree} {n : Nat}
    (h : IsTree s (plug K (node c l n r))) : rbNextPostorder s n = some (hd (postP K)) := by
  obtain ⟨h1, h2, hn, hne⟩ := node_of_tree h
  rw [rbNextPostorder, if_neg h2.1, get, if_neg h2.1, h2.2.1]
  simp only [Option.bind_eq_bind, Option.bind_some]
  cases K with
  | nil => simp [cpar, postP, hd]
  | cons f K =>
    have hps := ne_sib hn h2.1
    obtain ⟨g1, g2, g3, g4⟩ := h1
    simp only [cpar, g1, if_false, get, g2, Option.bind_some]
    cases hd' : f.d
    · simp only [nd, Bool.false_eq_true, if_false, true_and]
      simp only [postP, hd', Bool.false_eq_true, if_false]
      cases hs : f.sib with
      | leaf => simp [hs, ptr, post, hd]
      | node c2 l2 i2 r2 =>
        rw [hs] at g3
        rw [if_pos (by simpa [ptr] using g3.1), hd_append _ (by simp [post])]
        exact leftDeepest_ok (by simp) g3
    · simp [nd, hps, postP, hd', hd]

theorem rbNextPostorder_seq {s : St} {t : Tree} {a b : List Nat} {n : Nat} (h : IsTree s t)
    (e : post t = a ++ n :: b) : rbNextPostorder s n = some (hd b) := by
  obtain ⟨K, c, l, r, rfl⟩ := exists_plug (t := t) (n := n) ((post_perm t).mem_iff.1 (by rw [e]; simp))
  have e' : post (plug K (node c l n r)) = (preP K ++ post l ++ post r) ++ n :: postP K := by
    rw [post_plug]; simp [post]
  rw [(split_unique e e' ((post_perm _).nodup_iff.2 h.nodup)).2]
  exact rbNextPostorder_ok h

theorem rbFirstPostorder_ok {s : St} {t : Tree} (h : IsTree s t) : rbFirstPostorder s = some (hd (post t)) := by
  rw [rbFirstPostorder, h.root]
  cases t with
  | leaf => simp [ptr, post, hd]
  | node c l i r =>
    rw [if_neg (show ptr (node c l i r) ≠ 0 from h.rep.1)]
    exact leftDeepest_ok (by simp) h.rep

/-- A child comes before its parent. -/
theorem post_children {s : St} : ∀ {t : Tree} {par : Nat}, Rep s.m par t → ∀ {n ch : Nat} {x : RbNode}, n ∈ ids t →
    (ids t).Nodup → s.m n = some x → ch ≠ 0 → (x.left = ch ∨ x.right = ch) → ∃ a b d, post t = a ++ ch :: b ++ n :: d
  | leaf, _, _, _, _, _, hn, _, _, _, _ => by simp [ids] at hn
  | node c l i r, par, h, n, ch, x, hn, hnd, hx, hch, hc => by
    rw [ids, List.nodup_append, List.nodup_cons] at hnd
    simp only [ids, List.mem_append, List.mem_cons] at hn
    rw [post]
    have key : ∀ {t : Tree}, ptr t = ch → ∃ a b, post t = a ++ ch :: b := by
      intro t e
      have := ptr_mem (t := t) (by rw [e]; exact hch)
      rw [e] at this
      exact List.append_of_mem ((post_perm t).mem_iff.2 this)
    rcases hn with hn | rfl | hn
    · obtain ⟨a, b, d, e⟩ := post_children h.2.2.1 hn hnd.1 hx hch hc
      exact ⟨a, b, d ++ (post r ++ [i]), by rw [e]; simp⟩
    · rw [h.2.1, Option.some.injEq] at hx
      subst hx
      rcases hc with hc | hc
      · obtain ⟨a, b, e⟩ := key hc
        exact ⟨a, b ++ post r, [], by rw [e]; simp⟩
      · obtain ⟨a, b, e⟩ := key hc
        exact ⟨post l ++ a, b, [], by rw [e]; simp⟩
    · obtain ⟨a, b, d, e⟩ := post_children h.2.2.2 hn hnd.2.1.2 hx hch hc
      exact ⟨post l ++ a, b, d ++ [i], by rw [e]; simp⟩

/-! `rb_destroy` -/

/-- The nodes still to be freed: those on the way up from the current node, each
with its right subtree. -/
def idsS : List (Nat × Tree) → List Nat
  | [] => []
  | q :: S => q.1 :: ids q.2 ++ idsS S

def topS : List (Nat × Tree) → Nat
  | [] => 0
  | q :: _ => q.1

def SRep (m : Nat → Option RbNode) : List (Nat × Tree) → Prop
  | [] => True
  | q :: S => q.1 ≠ 0 ∧ (∃ n, m q.1 = some n ∧ n.par = topS S ∧ n.right = ptr q.2) ∧ Rep m q.1 q.2 ∧ SRep m S

theorem SRep.frame {m m' : Nat → Option RbNode} : ∀ {S : List (Nat × Tree)}, SRep m S →
    (∀ x ∈ idsS S, m' x = m x) → SRep m' S
  | [], _, _ => trivial
  | q :: S, ⟨h1, ⟨n, h2, h3, h4⟩, h5, h6⟩, hm => by
    simp only [idsS, List.cons_append, List.mem_cons, List.mem_append] at hm
    exact ⟨h1, ⟨n, by rw [hm q.1 (Or.inl rfl), h2], h3, h4⟩, h5.frame fun x hx => hm x (Or.inr (Or.inl hx)),
      h6.frame fun x hx => hm x (Or.inr (Or.inr hx))⟩

/-- The left spine of a tree. -/
def spine : Tree → List (Nat × Tree) → List (Nat × Tree)
  | leaf, S => S
  | node _ l i r, S => spine l ((i, r) :: S)

theorem idsS_spine : ∀ (t : Tree) (S : List (Nat × Tree)), idsS (spine t S) = ids t ++ idsS S
  | leaf, S => rfl
  | node c l i r, S => by
    rw [spine, idsS_spine l, idsS, ids]
    simp

theorem SRep_spine {m : Nat → Option RbNode} : ∀ {t : Tree} {S : List (Nat × Tree)}, Rep m (topS S) t → SRep m S →
    SRep m (spine t S)
  | leaf, _, _, h => h
  | node c l i r, S, h, hS => by
    rw [spine]
    exact SRep_spine (S := (i, r) :: S) h.2.2.1 ⟨h.1, ⟨_, h.2.1, rfl, rfl⟩, h.2.2.2, hS⟩

theorem topS_eq : ∀ S : List (Nat × Tree), topS S = hd (idsS S)
  | [] => rfl
  | _ :: _ => rfl

theorem destroyUp_ok {s : St} {node : Nat} {S : List (Nat × Tree)} (h : SRep s.m S) (hn : node ∉ idsS S)
    (h0 : node ≠ 0) : destroyUp s node (topS S) = some (topS S) := by
  rw [destroyUp]
  cases S with
  | nil => rfl
  | cons q S =>
    obtain ⟨h1, ⟨n, h2, h3, h4⟩, h5, h6⟩ := h
    have hne : node ≠ n.right := by
      intro e
      rw [h4] at e
      refine hn ?_
      rw [e]
      have := ptr_mem (t := q.2) (by rw [← e]; exact h0)
      simp [idsS, this]
    simp only [topS, if_neg h1, get, h2]
    simp [hne]

/-- What `P` has to satisfy for the nodes not yet visited, and the callback. -/
structure DestroyOK {σ : Type} (tree : σ → St) (put : σ → St → σ) (cb : σ → Nat → Option σ)
    (P : List Nat → σ → Prop) : Prop where
  tree_put : ∀ s t, tree (put s t) = t
  call : ∀ i rest s, (i :: rest).Nodup → i ≠ 0 → (∀ x ∈ i :: rest, (tree s).m x ≠ none) → P (i :: rest) s →
    ∃ s', cb s i = some s' ∧ P rest s' ∧ ∀ x ∈ rest, (tree s').m x = (tree s).m x
  put_ok : ∀ rest s t, P rest s → (∀ x ∉ rest, t.m x = (tree s).m x) → (∀ x ∈ rest, t.m x ≠ none) →
    t.root = (tree s).root → P rest (put s t)

theorem Rep.mem_ne_none {m : Nat → Option RbNode} : ∀ {t : Tree} {par : Nat}, Rep m par t → ∀ n ∈ ids t, m n ≠ none
  | leaf, _, _, _, hn => by simp [ids] at hn
  | node c l i r, _, h, n, hn => by
    simp only [ids, List.mem_append, List.mem_cons] at hn
    rcases hn with hn | rfl | hn
    · exact Rep.mem_ne_none h.2.2.1 n hn
    · rw [h.2.1]; simp
    · exact Rep.mem_ne_none h.2.2.2 n hn

theorem SRep.mem_ne_none {m : Nat → Option RbNode} : ∀ {S : List (Nat × Tree)}, SRep m S → ∀ x ∈ idsS S, m x ≠ none
  | [], _, x, hx => by simp [idsS] at hx
  | q :: S, ⟨h1, ⟨n, h2, h3, h4⟩, h5, h6⟩, x, hx => by
    simp only [idsS, List.cons_append, List.mem_cons, List.mem_append] at hx
    rcases hx with rfl | hx | hx
    · rw [h2]; simp
    · exact h5.mem_ne_none x hx
    · exact SRep.mem_ne_none h6 x hx

theorem destroyLoop_ok {σ : Type} {tree : σ → St} {put : σ → St → σ} {cb : σ → Nat → Option σ}
    {P : List Nat → σ → Prop} (ok : DestroyOK tree put cb P) : ∀ (k : Nat) {s : σ} {S : List (Nat × Tree)},
    (idsS S).length = k → SRep (tree s).m S → (idsS S).Nodup → P (idsS S) s →
    ∃ s', destroyLoop tree put cb s (topS S) = some s' ∧ P [] s' := by
  intro k
  induction k with
  | zero =>
    intro s S hk h hn hP
    cases S with
    | nil =>
      rw [destroyLoop]
      exact ⟨s, by simp [topS], hP⟩
    | cons q S => simp [idsS] at hk
  | succ k ih =>
    intro s S hk h hn hP
    cases S with
    | nil => simp [idsS] at hk
    | cons q S =>
      have hal := h.mem_ne_none
      obtain ⟨i, r⟩ := q
      obtain ⟨h1, ⟨n, h2, h3, h4⟩, h5, h6⟩ := h
      simp only at h1 h2 h4 h5
      rw [idsS, List.cons_append] at hn hk hP hal
      simp only at hn hk hP hal
      obtain ⟨s1, ec, hP1, hfr⟩ := ok.call i _ s hn h1 hal hP
      obtain ⟨hi, hn'⟩ := List.nodup_cons.1 hn
      have hk' : (ids r ++ idsS S).length = k := by simpa using hk
      have hS1 : SRep (tree s1).m S := h6.frame fun x hx => hfr x (List.mem_append.2 (Or.inr hx))
      have hR1 : Rep (tree s1).m i r := h5.frame fun x hx => hfr x (List.mem_append.2 (Or.inl hx))
      rw [destroyLoop, topS, if_neg h1, get, if_neg h1, h2]
      simp only [Option.bind_eq_bind, Option.bind_some, ec, h4, h3]
      cases r with
      | leaf =>
        have hp : ptr leaf = 0 := rfl
        rw [hp, if_neg (by simp), destroyUp_ok (S := S) hS1 (fun hm => hi (by simp [hm])) h1]
        simp only [Option.bind_some]
        exact ih (by simpa [ids] using hk') hS1 (by simpa [ids] using hn') (by simpa [ids] using hP1)
      | node c rl ri rr =>
        have hri := hR1.1
        generalize hs2 : upd (tree s1) ri ⟨topS S, false, ptr rl, ptr rr⟩ = s2
        have hset : rbSetParentColor (tree s1) ri (topS S) false = some s2 := by
          have hm := hR1.2.1
          rw [← hs2]
          simp [rbSetParentColor, get, hri, hm]
        rw [show ptr (node c rl ri rr) = ri from rfl, if_pos hri, hset]
        simp only [Option.bind_some]
        have hs2m : ∀ x, x ≠ ri → s2.m x = (tree s1).m x := by
          intro x hx
          rw [← hs2]
          simp [upd, hx]
        have hs2r : s2.m ri = some ⟨topS S, false, ptr rl, ptr rr⟩ := by
          rw [← hs2]
          simp [upd]
        have hnd := hn'
        simp only [ids] at hnd
        have hr1 : ri ∉ ids rl := by
          intro hm
          have := (List.nodup_append.1 (List.nodup_append.1 hnd).1).2.2 ri hm ri (by simp)
          exact this rfl
        have hr2 : ri ∉ ids rr := by
          exact (List.nodup_cons.1 (List.nodup_append.1 (List.nodup_append.1 hnd).1).2.1).1
        have hr3 : ri ∉ idsS S := by
          intro hm
          exact (List.nodup_append.1 hnd).2.2 ri (by simp) ri hm rfl
        have hRep : Rep s2.m (topS S) (node false rl ri rr) := by
          refine ⟨hri, hs2r, hR1.2.2.1.frame ?_, hR1.2.2.2.frame ?_⟩
          · intro x hx
            exact hs2m x fun e => hr1 (by rw [← e]; exact hx)
          · intro x hx
            exact hs2m x fun e => hr2 (by rw [← e]; exact hx)
        have hS2 : SRep s2.m S := hS1.frame fun x hx => hs2m x fun e => hr3 (by rw [← e]; exact hx)
        have hids : idsS (spine (node false rl ri rr) S) = ids (node c rl ri rr) ++ idsS S := by
          rw [idsS_spine]; rfl
        rw [goLeft_ok hRep]
        simp only [Option.bind_some]
        have htop : hd (ids (node false rl ri rr)) = topS (spine (node false rl ri rr) S) := by
          rw [topS_eq, idsS_spine, hd_append _ (ids_ne_nil _ _ _ _)]
        rw [htop]
        have hSR := SRep_spine hRep hS2
        have hP2 : P (ids (node c rl ri rr) ++ idsS S) (put s1 s2) := by
          refine ok.put_ok _ s1 s2 hP1 ?_ ?_ ?_
          · intro x hx
            refine hs2m x fun e => hx ?_
            simp [ids, e]
          · intro x hx
            rw [← hids] at hx
            exact hSR.mem_ne_none x hx
          · rw [← hs2]; rfl
        exact ih (s := put s1 s2) (S := spine (node false rl ri rr) S) (by rw [hids]; exact hk')
          (by rw [ok.tree_put]; exact hSR) (by rw [hids]; exact hn') (by rw [hids]; exact hP2)

/-- `rb_destroy` with any callback. -/
theorem rbDestroyWith_ok {σ : Type} {tree : σ → St} {put : σ → St → σ} {cb : σ → Nat → Option σ}
    {P : List Nat → σ → Prop} (ok : DestroyOK tree put cb P) {s : σ} {t : Tree} (h : IsTree (tree s) t)
    (hP : P (ids t) s) : ∃ s', rbDestroyWith tree put cb s = some s' ∧ P [] s' := by
  have hS : SRep (tree s).m (spine t []) := SRep_spine h.rep trivial
  have hids : idsS (spine t []) = ids t := by rw [idsS_spine]; simp [idsS]
  obtain ⟨s', e, hP'⟩ := destroyLoop_ok ok _ rfl hS (by rw [hids]; exact h.nodup) (by rw [hids]; exact hP)
  refine ⟨s', ?_, hP'⟩
  rw [rbDestroyWith, rbFirst_ok h]
  rw [topS_eq, hids] at e
  exact e

theorem rbDestroy_ok {s : St} {t : Tree} (h : IsTree s t) : ∃ s', rbDestroy s = some (s', ids t) ∧
    (∀ x, s'.m x = if x ∈ ids t then none else s.m x) ∧ s'.root = s.root := by
  have ok : DestroyOK (σ := St × List Nat) (·.1) (fun s t => (t, s.2)) freeLog
      (fun rest q => q.2 ++ rest = ids t ∧ q.1.root = s.root ∧
        ∀ x ∉ rest, q.1.m x = if x ∈ ids t then none else s.m x) := by
    refine ⟨fun _ _ => rfl, ?_, ?_⟩
    · rintro i rest ⟨q, log⟩ hn h0 hal ⟨h1, h2, h3⟩
      simp only at h1 h2 h3 hal
      obtain ⟨n, hin⟩ := Option.ne_none_iff_exists'.1 (hal i (by simp))
      refine ⟨_, by simp [freeLog, freeNode, get, h0, hin]; rfl, ⟨?_, h2, ?_⟩, ?_⟩
      · simpa using h1
      · intro x hx
        by_cases hxi : x = i
        · subst hxi
          simp only [if_true]
          rw [if_pos (by rw [← h1]; simp)]
        · simp only [if_neg hxi]
          exact h3 x (by simp [hxi, hx])
      · intro x hx
        have : x ≠ i := by
          intro e
          exact (List.nodup_cons.1 hn).1 (by rw [← e]; exact hx)
        simp [this]
    · rintro rest ⟨q, log⟩ t' ⟨h1, h2, h3⟩ h4 _ h6
      exact ⟨h1, h6.trans h2, fun x hx => (h4 x hx).trans (h3 x hx)⟩
  obtain ⟨⟨s', l⟩, e, h1, h2, h3⟩ := rbDestroyWith_ok ok (s := (s, [])) h ⟨rfl, rfl, by
    intro x hx
    rw [if_neg hx]⟩
  simp only [List.append_nil] at h1
  subst h1
  exact ⟨s', e, fun x => h3 x (by simp), h2⟩

end Ulp.Rb
