/-
`rb_search_node`, `rb_insert_node` and `rb_erase` on trees.
-/
import Verif.Proof.RbErase2
namespace Ulp.Rb
open Tree
open Comp (ctx cell tree)

/-! What is to the left and right of the end of a path. -/

def lft : List Frame → List Nat
  | [] => []
  | f :: K => if f.d then lft K ++ ids f.sib ++ [f.i] else lft K

def rgt : List Frame → List Nat
  | [] => []
  | f :: K => if f.d then rgt K else f.i :: ids f.sib ++ rgt K

theorem ids_plug : ∀ (K : List Frame) (t : Tree), ids (plug K t) = lft K ++ ids t ++ rgt K
  | [], t => by simp [plug, lft, rgt]
  | f :: K, t => by
    rw [plug, ids_plug K, ids_mk, lft, rgt]
    cases f.d <;> simp

theorem plug_append : ∀ (K2 K : List Frame) (t : Tree), plug (K2 ++ K) t = plug K (plug K2 t)
  | [], _, _ => rfl
  | f :: K2, K, t => plug_append K2 K _

theorem lft_left : ∀ {K : List Frame}, (∀ f ∈ K, f.d = false) → lft K = []
  | [], _ => rfl
  | f :: K, h => by
    rw [lft, h f (by simp), if_neg (by simp), lft_left fun g hg => h g (by simp [hg])]

theorem exists_plug {n : Nat} : ∀ {t : Tree}, n ∈ ids t → ∃ K c l r, t = plug K (node c l n r)
  | leaf, h => by simp [ids] at h
  | node c l i r, h => by
    simp only [ids, List.mem_append, List.mem_cons] at h
    rcases h with h | h | h
    · obtain ⟨K, c', l', r', e⟩ := exists_plug h
      exact ⟨K ++ [⟨false, c, i, r⟩], c', l', r', by rw [plug_append, ← e]; rfl⟩
    · exact ⟨[], c, l, r, by rw [h]; rfl⟩
    · obtain ⟨K, c', l', r', e⟩ := exists_plug h
      exact ⟨K ++ [⟨true, c, i, l⟩], c', l', r', by rw [plug_append, ← e]; rfl⟩

theorem IsTree.repT {s : St} {t : Tree} (h : IsTree s t) : RepT s s t := by
  refine ⟨?_, ?_, fun _ _ _ => rfl⟩
  · intro c hc
    simp only [List.mem_cons, List.not_mem_nil, or_false] at hc
    rcases hc with rfl | rfl
    · exact ⟨trivial, h.root⟩
    · exact h.rep
  · simp only [List.flatMap_cons, List.flatMap_nil, Comp.ids, idsC, List.append_nil, List.cons_append,
      List.nil_append, List.nodup_cons]
    exact ⟨fun h0 => h.rep.ne_zero 0 h0 rfl, h.nodup⟩

theorem RepT.isTree {s0 s : St} {t : Tree} (h : RepT s0 s t) : IsTree s t := by
  refine ⟨(h.at 0 rfl).2, h.at 1 rfl, ?_⟩
  have := h.nodup
  simp only [List.flatMap_cons, List.flatMap_nil, Comp.ids, idsC, List.append_nil, List.cons_append,
    List.nil_append, List.nodup_cons] at this
  exact this.2

/-! Search -/

theorem searchLoop_ok {s : St} {f : Nat → Int} : ∀ {t : Tree} {par : Nat}, Rep s.m par t → Mono f (ids t) →
    ∃ r, searchLoop s f (ptr t) = some r ∧
      ((r = 0 ∧ ∀ n ∈ ids t, f n ≠ 0) ∨ (r ∈ ids t ∧ f r = 0))
  | leaf, par, _, _ => by
    refine ⟨0, ?_, Or.inl ⟨rfl, by simp [ids]⟩⟩
    rw [searchLoop, ptr, if_pos rfl]; rfl
  | node c l i r, par, h, hm => by
    have hm' := hm
    rw [Mono, ids, List.pairwise_append, List.pairwise_cons] at hm'
    obtain ⟨hl, ⟨hir, hr⟩, hlir⟩ := hm'
    rw [searchLoop, ptr, if_neg h.1, get, if_neg h.1, h.2.1]
    simp only [Option.bind_eq_bind, Option.bind_some]
    by_cases h1 : f i < 0
    · rw [if_pos h1]
      obtain ⟨x, e, hx⟩ := searchLoop_ok h.2.2.1 hl
      refine ⟨x, e, ?_⟩
      rcases hx with ⟨h0, hn⟩ | ⟨hx, h0⟩
      · refine Or.inl ⟨h0, ?_⟩
        intro n hn'
        simp only [ids, List.mem_append, List.mem_cons] at hn'
        rcases hn' with hn' | hn' | hn'
        · exact hn n hn'
        · rw [hn']; omega
        · have := (hir n hn').1 h1
          omega
      · exact Or.inr ⟨by simp [ids, hx], h0⟩
    · rw [if_neg h1]
      by_cases h2 : f i > 0
      · rw [if_pos h2]
        obtain ⟨x, e, hx⟩ := searchLoop_ok h.2.2.2 hr
        refine ⟨x, e, ?_⟩
        rcases hx with ⟨h0, hn⟩ | ⟨hx, h0⟩
        · refine Or.inl ⟨h0, ?_⟩
          intro n hn'
          simp only [ids, List.mem_append, List.mem_cons] at hn'
          rcases hn' with hn' | hn' | hn'
          · have := (hlir n hn' i (by simp)).2 h2
            omega
          · rw [hn']; omega
          · exact hn n hn'
        · exact Or.inr ⟨by simp [ids, hx], h0⟩
      · rw [if_neg h2]
        exact ⟨i, rfl, Or.inr ⟨by simp [ids], by omega⟩⟩

/-- Searching any tree ends, and what it returns matches. -/
theorem searchLoop_some {s : St} {f : Nat → Int} : ∀ {t : Tree} {par : Nat}, Rep s.m par t →
    ∃ r, searchLoop s f (ptr t) = some r ∧ (r = 0 ∨ (r ∈ ids t ∧ f r = 0))
  | leaf, par, _ => by
    refine ⟨0, ?_, Or.inl rfl⟩
    rw [searchLoop, ptr, if_pos rfl]; rfl
  | node c l i r, par, h => by
    rw [searchLoop, ptr, if_neg h.1, get, if_neg h.1, h.2.1]
    simp only [Option.bind_eq_bind, Option.bind_some]
    by_cases h1 : f i < 0
    · rw [if_pos h1]
      obtain ⟨x, e, hx⟩ := searchLoop_some (f := f) h.2.2.1
      exact ⟨x, e, hx.imp id fun hx => ⟨by simp [ids, hx.1], hx.2⟩⟩
    · rw [if_neg h1]
      by_cases h2 : f i > 0
      · rw [if_pos h2]
        obtain ⟨x, e, hx⟩ := searchLoop_some (f := f) h.2.2.2
        exact ⟨x, e, hx.imp id fun hx => ⟨by simp [ids, hx.1], hx.2⟩⟩
      · rw [if_neg h2]
        exact ⟨i, rfl, Or.inr ⟨by simp [ids], by omega⟩⟩

/-! Insertion -/

def linkOf : List Frame → Link
  | [] => .root
  | f :: _ => if f.d then .right f.i else .left f.i

theorem readLink_ok {s : St} {K : List Frame} {p : Nat} (h : CRep s.m 0 K p) (hr : s.root = ptop K p) :
    readLink s (linkOf K) = some p := by
  cases K with
  | nil => rw [linkOf, readLink, hr]; rfl
  | cons f K =>
    obtain ⟨h1, h2, _⟩ := h
    rw [linkOf]
    cases hd : f.d
    · rw [hd] at h2
      simp [readLink, get, h1, h2, nd]
    · rw [hd] at h2
      simp [readLink, get, h1, h2, nd]

theorem Holds.writeLink {s0 s : St} {cs : List Comp} (h : Holds s0 s cs) (k : Nat) {K : List Frame}
    {old : Nat} (new : Nat) (hk : cs[k]? = some (Comp.ctx K old)) :
    ∃ s', Rb.writeLink s new (linkOf K) = some s' ∧ Holds s0 s' (cs.set k (Comp.ctx K new)) := by
  obtain ⟨hc, hr⟩ : CRep s.m 0 K old ∧ s.root = ptop K old := h.at k hk
  cases K with
  | nil =>
    refine ⟨{ s with root := new }, rfl, h.step hk ⟨trivial, rfl⟩ rfl (fun _ _ => rfl) ?_⟩
    intro h0
    simp [Comp.ids] at h0
  | cons f K =>
    obtain ⟨h1, h2, h3, h4⟩ := hc
    have hg : Rb.get s f.i = some (nd f.d (cpar 0 K) f.c old (ptr f.sib)) := by
      rw [Rb.get, if_neg h1, h2]
    refine ⟨Rb.upd s f.i (nd f.d (cpar 0 K) f.c new (ptr f.sib)), ?_, h.step hk ?_ rfl ?_ ?_⟩
    · rw [linkOf]
      cases hd : f.d
      · rw [hd] at hg
        simp [Rb.writeLink, setLeft, hg, nd]
      · rw [hd] at hg
        simp [Rb.writeLink, setRight, hg, nd]
    · have hn := h.nodup
      obtain ⟨a, b, e, _⟩ := split_of_getElem? hk
      rw [e] at hn
      simp only [List.flatMap_append, List.flatMap_cons, Comp.ids] at hn
      have h5 := (List.nodup_append.1 (List.nodup_append.1 hn).2.1).1
      rw [idsC] at h5
      have h6 := (List.nodup_cons.1 (List.nodup_cons.1 h5).2).1
      refine ⟨⟨h1, by simp [Rb.upd], h3.frame ?_, h4.frame ?_⟩, ?_⟩
      · intro x hx
        have : x ≠ f.i := fun e => h6 (by rw [← e]; simp [hx])
        simp [Rb.upd, this]
      · intro x hx
        have : x ≠ f.i := fun e => h6 (by rw [← e]; simp [hx])
        simp [Rb.upd, this]
      · rw [show (Rb.upd s f.i (nd f.d (cpar 0 K) f.c new (ptr f.sib))).root = s.root from rfl, hr]
        rfl
    · intro x hx
      have : x ≠ f.i := fun e => hx (by simp [Comp.ids, idsC, e])
      simp [Rb.upd, this]
    · intro _
      rfl

/-- The descent of `rb_insert_node` on the tree: the place for a new node, or the
node found. -/
def insPath (f : Nat → Int) : Tree → List Frame → List Frame ⊕ Nat
  | leaf, K => .inl K
  | node c l i r, K =>
    if f i < 0 then insPath f l (⟨false, c, i, r⟩ :: K)
    else if f i > 0 then insPath f r (⟨true, c, i, l⟩ :: K)
    else .inr i

/-- Whatever the comparison, the descent follows the tree. -/
theorem insertDescend_any {s : St} {f : Nat → Int} : ∀ (t : Tree) (K : List Frame),
    CRep s.m 0 K (ptr t) → s.root = ptop K (ptr t) → Rep s.m (cpar 0 K) t →
    (∃ l p n, insertDescend s f (linkOf K) (cpar 0 K) = some (l, p, n) ∧ n ≠ 0 ∧ n ∈ ids t ∧ f n = 0 ∧
      insPath f t K = .inr n) ∨
    (∃ K', insertDescend s f (linkOf K) (cpar 0 K) = some (linkOf K', cpar 0 K', 0) ∧
      plug K' leaf = plug K t ∧ insPath f t K = .inl K' ∧
      (Mono f (ids (plug K t)) → (∀ x ∈ lft K, f x > 0) → (∀ x ∈ rgt K, f x < 0) →
        (∀ x ∈ lft K', f x > 0) ∧ ∀ x ∈ rgt K', f x < 0))
  | leaf, K, hc, hr, _ => by
    refine Or.inr ⟨K, ?_, rfl, rfl, fun _ h1 h2 => ⟨h1, h2⟩⟩
    rw [insertDescend, readLink_ok hc hr]
    simp [ptr]
  | node c l i r, K, hc, hr, ht => by
    have hi := ht.1
    have hmt : Mono f (ids (plug K (node c l i r))) → Mono f (ids l ++ i :: ids r) := by
      intro hm
      rw [ids_plug] at hm
      exact (List.pairwise_append.1 (List.pairwise_append.1 hm).1).2.1
    rw [insertDescend, readLink_ok hc hr, insPath]
    simp only [Option.bind_eq_bind, Option.bind_some, ptr, ne_eq, hi, not_false_eq_true, if_true]
    by_cases h1 : f i < 0
    · rw [if_pos h1, if_pos h1]
      have hstep := insertDescend_any (f := f) l (⟨false, c, i, r⟩ :: K) ⟨hi, ht.2.1, ht.2.2.2, hc⟩ hr ht.2.2.1
      rcases hstep with ⟨a, b, n, e, h0, hn, hf, hp⟩ | ⟨K', e, hp, hp', hs⟩
      · exact Or.inl ⟨a, b, n, e, h0, by simp [ids, hn], hf, hp⟩
      · refine Or.inr ⟨K', e, hp, hp', fun hm hl hg => hs hm (by simpa [lft] using hl) ?_⟩
        intro x hx
        simp only [rgt, Bool.false_eq_true, if_false, List.cons_append, List.mem_cons, List.mem_append] at hx
        rcases hx with rfl | hx | hx
        · exact h1
        · exact ((List.pairwise_cons.1 (List.pairwise_append.1 (hmt hm)).2.1).1 x hx).1 h1
        · exact hg x hx
    · rw [if_neg h1, if_neg h1]
      by_cases h2 : f i > 0
      · rw [if_pos h2, if_pos h2]
        have hstep := insertDescend_any (f := f) r (⟨true, c, i, l⟩ :: K) ⟨hi, ht.2.1, ht.2.2.1, hc⟩ hr ht.2.2.2
        rcases hstep with ⟨a, b, n, e, h0, hn, hf, hp⟩ | ⟨K', e, hp, hp', hs⟩
        · exact Or.inl ⟨a, b, n, e, h0, by simp [ids, hn], hf, hp⟩
        · refine Or.inr ⟨K', e, hp, hp', fun hm hl hg => hs hm ?_ (by simpa [rgt] using hg)⟩
          intro x hx
          simp only [lft, if_true, List.mem_append, List.mem_singleton] at hx
          rcases hx with (hx | hx) | rfl
          · exact hl x hx
          · exact ((List.pairwise_append.1 (hmt hm)).2.2 x hx i (by simp)).2 h2
          · exact h2
      · rw [if_neg h2, if_neg h2]
        exact Or.inl ⟨_, _, i, rfl, hi, by simp [ids], by omega, rfl⟩

/-- `rb_insert_node` when the descent ends at the place `K`. -/
theorem rbInsertNode_at {s : St} {t : Tree} {f : Nat → Int} {new : Nat} (h : IsTree s t) (hrb : RB t)
    (hn0 : new ≠ 0) (hn : new ∉ ids t) (ha : s.m new ≠ none) {K : List Frame}
    (e : insertDescend s f .root 0 = some (linkOf K, cpar 0 K, 0)) (hp : plug K leaf = t) :
    ids t = lft K ++ rgt K ∧ ∃ s' T, rbInsertNode s new f = some (s', 0) ∧
      insFix K (node false leaf new leaf) = some T ∧ IsTree s' T ∧ RB T ∧
      ids T = lft K ++ new :: rgt K ∧ (∀ x, x ≠ 0 → x ∉ ids T → s'.m x = s.m x) := by
  have hids : ids t = lft K ++ rgt K := by
    rw [← hp, ids_plug]
    simp [ids]
  refine ⟨hids, ?_⟩
  obtain ⟨old, hold⟩ := Option.ne_none_iff_exists'.1 ha
  have h1 : Holds s s [ctx K (ptr leaf), tree (cpar 0 K) leaf] := by
    rw [← RepT_plug, hp]
    exact h.repT
  have h2 : Holds s s [ctx K (ptr leaf), cell new old] := by
    refine ⟨?_, ?_, fun _ _ _ => rfl⟩
    · intro c hc
      simp only [List.mem_cons, List.not_mem_nil, or_false] at hc
      rcases hc with rfl | rfl
      · exact h1.at 0 rfl
      · exact ⟨hn0, hold⟩
    · have := h1.nodup
      simp only [List.flatMap_cons, List.flatMap_nil, Comp.ids, Tree.ids, List.append_nil, List.cons_append,
        List.nodup_cons] at this ⊢
      refine ⟨?_, ?_⟩
      · intro hmem
        rcases List.mem_append.1 hmem with hmem | hmem
        · exact this.1 hmem
        · exact hn0 (List.mem_singleton.1 hmem).symm
      · rw [List.nodup_append]
        refine ⟨this.2, by simp, ?_⟩
        intro x hx y hy
        rw [List.mem_singleton] at hy
        rw [hy]
        intro e
        refine hn ?_
        rw [← hp, ← List.count_pos_iff, count_ids_plug, ← e]
        have := List.count_pos_iff.2 hx
        omega
  have hgn := h2.get 1 rfl
  have h3 := h2.upd 1 (nd false (cpar 0 K) false 0 0) rfl
  obtain ⟨s1, e1, h4⟩ := h3.writeLink 0 new rfl
  have hgn1 := h4.get 1 rfl
  have h5 : Holds s s1 [ctx K (ptr (node false leaf new leaf)), tree (cpar 0 K) (node false leaf new leaf)] := by
    refine h4.refold (by intro x; simp [Comp.ids, Tree.ids, List.count_cons, List.count_append]) ?_
    intro c hc
    simp only [List.mem_cons, List.not_mem_nil, or_false] at hc
    rcases hc with rfl | rfl
    · exact h4.at 0 rfl
    · exact ⟨hn0, (h4.at 1 rfl).2, trivial, trivial⟩
  have hrb' := hrb
  rw [← hp, RB_plug] at hrb'
  obtain ⟨r1, _, _, m, r2, r3⟩ := hrb'
  have hm0 : m = 0 := r3
  obtain ⟨T, hT, hTrb⟩ := insFix_RB K (node false leaf new leaf) 0 r1 (by rw [← hm0]; exact r2)
    ⟨rfl, rfl⟩ ⟨trivial, trivial, fun _ => ⟨rfl, rfl⟩⟩ rfl
  obtain ⟨s2, e2, h6⟩ := insertLoop_ok K _ T s1 (by simp) h5 hT
  have hidsT : ids T = lft K ++ new :: rgt K := by
    rw [ids_insFix hT, ids_plug]
    simp [ids]
  refine ⟨s2, T, ?_, hT, h6.isTree, hTrb, hidsT, ?_⟩
  · have hlink : rbLinkNode s new (cpar 0 K) (linkOf K) = some s1 := by
      rw [rbLinkNode, hgn]
      exact e1
    simp only [ptr] at e2
    simp [rbInsertNode, e, hlink, rbInsertColor, hgn1, e2]
  · intro x hx0 hx
    exact h6.outside x hx0 (by simp [Comp.ids, idsC, hx0, hx])

/-- Insertion on the tree. -/
def insTree (f : Nat → Int) (new : Nat) (t : Tree) : Option Tree :=
  match insPath f t [] with
  | .inl K => insFix K (node false leaf new leaf)
  | .inr _ => none

/-- `rb_insert_node` with any comparison, also one that is no ordering. -/
theorem rbInsertNode_any {s : St} {t : Tree} {f : Nat → Int} {new : Nat} (h : IsTree s t) (hrb : RB t)
    (hn0 : new ≠ 0) (hn : new ∉ ids t) (ha : s.m new ≠ none) :
    (∃ n ∈ ids t, f n = 0 ∧ insTree f new t = none ∧ rbInsertNode s new f = some (s, n)) ∨
    (∃ s' t' a b, rbInsertNode s new f = some (s', 0) ∧ insTree f new t = some t' ∧ IsTree s' t' ∧ RB t' ∧
      ids t = a ++ b ∧ ids t' = a ++ new :: b ∧ (∀ x, x ≠ 0 → x ∉ ids t' → s'.m x = s.m x) ∧
      (Mono f (ids t) → (∀ x ∈ a, f x > 0) ∧ ∀ x ∈ b, f x < 0)) := by
  have hd := insertDescend_any (s := s) (f := f) t [] trivial h.root h.rep
  rw [linkOf, cpar] at hd
  rcases hd with ⟨a, b, n, e, h0, hnt, hf, hip⟩ | ⟨K, e, hp, hip, hs⟩
  · exact Or.inl ⟨n, hnt, hf, by rw [insTree, hip], by simp [rbInsertNode, e, h0]⟩
  · obtain ⟨hids, s', T, e', hT, h1, h2, h3, h4⟩ := rbInsertNode_at h hrb hn0 hn ha e (by rw [hp]; rfl)
    exact Or.inr ⟨s', T, lft K, rgt K, e', by rw [insTree, hip]; exact hT, h1, h2, hids, h3, h4,
      fun hm => hs hm (by simp [lft]) (by simp [rgt])⟩

/-- Lookup on the tree. -/
def searchTree (f : Nat → Int) : Tree → Nat
  | leaf => 0
  | node _ l i r => if f i < 0 then searchTree f l else if f i > 0 then searchTree f r else i

/-- `rb_search_node` with any comparison. -/
theorem searchLoop_any {s : St} {f : Nat → Int} : ∀ {t : Tree} {par : Nat}, Rep s.m par t →
    searchLoop s f (ptr t) = some (searchTree f t)
  | leaf, par, _ => by
    rw [searchLoop, ptr, if_pos rfl]; rfl
  | node c l i r, par, h => by
    rw [searchLoop, ptr, if_neg h.1, get, if_neg h.1, h.2.1, searchTree]
    simp only [Option.bind_eq_bind, Option.bind_some]
    by_cases h1 : f i < 0
    · rw [if_pos h1, if_pos h1]
      exact searchLoop_any h.2.2.1
    · rw [if_neg h1, if_neg h1]
      by_cases h2 : f i > 0
      · rw [if_pos h2, if_pos h2]
        exact searchLoop_any h.2.2.2
      · rw [if_neg h2, if_neg h2]
        rfl

/-- `rb_insert_node` -/
theorem rbInsertNode_ok {s : St} {t : Tree} {f : Nat → Int} {new : Nat} (h : IsTree s t) (hrb : RB t)
    (hm : Mono f (ids t)) (hn0 : new ≠ 0) (hn : new ∉ ids t) (ha : s.m new ≠ none) :
    (∃ n ∈ ids t, f n = 0 ∧ rbInsertNode s new f = some (s, n)) ∨
    ((∀ n ∈ ids t, f n ≠ 0) ∧ ∃ s' t' a b, rbInsertNode s new f = some (s', 0) ∧ IsTree s' t' ∧ RB t' ∧
      ids t = a ++ b ∧ ids t' = a ++ new :: b ∧ (∀ x ∈ a, f x > 0) ∧ (∀ x ∈ b, f x < 0) ∧
      (∀ x, x ≠ 0 → x ∉ ids t' → s'.m x = s.m x)) := by
  rcases rbInsertNode_any (f := f) h hrb hn0 hn ha with ⟨n, hn, hf, _, e⟩ | ⟨s', t', a, b, e, _, h1, h2, h3, h4, h5, h6⟩
  · exact Or.inl ⟨n, hn, hf, e⟩
  · obtain ⟨hl, hg⟩ := h6 hm
    refine Or.inr ⟨?_, s', t', a, b, e, h1, h2, h3, h4, hl, hg, h5⟩
    intro n hn
    rw [h3, List.mem_append] at hn
    rcases hn with hn | hn
    · have := hl n hn
      omega
    · have := hg n hn
      omega

/-! Removal -/

theorem ids_eraseSpot {K : List Frame} {c : Bool} {t T : Tree} (h : eraseSpot K c t = some T) :
    ids T = ids (plug K t) := by
  cases t with
  | leaf =>
    simp only [eraseSpot] at h
    split at h
    · exact ids_eraseFix h
    · cases h; rfl
  | node => cases h; rfl

theorem ids_eraseTree {K : List Frame} {c : Bool} {l r T : Tree} (h : eraseTree K c l r = some T) :
    ids T = lft K ++ ids l ++ ids r ++ rgt K := by
  cases l with
  | leaf =>
    rw [eraseTree] at h
    rw [ids_eraseSpot h, ids_plug]
    simp [ids]
  | node lc ll li lr =>
    cases r with
    | leaf =>
      simp only [eraseTree, Option.some.injEq] at h
      rw [← h, ids_plug]
      simp [ids]
    | node rc rl ri rr =>
      simp only [eraseTree] at h
      have hpm := congrArg ids (plug_popMin rl [] rc ri rr)
      have hleft := lft_left (popMin_left rl [] rc ri rr (by simp))
      rw [ids_eraseSpot h, plug_append, plug, ids_plug, ids_mk, if_pos rfl, ids_plug, hleft]
      rw [plug, ids_plug, hleft] at hpm
      rw [← hpm]
      simp [ids]

theorem CNR_congr {f f' : Frame} (hc : f.c = f'.c) (hs : f.sib = f'.sib) : ∀ {K2 K : List Frame},
    CNR (K2 ++ f :: K) → CNR (K2 ++ f' :: K)
  | [], K, h => by
    rw [List.nil_append, CNR] at h ⊢
    rw [← hc, ← hs]
    exact h
  | g :: K2, K, h => by
    rw [List.cons_append, CNR] at h ⊢
    refine ⟨h.1, fun hg => ⟨(h.2.1 hg).1, ?_⟩, CNR_congr hc hs h.2.2⟩
    have := (h.2.1 hg).2
    cases K2 with
    | nil =>
      have h1 : f.c = true := this
      show f'.c = true
      rw [← hc]; exact h1
    | cons => exact this

theorem CBH_congr {f f' : Frame} (hc : f.c = f'.c) (hs : f.sib = f'.sib) : ∀ {K2 K : List Frame} {n : Nat},
    CBH (K2 ++ f :: K) n → CBH (K2 ++ f' :: K) n
  | [], K, n, h => by
    rw [List.nil_append, CBH] at h ⊢
    rw [← hc, ← hs]
    exact h
  | g :: K2, K, n, h => ⟨h.1, CBH_congr hc hs h.2⟩

theorem headBlack_congr {f f' : Frame} (hc : f.c = f'.c) {K2 K : List Frame}
    (h : headBlack (K2 ++ f :: K)) : headBlack (K2 ++ f' :: K) := by
  cases K2 with
  | nil =>
    have h1 : f.c = true := h
    show f'.c = true
    rw [← hc]; exact h1
  | cons => exact h

theorem BH_zero_red {c : Bool} {l r : Tree} {i : Nat} (h : BH (node c l i r) 0) : c = false := by
  cases c
  · rfl
  · obtain ⟨m, hm, _⟩ := h
    omega

/-- Filling the spot of a node that had at most one child. -/
theorem eraseSpot_RB {K : List Frame} {c : Bool} {t : Tree} {i : Nat} (d : Bool)
    (h1 : CNR K) (h2 : NRR (mk d c t i leaf)) (h3 : c = false → headBlack K) {n : Nat} (h4 : CBH K n)
    (h5 : BH (mk d c t i leaf) n) :
    (∃ T, eraseSpot K c (blacken t) = some T ∧ RB T) ∧ (t ≠ leaf → c = true) := by
  cases c
  · obtain ⟨hb, hl⟩ := BH_mk_false.1 h5
    have hn0 : n = 0 := hl
    subst hn0
    obtain ⟨hn, _, hr⟩ := NRR_mk.1 h2
    have hr' := (hr rfl).1
    cases t with
    | leaf => exact ⟨⟨_, rfl, RB_plug.2 ⟨h1, trivial, by simp [isRed], 0, h4, rfl⟩⟩, fun h => absurd rfl h⟩
    | node tc tl ti tr =>
      rw [BH_zero_red hb] at hr'
      cases hr'
  · obtain ⟨m, e, hb, hl⟩ := BH_mk_true.1 h5
    have hm0 : m = 0 := hl
    subst hm0
    subst e
    obtain ⟨hn, _, _⟩ := NRR_mk.1 h2
    refine ⟨?_, fun _ => rfl⟩
    cases t with
    | leaf => exact eraseFix_RB K leaf 0 h1 h4 rfl trivial rfl
    | node tc tl ti tr =>
      have htc := BH_zero_red hb
      subst htc
      exact ⟨_, rfl, RB_plug.2 ⟨h1, NRR_blacken hn, (by intro h; cases h), 1, h4, BH_blacken_red rfl hb⟩⟩

/-- Removal keeps the rules. -/
theorem eraseTree_RB {K : List Frame} {c : Bool} {l r : Tree} {n : Nat} (h : RB (plug K (node c l n r))) :
    ∃ T, eraseTree K c l r = some T ∧ RB T := by
  have h' := h
  rw [RB_plug] at h'
  obtain ⟨h1, h2, h3, m, h4, h5⟩ := h'
  have h3' : c = false → headBlack K := by
    intro e
    subst e
    exact h3 rfl
  cases l with
  | leaf =>
    rw [eraseTree]
    obtain ⟨hT, hc⟩ := eraseSpot_RB (t := r) (i := n) true h1 h2 h3' h4 h5
    cases r with
    | leaf => exact hT
    | node =>
      rw [hc (by simp)] at hT ⊢
      rw [← blacken_eq]
      exact hT
  | node lc ll li lr =>
    cases r with
    | leaf =>
      simp only [eraseTree]
      obtain ⟨hT, hc⟩ := eraseSpot_RB (t := node lc ll li lr) (i := n) false h1 h2 h3' h4 h5
      rw [hc (by simp)] at hT ⊢
      rw [← blacken_eq]
      exact hT
    | node rc rl ri rr =>
      simp only [eraseTree]
      have hpm := plug_popMin rl [] rc ri rr
      revert hpm
      generalize popMin [] rc rl ri rr = q
      obtain ⟨K2, sc, su, rr2⟩ := q
      intro hpm
      simp only [plug] at hpm ⊢
      have he : plug K (node c (node lc ll li lr) n (node rc rl ri rr)) =
          plug (K2 ++ ⟨true, c, n, node lc ll li lr⟩ :: K) (node sc leaf su rr2) := by
        rw [plug_append, hpm, plug]
        rfl
      rw [he, RB_plug] at h
      obtain ⟨g1, g2, g3, m', g4, g5⟩ := h
      exact (eraseSpot_RB (K := K2 ++ ⟨true, c, su, node lc ll li lr⟩ :: K) (t := rr2) (i := su) true
        (CNR_congr (f := ⟨true, c, n, node lc ll li lr⟩) (f' := ⟨true, c, su, node lc ll li lr⟩) rfl rfl g1) g2
        (fun e => headBlack_congr (f := ⟨true, c, n, node lc ll li lr⟩) (f' := ⟨true, c, su, node lc ll li lr⟩) rfl (g3 (by simp [isRed, e])))
        (CBH_congr (f := ⟨true, c, n, node lc ll li lr⟩) (f' := ⟨true, c, su, node lc ll li lr⟩) rfl rfl g4) g5).1

theorem split_unique {l : List Nat} {n : Nat} : ∀ {a b a' b' : List Nat}, l = a ++ n :: b → l = a' ++ n :: b' →
    l.Nodup → a = a' ∧ b = b' := by
  intro a b a' b' h h' hn
  subst h
  have hna : n ∉ a := by
    intro hm
    rw [List.nodup_append] at hn
    exact hn.2.2 n hm n (by simp) rfl
  have hna' : n ∉ a' := by
    intro hm
    rw [h', List.nodup_append] at hn
    exact hn.2.2 n hm n (by simp) rfl
  clear hn
  induction a generalizing a' with
  | nil =>
    cases a' with
    | nil => simp at h'; exact ⟨rfl, h'⟩
    | cons x a' =>
      simp at h'
      exact (hna' (by simp [h'.1])).elim
  | cons x a ih =>
    cases a' with
    | nil =>
      simp at h'
      exact (hna (by simp [h'.1])).elim
    | cons y a' =>
      simp only [List.cons_append, List.cons.injEq] at h'
      obtain ⟨e1, e2⟩ := ih h'.2 (fun h => hna (by simp [h])) (fun h => hna' (by simp [h]))
      exact ⟨by rw [h'.1, e1], e2⟩

/-- `rb_erase` -/
theorem rbErase_tree {s : St} {t : Tree} {n : Nat} (h : IsTree s t) (hrb : RB t) (hn : n ∈ ids t) :
    ∃ s' t' a b, rbErase s n = some s' ∧ IsTree s' t' ∧ RB t' ∧ ids t = a ++ n :: b ∧ ids t' = a ++ b ∧
      s'.m n = s.m n ∧ (∀ x, x ≠ 0 → x ∉ ids t → s'.m x = s.m x) := by
  obtain ⟨K, c, l, r, rfl⟩ := exists_plug hn
  obtain ⟨T, hT, hTrb⟩ := eraseTree_RB hrb
  obtain ⟨s', s1, e, hr, hsn, hnT, ho⟩ := rbErase_ok h.repT hT
  refine ⟨s', T, lft K ++ ids l, ids r ++ rgt K, e, hr.isTree, hTrb, ?_, ?_, hsn, ?_⟩
  · rw [ids_plug]
    simp [ids]
  · rw [ids_eraseTree hT]
    simp
  · intro x hx0 hx
    refine ho x hx0 (fun e => hx (by rw [e]; exact hn)) ?_
    rw [ids_eraseTree hT]
    rw [ids_plug] at hx
    simp only [ids, List.mem_append, List.mem_cons, not_or] at hx ⊢
    exact ⟨⟨⟨hx.1.1, hx.1.2.1⟩, hx.1.2.2.2⟩, hx.2⟩

end Ulp.Rb
