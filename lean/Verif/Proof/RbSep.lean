/-
Trees in memory, taken apart into disjoint components.
-/
import Verif.Spec.RbTree
namespace Ulp.Rb

namespace Tree

/-- `mk d c a i b`: `a` on the side `d` (`true` is right), `b` on the other. -/
def mk (d c : Bool) (a : Tree) (i : Nat) (b : Tree) : Tree :=
  if d then node c b i a else node c a i b

def blacken : Tree → Tree
  | leaf => leaf
  | node _ l i r => node true l i r

def recolor (c : Bool) : Tree → Tree
  | leaf => leaf
  | node _ l i r => node c l i r

@[simp] theorem ptr_mk (d c : Bool) (a : Tree) (i : Nat) (b : Tree) : ptr (mk d c a i b) = i := by
  cases d <;> rfl
@[simp] theorem ptr_blacken (t : Tree) : ptr (blacken t) = ptr t := by cases t <;> rfl
@[simp] theorem ids_blacken (t : Tree) : ids (blacken t) = ids t := by cases t <;> rfl
@[simp] theorem ptr_recolor (c : Bool) (t : Tree) : ptr (recolor c t) = ptr t := by cases t <;> rfl
@[simp] theorem ids_recolor (c : Bool) (t : Tree) : ids (recolor c t) = ids t := by cases t <;> rfl
@[simp] theorem isRed_mk (d c : Bool) (a : Tree) (i : Nat) (b : Tree) : isRed (mk d c a i b) = !c := by
  cases d <;> rfl
@[simp] theorem blacken_mk (d c : Bool) (a : Tree) (i : Nat) (b : Tree) :
    blacken (mk d c a i b) = mk d true a i b := by cases d <;> rfl
@[simp] theorem recolor_mk (d c c' : Bool) (a : Tree) (i : Nat) (b : Tree) :
    recolor c' (mk d c a i b) = mk d c' a i b := by cases d <;> rfl
theorem blacken_eq (t : Tree) : blacken t = recolor true t := by cases t <;> rfl

theorem count_ids_mk (x : Nat) (d c : Bool) (a : Tree) (i : Nat) (b : Tree) :
    (ids (mk d c a i b)).count x = (ids a).count x + [i].count x + (ids b).count x := by
  cases d <;> simp [mk, ids, List.count_append, List.count_cons] <;> omega

theorem mem_ids_ptr {t : Tree} (h : ptr t ≠ 0) : ptr t ∈ ids t := by
  cases t with
  | leaf => exact absurd rfl h
  | node c l i r => simp [ptr, ids]

theorem exists_mk (d c : Bool) (l : Tree) (i : Nat) (r : Tree) :
    ∃ a b, node c l i r = mk d c a i b := by
  cases d
  · exact ⟨l, r, rfl⟩
  · exact ⟨r, l, rfl⟩

end Tree
open Tree

/-- The node with `a` on the side `d` and `b` on the other. -/
def nd (d : Bool) (par : Nat) (c : Bool) (a b : Nat) : RbNode :=
  if d then ⟨par, c, b, a⟩ else ⟨par, c, a, b⟩

/-- The child on the side `d`. -/
def sel (d : Bool) (n : RbNode) : Nat := if d then n.right else n.left

@[simp] theorem nd_par (d : Bool) (par : Nat) (c : Bool) (a b : Nat) : (nd d par c a b).par = par := by
  cases d <;> rfl
@[simp] theorem nd_black (d : Bool) (par : Nat) (c : Bool) (a b : Nat) : (nd d par c a b).black = c := by
  cases d <;> rfl
@[simp] theorem sel_nd (d : Bool) (par : Nat) (c : Bool) (a b : Nat) : sel d (nd d par c a b) = a := by
  cases d <;> rfl
@[simp] theorem sel_not_nd (d : Bool) (par : Nat) (c : Bool) (a b : Nat) :
    sel (!d) (nd d par c a b) = b := by
  cases d <;> rfl
theorem nd_not (d : Bool) (par : Nat) (c : Bool) (a b : Nat) :
    nd (!d) par c a b = nd d par c b a := by
  cases d <;> rfl
theorem mk_not (d c : Bool) (a : Tree) (i : Nat) (b : Tree) : mk (!d) c a i b = mk d c b i a := by
  cases d <;> rfl

theorem Rep_mk {m : Nat → Option RbNode} {par : Nat} {d c : Bool} {a : Tree} {i : Nat} {b : Tree} :
    Rep m par (mk d c a i b) ↔ i ≠ 0 ∧ m i = some (nd d par c (ptr a) (ptr b)) ∧ Rep m i a ∧ Rep m i b := by
  cases d
  · exact Iff.rfl
  · simp only [mk, Rep, nd, if_true]
    exact ⟨fun ⟨a, b, c, d⟩ => ⟨a, b, d, c⟩, fun ⟨a, b, c, d⟩ => ⟨a, b, d, c⟩⟩

theorem Rep.frame {m m' : Nat → Option RbNode} : ∀ {t : Tree} {par : Nat}, Rep m par t →
    (∀ x ∈ ids t, m' x = m x) → Rep m' par t
  | leaf, _, _, _ => trivial
  | node c l i r, par, h, hx => by
    refine ⟨h.1, ?_, h.2.2.1.frame fun x hm => hx x (by simp [ids, hm]),
      h.2.2.2.frame fun x hm => hx x (by simp [ids, hm])⟩
    rw [hx i (by simp [ids]), h.2.1]

theorem Rep.ne_zero {m : Nat → Option RbNode} : ∀ {t : Tree} {par : Nat}, Rep m par t → ∀ x ∈ ids t, x ≠ 0
  | leaf, _, _, x, hx => by simp [ids] at hx
  | node c l i r, par, h, x, hx => by
    simp only [ids, List.mem_append, List.mem_cons] at hx
    rcases hx with hx | hx | hx
    · exact h.2.2.1.ne_zero x hx
    · rw [hx]; exact h.1
    · exact h.2.2.2.ne_zero x hx

theorem Rep.ptr_zero {m : Nat → Option RbNode} {t : Tree} {par : Nat} (h : Rep m par t) :
    ptr t = 0 ↔ t = leaf := by
  cases t with
  | leaf => simp [ptr]
  | node c l i r => simp [ptr, h.1]

/-- One step of a path from a subtree up to the root: the subtree is on the side
`d` of the node `i`, whose other subtree is `sib`. -/
structure Frame where
  d : Bool
  c : Bool
  i : Nat
  sib : Tree
  deriving DecidableEq, Repr

/-- The tree with `t` at the end of the path. -/
def plug : List Frame → Tree → Tree
  | [], t => t
  | f :: K, t => plug K (mk f.d f.c t f.i f.sib)

def idsC : List Frame → List Nat
  | [] => []
  | f :: K => f.i :: (ids f.sib ++ idsC K)

/-- The parent of the subtree at the end of the path. -/
def cpar (pp : Nat) : List Frame → Nat
  | [] => pp
  | f :: _ => f.i

/-- The root of the whole. -/
def ptop : List Frame → Nat → Nat
  | [], p => p
  | f :: K, _ => ptop K f.i

/-- The path is in memory, leading to the pointer `p`; `pp` is the parent of the
whole. -/
def CRep (m : Nat → Option RbNode) (pp : Nat) : List Frame → Nat → Prop
  | [], _ => True
  | f :: K, p => f.i ≠ 0 ∧ m f.i = some (nd f.d (cpar pp K) f.c p (ptr f.sib)) ∧ Rep m f.i f.sib ∧
      CRep m pp K f.i

theorem Rep_plug {m : Nat → Option RbNode} {pp : Nat} : ∀ {K : List Frame} {t : Tree},
    Rep m pp (plug K t) ↔ CRep m pp K (ptr t) ∧ Rep m (cpar pp K) t
  | [], t => by simp [plug, CRep, cpar]
  | f :: K, t => by
    rw [plug, Rep_plug, Rep_mk, CRep, ptr_mk, cpar]
    exact ⟨fun ⟨a, b, c, d, e⟩ => ⟨⟨b, c, e, a⟩, d⟩, fun ⟨⟨b, c, e, a⟩, d⟩ => ⟨a, b, c, d, e⟩⟩

theorem ptr_plug : ∀ (K : List Frame) (t : Tree), ptr (plug K t) = ptop K (ptr t)
  | [], _ => rfl
  | f :: K, t => by rw [plug, ptr_plug K, ptr_mk, ptop]

theorem count_ids_plug (x : Nat) : ∀ (K : List Frame) (t : Tree),
    (ids (plug K t)).count x = (ids t).count x + (idsC K).count x
  | [], t => by simp [plug, idsC]
  | f :: K, t => by
    rw [plug, count_ids_plug x K, count_ids_mk, idsC]
    simp [List.count_cons, List.count_append]
    omega

theorem CRep.frame {m m' : Nat → Option RbNode} {pp : Nat} : ∀ {K : List Frame} {p : Nat}, CRep m pp K p →
    (∀ x ∈ idsC K, m' x = m x) → CRep m' pp K p
  | [], _, _, _ => trivial
  | f :: K, p, h, hx => by
    refine ⟨h.1, ?_, h.2.2.1.frame fun x hm => hx x (by simp [idsC, hm]),
      h.2.2.2.frame fun x hm => hx x (by simp [idsC, hm])⟩
    rw [hx f.i (by simp [idsC]), h.2.1]

theorem CRep.ne_zero {m : Nat → Option RbNode} {pp : Nat} : ∀ {K : List Frame} {p : Nat}, CRep m pp K p →
    ∀ x ∈ idsC K, x ≠ 0
  | [], _, _, x, hx => by simp [idsC] at hx
  | f :: K, p, h, x, hx => by
    simp only [idsC, List.mem_append, List.mem_cons] at hx
    rcases hx with hx | hx | hx
    · rw [hx]; exact h.1
    · exact h.2.2.1.ne_zero x hx
    · exact h.2.2.2.ne_zero x hx

/-- A part of the memory: one node, a subtree, the path from the root pointer
down to `hole`, or a path from below some other node. -/
inductive Comp where
  | cell (i : Nat) (n : RbNode)
  | tree (par : Nat) (t : Tree)
  | ctx (K : List Frame) (hole : Nat)
  | sub (pp : Nat) (K : List Frame) (hole : Nat)

namespace Comp

/-- The locations of a part; 0 stands for the root pointer. -/
def ids : Comp → List Nat
  | cell i _ => [i]
  | tree _ t => t.ids
  | ctx K _ => 0 :: idsC K
  | sub _ K _ => idsC K

def holds (s : St) : Comp → Prop
  | cell i n => i ≠ 0 ∧ s.m i = some n
  | tree par t => Rep s.m par t
  | ctx K hole => CRep s.m 0 K hole ∧ s.root = ptop K hole
  | sub pp K hole => CRep s.m pp K hole

theorem holds.frame {s s' : St} {c : Comp} (h : c.holds s) (hm : ∀ x ∈ c.ids, s'.m x = s.m x)
    (hr : 0 ∈ c.ids → s'.root = s.root) : c.holds s' := by
  cases c with
  | cell i n => exact ⟨h.1, by rw [hm i (by simp [ids]), h.2]⟩
  | tree par t => exact Rep.frame h hm
  | ctx K hole =>
    refine ⟨h.1.frame fun x hx => hm x (by simp [ids, hx]), ?_⟩
    rw [hr (by simp [ids]), h.2]
  | sub pp K hole => exact CRep.frame h hm

end Comp
open Comp

/-- The memory `s` consists of the disjoint parts `cs`, and is as in `s0`
elsewhere. -/
structure Holds (s0 s : St) (cs : List Comp) : Prop where
  each : ∀ c ∈ cs, c.holds s
  nodup : (cs.flatMap Comp.ids).Nodup
  outside : ∀ x, x ≠ 0 → x ∉ cs.flatMap Comp.ids → s.m x = s0.m x

theorem nodup_of_count {a b : List Nat} (h : ∀ x, a.count x = b.count x) (hn : b.Nodup) : a.Nodup := by
  rw [List.nodup_iff_count] at hn ⊢
  intro x
  rw [h]
  exact hn x

theorem mem_of_count {a b : List Nat} (h : ∀ x, a.count x = b.count x) {x : Nat} (hx : x ∈ a) : x ∈ b := by
  rw [← List.count_pos_iff] at hx ⊢
  rw [← h]
  exact hx

/-- Other parts of the same memory. -/
theorem Holds.refold {s0 s : St} {cs cs' : List Comp} (h : Holds s0 s cs)
    (hc : ∀ x, (cs'.flatMap Comp.ids).count x = (cs.flatMap Comp.ids).count x)
    (he : ∀ c ∈ cs', c.holds s) : Holds s0 s cs' :=
  ⟨he, nodup_of_count hc h.nodup, fun x h0 hx =>
    h.outside x h0 fun hm => hx (mem_of_count (fun y => (hc y).symm) hm)⟩

theorem split_of_getElem? {α : Type} : ∀ {l : List α} {k : Nat} {c : α}, l[k]? = some c →
    ∃ a b, l = a ++ c :: b ∧ ∀ c', l.set k c' = a ++ c' :: b
  | [], k, c, h => by simp at h
  | x :: l, 0, c, h => by
    simp at h
    subst h
    exact ⟨[], l, rfl, fun c' => rfl⟩
  | x :: l, k + 1, c, h => by
    obtain ⟨a, b, e, hs⟩ := split_of_getElem? (l := l) (k := k) (c := c) (by simpa using h)
    exact ⟨x :: a, b, by rw [e]; rfl, fun c' => by rw [List.set_cons_succ, hs c']; rfl⟩

/-- Changing one part. -/
theorem Holds.step {s0 s s' : St} {cs : List Comp} (h : Holds s0 s cs) {k : Nat} {c c' : Comp}
    (hk : cs[k]? = some c) (hc' : c'.holds s') (hi : c'.ids = c.ids)
    (hm : ∀ x, x ∉ c.ids → s'.m x = s.m x) (hr : 0 ∉ c.ids → s'.root = s.root) :
    Holds s0 s' (cs.set k c') := by
  obtain ⟨a, b, e, hs⟩ := split_of_getElem? hk
  have hids : (cs.set k c').flatMap Comp.ids = cs.flatMap Comp.ids := by
    rw [hs, e]
    simp [hi]
  refine ⟨?_, by rw [hids]; exact h.nodup, ?_⟩
  · intro x hx
    rw [hs] at hx
    have hdis : ∀ y ∈ a ++ b, ∀ z ∈ y.ids, z ∉ c.ids := by
      have hn := h.nodup
      rw [e] at hn
      simp only [List.flatMap_append, List.flatMap_cons] at hn
      rw [List.nodup_append] at hn
      obtain ⟨_, hn2, hd⟩ := hn
      rw [List.nodup_append] at hn2
      intro y hy z hz hzc
      rcases List.mem_append.1 hy with hy | hy
      · exact hd z (List.mem_flatMap.2 ⟨y, hy, hz⟩) z (by simp [hzc]) rfl
      · exact hn2.2.2 z hzc z (List.mem_flatMap.2 ⟨y, hy, hz⟩) rfl
    have hother : ∀ y ∈ a ++ b, y.holds s' := by
      intro y hy
      refine (h.each y ?_).frame (fun z hz => hm z (hdis y hy z hz)) fun h0 => hr (hdis y hy 0 h0)
      rw [e]
      rcases List.mem_append.1 hy with hy | hy <;> simp [hy]
    rcases List.mem_append.1 hx with hx | hx
    · exact hother x (by simp [hx])
    · rcases List.mem_cons.1 hx with hx | hx
      · rw [hx]; exact hc'
      · exact hother x (by simp [hx])
  · intro x h0 hx
    rw [hids] at hx
    rw [hm x ?_, h.outside x h0 hx]
    intro hmem
    refine hx (List.mem_flatMap.2 ⟨c, ?_, hmem⟩)
    rw [e]
    simp

theorem Holds.at {s0 s : St} {cs : List Comp} (h : Holds s0 s cs) (k : Nat) {c : Comp}
    (hk : cs[k]? = some c) : c.holds s := h.each c (List.mem_of_getElem? hk)

theorem Holds.get {s0 s : St} {cs : List Comp} (h : Holds s0 s cs) (k : Nat) {i : Nat} {n : RbNode}
    (hk : cs[k]? = some (cell i n)) : get s i = some n := by
  have := h.at k hk
  rw [Rb.get, if_neg this.1, this.2]

theorem Holds.ne_zero {s0 s : St} {cs : List Comp} (h : Holds s0 s cs) (k : Nat) {i : Nat} {n : RbNode}
    (hk : cs[k]? = some (cell i n)) : i ≠ 0 := (h.at k hk).1

/-- Two different parts have no location in common. -/
theorem Holds.disj {s0 s : St} {cs : List Comp} (h : Holds s0 s cs) {j k : Nat} (hjk : j < k) {c c' : Comp}
    (hj : cs[j]? = some c) (hk : cs[k]? = some c') : ∀ x ∈ c.ids, x ∉ c'.ids := by
  intro x hx hx'
  obtain ⟨a, b, e, _⟩ := split_of_getElem? hj
  have hlen : a.length = j := by
    have h1 := hj
    rw [e] at h1
    have hn := h.nodup
    by_cases hl : j < a.length
    · rw [List.getElem?_append_left hl] at h1
      exfalso
      rw [e] at hn
      simp only [List.flatMap_append, List.flatMap_cons] at hn
      rw [List.nodup_append] at hn
      exact hn.2.2 x (List.mem_flatMap.2 ⟨c, List.mem_of_getElem? h1, hx⟩) x (by simp [hx]) rfl
    · rw [List.getElem?_append_right (by omega)] at h1
      by_cases hl2 : j = a.length
      · omega
      · have : (j - a.length) = (j - a.length - 1) + 1 := by omega
        rw [this, List.getElem?_cons_succ] at h1
        exfalso
        rw [e] at hn
        simp only [List.flatMap_append, List.flatMap_cons] at hn
        rw [List.nodup_append] at hn
        have h2 := hn.2.1
        rw [List.nodup_append] at h2
        exact h2.2.2 x hx x (List.mem_flatMap.2 ⟨c, List.mem_of_getElem? h1, hx⟩) rfl
  have hk2 := hk
  rw [e, List.getElem?_append_right (by omega)] at hk2
  have : (k - a.length) = (k - a.length - 1) + 1 := by omega
  rw [this, List.getElem?_cons_succ] at hk2
  have hn := h.nodup
  rw [e] at hn
  simp only [List.flatMap_append, List.flatMap_cons] at hn
  rw [List.nodup_append] at hn
  have h2 := hn.2.1
  rw [List.nodup_append] at h2
  exact h2.2.2 x hx x (List.mem_flatMap.2 ⟨c', List.mem_of_getElem? hk2, hx'⟩) rfl

theorem Holds.upd {s0 s : St} {cs : List Comp} (h : Holds s0 s cs) (k : Nat) {i : Nat} {n : RbNode}
    (n' : RbNode) (hk : cs[k]? = some (cell i n)) : Holds s0 (upd s i n') (cs.set k (cell i n')) := by
  refine h.step hk ⟨(h.at k hk).1, by simp [Rb.upd]⟩ rfl ?_ fun _ => rfl
  intro x hx
  simp only [Comp.ids, List.mem_singleton] at hx
  simp [Rb.upd, hx]

/-- Writing a child pointer on the side `d`. -/
def setCh (d : Bool) (s : St) (p v : Nat) : Option St := if d then setRight s p v else setLeft s p v

theorem Holds.setNear {s0 s : St} {cs : List Comp} (h : Holds s0 s cs) (k : Nat) {i : Nat} {d : Bool}
    {par : Nat} {c : Bool} {a b : Nat} (v : Nat) (hk : cs[k]? = some (cell i (nd d par c a b))) :
    ∃ s', setCh d s i v = some s' ∧ Holds s0 s' (cs.set k (cell i (nd d par c v b))) := by
  refine ⟨Rb.upd s i (nd d par c v b), ?_, h.upd k _ hk⟩
  cases d
  · simp only [setCh, setLeft, h.get k hk, nd]; rfl
  · simp only [setCh, setRight, h.get k hk, nd]; rfl

theorem Holds.setFar {s0 s : St} {cs : List Comp} (h : Holds s0 s cs) (k : Nat) {i : Nat} {d : Bool}
    {par : Nat} {c : Bool} {a b : Nat} (v : Nat) (hk : cs[k]? = some (cell i (nd d par c a b))) :
    ∃ s', setCh (!d) s i v = some s' ∧ Holds s0 s' (cs.set k (cell i (nd d par c a v))) := by
  refine ⟨Rb.upd s i (nd d par c a v), ?_, h.upd k _ hk⟩
  cases d
  · simp only [setCh, setRight, h.get k hk, nd]; rfl
  · simp only [setCh, setLeft, h.get k hk, nd]; rfl

theorem Holds.setParCol {s0 s : St} {cs : List Comp} (h : Holds s0 s cs) (k : Nat) {i : Nat} {d : Bool}
    {par : Nat} {c : Bool} {a b : Nat} (p' : Nat) (c' : Bool)
    (hk : cs[k]? = some (cell i (nd d par c a b))) :
    ∃ s', rbSetParentColor s i p' c' = some s' ∧ Holds s0 s' (cs.set k (cell i (nd d p' c' a b))) := by
  refine ⟨Rb.upd s i (nd d p' c' a b), ?_, h.upd k _ hk⟩
  cases d <;> simp only [rbSetParentColor, h.get k hk, nd] <;> rfl

theorem Holds.setPar {s0 s : St} {cs : List Comp} (h : Holds s0 s cs) (k : Nat) {i : Nat} {d : Bool}
    {par : Nat} {c : Bool} {a b : Nat} (p' : Nat) (hk : cs[k]? = some (cell i (nd d par c a b))) :
    ∃ s', rbSetParent s i p' = some s' ∧ Holds s0 s' (cs.set k (cell i (nd d p' c a b))) := by
  refine ⟨Rb.upd s i (nd d p' c a b), ?_, h.upd k _ hk⟩
  cases d <;> simp only [rbSetParent, h.get k hk, nd] <;> rfl

theorem Holds.setBlack {s0 s : St} {cs : List Comp} (h : Holds s0 s cs) (k : Nat) {i : Nat} {d : Bool}
    {par : Nat} {c : Bool} {a b : Nat} (hk : cs[k]? = some (cell i (nd d par c a b))) :
    ∃ s', rbSetBlack s i = some s' ∧ Holds s0 s' (cs.set k (cell i (nd d par true a b))) := by
  refine ⟨Rb.upd s i (nd d par true a b), ?_, h.upd k _ hk⟩
  cases d <;> simp only [rbSetBlack, h.get k hk, nd] <;> rfl

/-- The word of the root of a subtree. -/
theorem Holds.treeSet {s0 s : St} {cs : List Comp} (h : Holds s0 s cs) (k : Nat) {par : Nat} {t : Tree}
    (p' : Nat) (c' : Bool) (hk : cs[k]? = some (tree par t)) (ht : ptr t ≠ 0) :
    ∃ s', rbSetParentColor s (ptr t) p' c' = some s' ∧ Holds s0 s' (cs.set k (tree p' (recolor c' t))) := by
  cases t with
  | leaf => exact absurd rfl ht
  | node c l i r =>
    have hr : Rep s.m par (node c l i r) := h.at k hk
    refine ⟨Rb.upd s i ⟨p', c', ptr l, ptr r⟩, ?_, h.step hk ?_ ?_ ?_ fun _ => rfl⟩
    · simp only [ptr, rbSetParentColor, Rb.get, hr.1, hr.2.1, if_false]
      rfl
    · have hn := h.nodup
      obtain ⟨a, b, e, _⟩ := split_of_getElem? hk
      rw [e] at hn
      simp only [List.flatMap_append, List.flatMap_cons, Comp.ids] at hn
      have h1 := (List.nodup_append.1 (List.nodup_append.1 hn).2.1).1
      rw [Tree.ids, List.nodup_append] at h1
      refine ⟨hr.1, by simp [Rb.upd], hr.2.2.1.frame ?_, hr.2.2.2.frame ?_⟩
      · intro x hx
        have : x ≠ i := h1.2.2 x hx i (by simp)
        simp [Rb.upd, this]
      · intro x hx
        have : x ≠ i := fun e => (List.nodup_cons.1 h1.2.1).1 (by rw [← e]; exact hx)
        simp [Rb.upd, this]
    · simp [Comp.ids]
    · intro x hx
      have : x ≠ i := fun e => hx (by simp [Comp.ids, Tree.ids, e])
      simp [Rb.upd, this]

theorem Holds.treeBlackIf {s0 s : St} {cs : List Comp} (h : Holds s0 s cs) (k : Nat) {par : Nat} {t : Tree}
    (p' : Nat) (hk : cs[k]? = some (tree par t)) :
    ∃ s', setParentBlackIf s (ptr t) p' = some s' ∧ Holds s0 s' (cs.set k (tree p' (blacken t))) := by
  by_cases ht : ptr t = 0
  · refine ⟨s, by simp [setParentBlackIf, ht], h.step hk ?_ ?_ (fun _ _ => rfl) fun _ => rfl⟩
    · rw [(Rep.ptr_zero (h.at k hk : Rep s.m par t)).1 ht]; trivial
    · simp [Comp.ids]
  · obtain ⟨s', e, h'⟩ := h.treeSet k p' true hk ht
    exact ⟨s', by simp [setParentBlackIf, ht, e], by rw [blacken_eq]; exact h'⟩

theorem Holds.treePar {s0 s : St} {cs : List Comp} (h : Holds s0 s cs) (k : Nat) {par : Nat} {t : Tree}
    (p' : Nat) (hk : cs[k]? = some (tree par t)) (ht : ptr t ≠ 0) :
    ∃ s', rbSetParent s (ptr t) p' = some s' ∧ Holds s0 s' (cs.set k (tree p' t)) := by
  cases t with
  | leaf => exact absurd rfl ht
  | node c l i r =>
    obtain ⟨s', e, h'⟩ := h.treeSet k p' c hk ht
    refine ⟨s', ?_, h'⟩
    have hr : Rep s.m par (node c l i r) := h.at k hk
    rw [← e]
    simp only [ptr, rbSetParentColor, rbSetParent, Rb.get, hr.1, hr.2.1, if_false]
    rfl

theorem Holds.treeParIf {s0 s : St} {cs : List Comp} (h : Holds s0 s cs) (k : Nat) {par : Nat} {t : Tree}
    (p' : Nat) (hk : cs[k]? = some (tree par t)) :
    ∃ s', setParentIf s (ptr t) p' = some s' ∧ Holds s0 s' (cs.set k (tree p' t)) := by
  by_cases ht : ptr t = 0
  · refine ⟨s, by simp [setParentIf, ht], h.step hk ?_ rfl (fun _ _ => rfl) fun _ => rfl⟩
    rw [(Rep.ptr_zero (h.at k hk : Rep s.m par t)).1 ht]; trivial
  · obtain ⟨s', e, h'⟩ := h.treePar k p' hk ht
    exact ⟨s', by simp [setParentIf, ht, e], h'⟩

theorem Holds.isRed {s0 s : St} {cs : List Comp} (h : Holds s0 s cs) (k : Nat) {par : Nat} {t : Tree}
    (hk : cs[k]? = some (tree par t)) : isRedNode s (ptr t) = some t.isRed := by
  have hr : Rep s.m par t := h.at k hk
  cases t with
  | leaf => rfl
  | node c l i r => simp [isRedNode, ptr, hr.1, Rb.get, hr.2.1, Tree.isRed]

/-- `__rb_change_child` on the path. -/
theorem Holds.changeChild {s0 s : St} {cs : List Comp} (h : Holds s0 s cs) (k : Nat) {K : List Frame}
    {old : Nat} (new : Nat) (hk : cs[k]? = some (ctx K old)) (ho : old ∉ idsC K) (ho0 : old ≠ 0) :
    ∃ s', rbChangeChild s old new (cpar 0 K) = some s' ∧ Holds s0 s' (cs.set k (ctx K new)) := by
  obtain ⟨hc, hr⟩ : CRep s.m 0 K old ∧ s.root = ptop K old := h.at k hk
  cases K with
  | nil =>
    refine ⟨{ s with root := new }, by simp [rbChangeChild, cpar], h.step hk ⟨trivial, rfl⟩ rfl
      (fun _ _ => rfl) ?_⟩
    intro h0
    simp [Comp.ids] at h0
  | cons f K =>
    obtain ⟨h1, h2, h3, h4⟩ := hc
    have hg : Rb.get s f.i = some (nd f.d (cpar 0 K) f.c old (ptr f.sib)) := by
      rw [Rb.get, if_neg h1, h2]
    have hne : ptr f.sib ≠ old := by
      intro e
      have : old ∈ ids f.sib := by
        rw [← e]
        exact mem_ids_ptr (by rw [e]; exact ho0)
      exact ho (by simp [idsC, this])
    refine ⟨Rb.upd s f.i (nd f.d (cpar 0 K) f.c new (ptr f.sib)), ?_, h.step hk ?_ rfl ?_ ?_⟩
    · rw [rbChangeChild, cpar, if_pos h1, hg]
      simp only [Option.bind_eq_bind, Option.bind_some]
      cases hd : f.d
      · simp only [nd, hd] at hg ⊢
        simp [setLeft, hg]
      · simp only [nd, hd] at hg ⊢
        simp [setRight, hg, hne]
    · have hn := h.nodup
      obtain ⟨a, b, e, _⟩ := split_of_getElem? hk
      rw [e] at hn
      simp only [List.flatMap_append, List.flatMap_cons, Comp.ids] at hn
      have h5 := (List.nodup_append.1 (List.nodup_append.1 hn).2.1).1
      rw [idsC] at h5
      have h6 := (List.nodup_cons.1 (List.nodup_cons.1 h5).2).1
      refine ⟨⟨h1, by simp [Rb.upd], h3.frame ?_, h4.frame ?_⟩, ?_⟩
      · intro x hx
        have : x ≠ f.i := fun e => h6 (by rw [← e]; simp [hx])
        simp [Rb.upd, this]
      · intro x hx
        have : x ≠ f.i := fun e => h6 (by rw [← e]; simp [hx])
        simp [Rb.upd, this]
      · rw [show (Rb.upd s f.i (nd f.d (cpar 0 K) f.c new (ptr f.sib))).root = s.root from rfl, hr]
        rfl
    · intro x hx
      have : x ≠ f.i := fun e => hx (by simp [Comp.ids, idsC, e])
      simp [Rb.upd, this]
    · intro _
      rfl

theorem Holds.root {s0 s : St} {cs : List Comp} (h : Holds s0 s cs) (k : Nat) {K : List Frame}
    {p : Nat} (hk : cs[k]? = some (ctx K p)) : s.root = ptop K p := (h.at k hk).2

end Ulp.Rb
