/-
`__rb_insert` on trees.
-/
import Verif.Proof.RbSep
namespace Ulp.Rb
open Tree Comp

/-! The two mirrored branches as one function of the side. -/

def insertCase3 (d : Bool) (s : St) (parent gparent tmp : Nat) : Option St := do
  let s ← setCh d s gparent tmp
  let s ← setCh (!d) s parent gparent
  let s ← setParentBlackIf s tmp gparent
  rbRotateSetParents s gparent parent false

def insertRot (d : Bool) (s : St) (node parent gparent : Nat) : Option St := do
  let p ← get s parent
  let tmp := sel (!d) p
  if node = tmp then
    let n ← get s node
    let tmp := sel d n
    let s ← setCh (!d) s parent tmp
    let s ← setCh d s node parent
    let s ← setParentBlackIf s tmp parent
    let s ← rbSetParentColor s parent node false
    let n ← get s node
    insertCase3 d s node gparent (sel (!d) n)
  else insertCase3 d s parent gparent tmp

theorem insertCase3_false : insertCase3 false = insertCase3L := rfl
theorem insertCase3_true : insertCase3 true = insertCase3R := rfl
theorem insertRot_false : insertRot false = insertRotL := rfl
theorem insertRot_true : insertRot true = insertRotR := rfl

/-! What `__rb_insert` does to the tree. -/

/-- The rotations, at the grandparent `g` whose subtree on the side `g.d` is the
parent `f` of the node `t`. -/
def insRot (g f : Frame) (t : Tree) : Option Tree :=
  if f.d = g.d then
    some (mk g.d g.c t f.i (mk g.d false (blacken f.sib) g.i g.sib))
  else
    match t with
    | leaf => none
    | node _ l n r =>
      if g.d then some (mk g.d g.c (mk g.d false f.sib f.i (blacken r)) n (mk g.d false (blacken l) g.i g.sib))
      else some (mk g.d g.c (mk g.d false f.sib f.i (blacken l)) n (mk g.d false (blacken r) g.i g.sib))

theorem insRot_inner {g f : Frame} {c : Bool} {a b : Tree} {n : Nat} (h : f.d ≠ g.d) :
    insRot g f (mk g.d c a n b) =
      some (mk g.d g.c (mk g.d false f.sib f.i (blacken a)) n (mk g.d false (blacken b) g.i g.sib)) := by
  unfold insRot
  rw [if_neg h]
  cases hd : g.d <;> simp [mk]

def insFix : List Frame → Tree → Option Tree
  | [], t => some (blacken t)
  | [f], t => if f.c then some (plug [f] t) else none
  | f :: g :: K, t =>
    if f.c then some (plug (f :: g :: K) t)
    else if g.sib.isRed then
      insFix K (mk g.d false (mk f.d true t f.i f.sib) g.i (blacken g.sib))
    else (insRot g f t).map (plug K)

/-- The whole tree is in memory and reachable from the root pointer. -/
def RepT (s0 s : St) (t : Tree) : Prop := Holds s0 s [ctx [] (ptr t), tree 0 t]

theorem RepT_plug {s0 s : St} {K : List Frame} {t : Tree} :
    RepT s0 s (plug K t) ↔ Holds s0 s [ctx K (ptr t), tree (cpar 0 K) t] := by
  constructor
  · intro h
    have h0 := h.at 0 rfl
    have h1 : Rep s.m 0 (plug K t) := h.at 1 rfl
    rw [Rep_plug] at h1
    refine h.refold ?_ ?_
    · intro x
      simp [Comp.ids, idsC, List.count_cons, List.count_append, count_ids_plug]
      omega
    · intro c hc
      simp only [List.mem_cons, List.not_mem_nil, or_false] at hc
      rcases hc with rfl | rfl
      · refine ⟨h1.1, ?_⟩
        rw [h0.2, ptop, ptr_plug]
      · exact h1.2
  · intro h
    have h0 := h.at 0 rfl
    have h1 : Rep s.m (cpar 0 K) t := h.at 1 rfl
    refine h.refold ?_ ?_
    · intro x
      simp [Comp.ids, idsC, List.count_cons, List.count_append, count_ids_plug]
      omega
    · intro c hc
      simp only [List.mem_cons, List.not_mem_nil, or_false] at hc
      rcases hc with rfl | rfl
      · refine ⟨trivial, ?_⟩
        rw [h0.2, ptop, ptr_plug]
      · exact Rep_plug.2 ⟨h0.1, h1⟩

/-- Taking the last step of the path off. -/
theorem Holds.unstep {s0 s : St} {cs : List Comp} {f : Frame} {K : List Frame} {p : Nat}
    (h : Holds s0 s (ctx (f :: K) p :: cs)) :
    Holds s0 s (ctx K f.i :: cell f.i (nd f.d (cpar 0 K) f.c p (ptr f.sib)) :: tree f.i f.sib :: cs) := by
  obtain ⟨⟨h1, h2, h3, h4⟩, h5⟩ := h.at 0 rfl
  refine h.refold ?_ ?_
  · intro x
    simp [Comp.ids, idsC, List.count_cons, List.count_append]
    omega
  · intro c hc
    simp only [List.mem_cons] at hc
    rcases hc with rfl | rfl | rfl | hc
    · exact ⟨h4, h5⟩
    · exact ⟨h1, h2⟩
    · exact h3
    · exact h.each c (by simp [hc])

theorem Holds.untree {s0 s : St} {cs : List Comp} {d c : Bool} {a b : Tree} {i par : Nat}
    (h : Holds s0 s (tree par (Tree.mk d c a i b) :: cs)) :
    Holds s0 s (cell i (nd d par c (ptr a) (ptr b)) :: tree i a :: tree i b :: cs) := by
  obtain ⟨h1, h2, h3, h4⟩ := Rep_mk.1 (h.at 0 rfl : Rep s.m par (Tree.mk d c a i b))
  refine h.refold ?_ ?_
  · intro x
    simp [Comp.ids, count_ids_mk, List.count_cons, List.count_append]
    omega
  · intro c hc
    simp only [List.mem_cons] at hc
    rcases hc with rfl | rfl | rfl | hc
    · exact ⟨h1, h2⟩
    · exact h3
    · exact h4
    · exact h.each c (by simp [hc])

/-- The same parts in another order. -/
theorem Holds.front {s0 s : St} {cs : List Comp} (h : Holds s0 s cs) (k : Nat) {c : Comp}
    (hk : cs[k]? = some c) : Holds s0 s (c :: cs.eraseIdx k) := by
  refine h.refold ?_ ?_
  · intro x
    have : ∀ (l : List Comp) (k : Nat), l[k]? = some c →
        (l.flatMap Comp.ids).count x = c.ids.count x + ((l.eraseIdx k).flatMap Comp.ids).count x := by
      intro l
      induction l with
      | nil => intro k h; simp at h
      | cons a l ih =>
        intro k h
        cases k with
        | zero => simp at h; subst h; simp
        | succ k =>
          have := ih k (by simpa using h)
          simp only [List.flatMap_cons, List.count_append, List.eraseIdx_cons_succ] at this ⊢
          omega
    rw [List.flatMap_cons, List.count_append, this cs k hk]
  · intro c' hc
    rcases List.mem_cons.1 hc with rfl | hc
    · exact h.at k hk
    · exact h.each c' (List.mem_of_mem_eraseIdx hc)

theorem Holds.append_mono {s0 s : St} {cs cs' : List Comp} (h : Holds s0 s cs)
    (hp : ∀ x, (cs'.flatMap Comp.ids).count x = (cs.flatMap Comp.ids).count x)
    (he : ∀ c ∈ cs', c ∈ cs) : Holds s0 s cs' :=
  h.refold hp fun c hc => h.each c (he c hc)

/-- The last rotation, `__rb_rotate_set_parents`, and what precedes it. -/
theorem insertCase3_ok {s0 s : St} {cs : List Comp} {K : List Frame} {d : Bool} {g p : Nat} {gc pc : Bool}
    {x u a pp tp : Nat} {T : Tree}
    (h : Holds s0 s (ctx K g :: cell g (nd d (cpar 0 K) gc x u) :: cell p (nd d pp pc a (ptr T)) ::
      tree tp T :: cs)) :
    ∃ s', insertCase3 d s p g (ptr T) = some s' ∧
      Holds s0 s' (ctx K p :: cell g (nd d p false (ptr T) u) :: cell p (nd d (cpar 0 K) gc a g) ::
        tree g (blacken T) :: cs) := by
  have hg0 := h.ne_zero 1 rfl
  have hgK : g ∉ idsC K := fun hm => h.disj (j := 0) (k := 1) (by omega) rfl rfl g (by simp [Comp.ids, hm])
    (by simp [Comp.ids])
  obtain ⟨s1, e1, h1⟩ := h.setNear 1 (ptr T) rfl
  obtain ⟨s2, e2, h2⟩ := h1.setFar 2 g rfl
  obtain ⟨s3, e3, h3⟩ := h2.treeBlackIf 3 g rfl
  have hgg := h3.get 1 rfl
  obtain ⟨s4, e4, h4⟩ := h3.setParCol 2 (cpar 0 K) gc rfl
  obtain ⟨s5, e5, h5⟩ := h4.setParCol 1 p false rfl
  obtain ⟨s6, e6, h6⟩ := h5.changeChild 0 p rfl hgK hg0
  refine ⟨s6, ?_, h6⟩
  simp [insertCase3, e1, e2, e3, rbRotateSetParents, hgg, e4, e5, e6]

theorem insertRot_ok {s0 s : St} {K : List Frame} {g f : Frame} {t T : Tree} (ht : t ≠ leaf)
    (h : Holds s0 s [ctx (f :: g :: K) (ptr t), tree f.i t]) (hT : insRot g f t = some T) :
    ∃ s', insertRot g.d s (ptr t) f.i g.i = some s' ∧ Holds s0 s' [ctx K (ptr T), tree (cpar 0 K) T] := by
  have h1 : Holds s0 s [ctx K g.i, cell g.i (nd g.d (cpar 0 K) g.c f.i (ptr g.sib)), tree g.i g.sib,
      cell f.i (nd f.d g.i f.c (ptr t) (ptr f.sib)), tree f.i f.sib, tree f.i t] := h.unstep.unstep
  have hget := h1.get 3 rfl
  by_cases hd : f.d = g.d
  · unfold insRot at hT
    rw [if_pos hd] at hT
    cases hT
    have hne : ptr t ≠ ptr f.sib := by
      intro e
      have hr : Rep s.m f.i t := h1.at 5 rfl
      have ht0 : ptr t ≠ 0 := fun e => ht (hr.ptr_zero.1 e)
      exact h1.disj (j := 4) (k := 5) (by omega) rfl rfl (ptr t)
        (by rw [e] at ht0 ⊢; exact mem_ids_ptr ht0) (mem_ids_ptr ht0)
    rw [hd] at h1 hget
    have h2 : Holds s0 s [ctx K g.i, cell g.i (nd g.d (cpar 0 K) g.c f.i (ptr g.sib)),
        cell f.i (nd g.d g.i f.c (ptr t) (ptr f.sib)), tree f.i f.sib, tree g.i g.sib, tree f.i t] :=
      h1.append_mono (by intro x; simp [Comp.ids, List.count_cons, List.count_append]; omega) (by simp)
    obtain ⟨s', e, h3⟩ := insertCase3_ok h2
    refine ⟨s', ?_, ?_⟩
    · simp [insertRot, hget, hne, e]
    · refine h3.refold ?_ ?_
      · intro x
        simp [Comp.ids, List.count_cons, List.count_append, count_ids_mk]
        omega
      · intro c hc
        simp only [List.mem_cons, List.not_mem_nil, or_false] at hc
        rcases hc with rfl | rfl
        · rw [ptr_mk]; exact h3.at 0 rfl
        · refine Rep_mk.2 ⟨h3.ne_zero 2 rfl, ?_, h3.at 5 rfl, Rep_mk.2 ⟨h3.ne_zero 1 rfl, ?_, h3.at 3 rfl,
            h3.at 4 rfl⟩⟩
          · rw [ptr_mk]; exact (h3.at 2 rfl).2
          · rw [ptr_blacken]; exact (h3.at 1 rfl).2
  · have hd' : f.d = !g.d := by
      revert hd
      cases f.d <;> cases g.d <;> simp
    cases t with
    | leaf => exact absurd rfl ht
    | node tc l n r =>
      obtain ⟨a, b, et⟩ := exists_mk g.d tc l n r
      rw [et] at h1 hT hget ⊢
      rw [insRot_inner hd] at hT
      cases hT
      rw [ptr_mk] at h1 hget ⊢
      rw [hd', nd_not] at h1 hget
      have h2 := (h1.front 5 rfl).untree
      have h3 : Holds s0 s [ctx K g.i, cell g.i (nd g.d (cpar 0 K) g.c f.i (ptr g.sib)),
          cell n (nd g.d f.i tc (ptr a) (ptr b)), tree n b,
          cell f.i (nd g.d g.i f.c (ptr f.sib) n), tree f.i f.sib, tree n a, tree g.i g.sib] :=
        h2.append_mono (by intro x; simp [Comp.ids, List.count_cons, List.count_append]; omega)
          (by simp)
      have hgn := h3.get 2 rfl
      obtain ⟨s1, e1, k1⟩ := h3.setFar 4 (ptr a) rfl
      obtain ⟨s2, e2, k2⟩ := k1.setNear 2 f.i rfl
      obtain ⟨s3, e3, k3⟩ := k2.treeBlackIf 6 f.i rfl
      obtain ⟨s4, e4, k4⟩ := k3.setParCol 4 n false rfl
      have hgn4 := k4.get 2 rfl
      obtain ⟨s5, e5, k5⟩ := insertCase3_ok k4
      refine ⟨s5, ?_, ?_⟩
      · simp [insertRot, hget, hgn, e1, e2, e3, e4, hgn4, e5]
      · refine k5.refold ?_ ?_
        · intro x
          simp [Comp.ids, List.count_cons, List.count_append, count_ids_mk]
          omega
        · intro c hc
          simp only [List.mem_cons, List.not_mem_nil, or_false] at hc
          rcases hc with rfl | rfl
          · rw [ptr_mk]; exact k5.at 0 rfl
          · refine Rep_mk.2 ⟨k5.ne_zero 2 rfl, ?_, Rep_mk.2 ⟨k5.ne_zero 4 rfl, ?_, k5.at 5 rfl, k5.at 6 rfl⟩,
              Rep_mk.2 ⟨k5.ne_zero 1 rfl, ?_, k5.at 3 rfl, k5.at 7 rfl⟩⟩
            · rw [ptr_mk, ptr_mk]; exact (k5.at 2 rfl).2
            · rw [ptr_blacken]; exact (k5.at 4 rfl).2
            · rw [ptr_blacken]; exact (k5.at 1 rfl).2

theorem insertFlip_ok {s0 s : St} {K : List Frame} {g f : Frame} {t : Tree}
    (hr : g.sib.isRed = true) (h : Holds s0 s [ctx (f :: g :: K) (ptr t), tree f.i t]) :
    ∃ s', insertFlip s (ptr g.sib) f.i g.i = some (s', cpar 0 K) ∧
      Holds s0 s' [ctx K g.i,
        tree (cpar 0 K) (mk g.d false (mk f.d true t f.i f.sib) g.i (blacken g.sib))] := by
  have h1 : Holds s0 s [ctx K g.i, cell g.i (nd g.d (cpar 0 K) g.c f.i (ptr g.sib)), tree g.i g.sib,
      cell f.i (nd f.d g.i f.c (ptr t) (ptr f.sib)), tree f.i f.sib, tree f.i t] := h.unstep.unstep
  have hs0 : ptr g.sib ≠ 0 := by
    intro e
    rw [(Rep.ptr_zero (h1.at 2 rfl : Rep s.m g.i g.sib)).1 e] at hr
    cases hr
  obtain ⟨s1, e1, k1⟩ := h1.treeSet 2 g.i true rfl hs0
  obtain ⟨s2, e2, k2⟩ := k1.setParCol 3 g.i true rfl
  have hgg := k2.get 1 rfl
  obtain ⟨s3, e3, k3⟩ := k2.setParCol 1 (cpar 0 K) false rfl
  refine ⟨s3, by simp [insertFlip, e1, e2, hgg, e3], k3.refold ?_ ?_⟩
  · intro x
    simp [Comp.ids, List.count_cons, List.count_append, count_ids_mk]
    omega
  · intro c hc
    simp only [List.mem_cons, List.not_mem_nil, or_false] at hc
    rcases hc with rfl | rfl
    · exact k3.at 0 rfl
    · refine Rep_mk.2 ⟨k3.ne_zero 1 rfl, ?_, Rep_mk.2 ⟨k3.ne_zero 3 rfl, (k3.at 3 rfl).2, k3.at 5 rfl, k3.at 4 rfl⟩, ?_⟩
      · rw [ptr_mk, ptr_blacken]; exact (k3.at 1 rfl).2
      · rw [blacken_eq]; exact k3.at 2 rfl

/-- `__rb_insert` refines `insFix`. -/
theorem insertLoop_ok {s0 : St} : ∀ (K : List Frame) (t T : Tree) (s : St), t ≠ leaf →
    Holds s0 s [ctx K (ptr t), tree (cpar 0 K) t] → insFix K t = some T →
    ∃ s', insertLoop s (ptr t) (cpar 0 K) = some s' ∧ RepT s0 s' T
  | [], t, T, s, ht, h, hT => by
    have ht0 : ptr t ≠ 0 := fun e => ht ((Rep.ptr_zero (h.at 1 rfl : Rep s.m 0 t)).1 e)
    rw [insFix] at hT
    cases hT
    obtain ⟨s', e, h'⟩ := h.treeSet 1 0 true rfl ht0
    refine ⟨s', ?_, ?_⟩
    · rw [insertLoop, cpar, if_pos rfl, e]
    · rw [RepT, blacken_eq, ptr_recolor]
      exact h'
  | [f], t, T, s, ht, h, hT => by
    rw [insFix] at hT
    cases hc : f.c
    · simp [hc] at hT
    · simp only [hc, if_true, Option.some.injEq] at hT
      have hg := h.unstep.get 1 rfl
      have hf0 := h.unstep.ne_zero 1 rfl
      refine ⟨s, ?_, by rw [← hT]; exact RepT_plug.2 h⟩
      rw [insertLoop, cpar, if_neg hf0, hg]
      simp [hc]
  | f :: g :: K, t, T, s, ht, h, hT => by
    rw [insFix] at hT
    have h1 : Holds s0 s [ctx K g.i, cell g.i (nd g.d (cpar 0 K) g.c f.i (ptr g.sib)), tree g.i g.sib,
      cell f.i (nd f.d g.i f.c (ptr t) (ptr f.sib)), tree f.i f.sib, tree f.i t] := h.unstep.unstep
    have hgf := h1.get 3 rfl
    have hf0 := h1.ne_zero 3 rfl
    have hgg := h1.get 1 rfl
    have hred := h1.isRed 2 rfl
    have hfs : f.i ≠ ptr g.sib := by
      intro e
      exact h1.disj (j := 2) (k := 3) (by omega) rfl rfl f.i
        (by rw [e]; exact mem_ids_ptr (by rw [← e]; exact hf0)) (by simp [Comp.ids])
    cases hc : f.c
    · simp only [hc, Bool.false_eq_true, if_false] at hT
      rw [insertLoop, cpar, if_neg hf0, hgf]
      simp only [Option.bind_eq_bind, Option.bind_some, nd_black, nd_par, hc, Bool.false_eq_true, if_false,
        hgg]
      cases hr : g.sib.isRed
      · rw [hr] at hT hred
        simp only [Bool.false_eq_true, if_false, Option.map_eq_some_iff] at hT
        obtain ⟨T', hT', rfl⟩ := hT
        obtain ⟨s', e, h'⟩ := insertRot_ok ht h hT'
        refine ⟨s', ?_, RepT_plug.2 h'⟩
        cases hd : g.d
        · rw [hd, insertRot_false] at e
          simp [nd, hfs, hred, e]
        · rw [hd, insertRot_true] at e
          simp [nd, hred, e]
      · rw [hr] at hT hred
        simp only [if_true] at hT
        obtain ⟨s1, e, h'⟩ := insertFlip_ok hr h
        obtain ⟨s', e', h''⟩ := insertLoop_ok K (mk g.d false (mk f.d true t f.i f.sib) g.i (blacken g.sib)) T s1
          (by cases g.d <;> simp [mk]) (by rw [ptr_mk]; exact h') hT
        refine ⟨s', ?_, h''⟩
        rw [ptr_mk] at e'
        cases hd : g.d
        · simp [nd, hfs, hred, e, e']
        · simp [nd, hred, e, e']
    · simp only [hc, if_true, Option.some.injEq] at hT
      refine ⟨s, ?_, by rw [← hT]; exact RepT_plug.2 h⟩
      rw [insertLoop, cpar, if_neg hf0, hgf]
      simp [hc]

end Ulp.Rb
