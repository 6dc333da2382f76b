/-
Lemmas about the known mappings.
-/
import Verif.Proof.RbIter
import Verif.Props.RbTree
import Verif.Model.Vma
import Verif.Spec.Range
namespace Ulp.Vma
open Rb (St RbNode Tree IsTree RB Mono hd)
open Rb.Tree (ids)
open Range

/-- The range a mapping covers. -/
def rangeOf (v : Vma) : Range := ⟨v.start.toNat, v.stop.toNat⟩

structure Inv (s : Vmas) (known : Known) (t : Tree) : Prop where
  tree : IsTree s.rb t
  rb : RB t
  ne : ∀ n ∈ ids t, (s.info n).start < (s.info n).stop
  sorted : (ids t).Pairwise fun x y => (s.info x).stop ≤ (s.info y).start
  known : ∀ p r, (p, r) ∈ known ↔ p ∈ ids t ∧ r = rangeOf (s.info p)

theorem apart_iff {v w : Vma} (hv : v.start < v.stop) (hw : w.start < w.stop) :
    Apart (rangeOf v) (rangeOf w) ↔ v.stop ≤ w.start ∨ w.stop ≤ v.start := by
  simp only [Apart, Range.Has, rangeOf, BitVec.le_def]
  rw [BitVec.lt_def] at hv hw
  constructor
  · intro h
    have := h (max v.start.toNat w.start.toNat)
    omega
  · intro h a
    omega

theorem vmaCmp_cases {v n : Vma} (hv : v.start < v.stop) (hn : n.start < n.stop) :
    (vmaCmp v n < 0 ↔ n.stop ≤ v.start) ∧ (vmaCmp v n > 0 ↔ v.stop ≤ n.start) ∧
    (vmaCmp v n = 0 ↔ ¬ Apart (rangeOf v) (rangeOf n)) := by
  rw [apart_iff hv hn]
  simp only [vmaCmp, BitVec.le_def, BitVec.lt_def, gt_iff_lt] at *
  split
  · omega
  · split
    · omega
    · split <;> omega

theorem vmaCmp_mono {info : Nat → Vma} {l : List Nat} {n : Vma} (hn : n.start < n.stop)
    (hne : ∀ x ∈ l, (info x).start < (info x).stop)
    (hs : l.Pairwise fun x y => (info x).stop ≤ (info y).start) : Mono (fun x => vmaCmp (info x) n) l := by
  refine hs.imp_of_mem ?_
  intro x y hx hy hxy
  obtain ⟨a1, a2, _⟩ := vmaCmp_cases (hne x hx) hn
  obtain ⟨b1, b2, _⟩ := vmaCmp_cases (hne y hy) hn
  rw [a1, b1, b2, a2]
  have h1 := hne x hx
  have h2 := hne y hy
  simp only [BitVec.le_def, BitVec.lt_def] at *
  omega

theorem findCmp_cases {v : Vma} {a : BitVec 64} (hv : v.start < v.stop) :
    (findCmp v a < 0 ↔ a < v.start) ∧ (findCmp v a > 0 ↔ v.stop ≤ a) ∧
    (findCmp v a = 0 ↔ (rangeOf v).Has a.toNat) := by
  simp only [findCmp, Range.Has, rangeOf, BitVec.le_def, BitVec.lt_def, gt_iff_lt] at *
  split
  · omega
  · split <;> omega

theorem findCmp_mono {info : Nat → Vma} {l : List Nat} (a : BitVec 64)
    (hne : ∀ x ∈ l, (info x).start < (info x).stop)
    (hs : l.Pairwise fun x y => (info x).stop ≤ (info y).start) : Mono (fun x => findCmp (info x) a) l := by
  refine hs.imp_of_mem ?_
  intro x y hx hy hxy
  obtain ⟨a1, a2, _⟩ := findCmp_cases (a := a) (hne x hx)
  obtain ⟨b1, b2, _⟩ := findCmp_cases (a := a) (hne y hy)
  rw [a1, b1, b2, a2]
  have h1 := hne x hx
  have h2 := hne y hy
  simp only [BitVec.le_def, BitVec.lt_def] at *
  omega

/-- `find_vma` -/
theorem Inv.find {s : Vmas} {known : Known} {t : Tree} (h : Inv s known t) (a : BitVec 64) :
    ∃ r, findVma s a = some r ∧ ((r = 0 ∧ ∀ q ∈ known, ¬ q.2.Has a.toNat) ∨
      (r ≠ 0 ∧ r ∈ ids t ∧ (rangeOf (s.info r)).Has a.toNat)) := by
  obtain ⟨r, e, hr⟩ := Rb.searchLoop_ok h.tree.rep (findCmp_mono (info := s.info) a h.ne h.sorted)
  refine ⟨r, by rw [findVma, Rb.rbSearchNode, h.tree.root, e], ?_⟩
  rcases hr with ⟨rfl, hr⟩ | ⟨hr, h0⟩
  · refine Or.inl ⟨rfl, ?_⟩
    rintro ⟨p, r⟩ hq hh
    obtain ⟨h1, rfl⟩ := (h.known p r).1 hq
    exact hr p h1 ((findCmp_cases (h.ne p h1)).2.2.2 hh)
  · exact Or.inr ⟨h.tree.rep.ne_zero r hr, hr, (findCmp_cases (h.ne r hr)).2.2.1 h0⟩

/-- Only one known mapping contains an address. -/
theorem Inv.unique {s : Vmas} {known : Known} {t : Tree} (h : Inv s known t) {x y a : Nat} (hx : x ∈ ids t)
    (hy : y ∈ ids t) (hxa : (rangeOf (s.info x)).Has a) (hya : (rangeOf (s.info y)).Has a) : x = y := by
  apply Decidable.byContradiction
  intro hne
  have hp := h.sorted
  have key : ∀ {x y : Nat}, (s.info x).stop ≤ (s.info y).start → (rangeOf (s.info x)).Has a →
      (rangeOf (s.info y)).Has a → False := by
    intro x y h1 h2 h3
    simp only [Range.Has, rangeOf, BitVec.le_def] at *
    omega
  obtain ⟨p, q, e⟩ := List.append_of_mem hx
  rw [e] at hy hp
  obtain ⟨_, h2, h3⟩ := List.pairwise_append.1 hp
  simp only [List.mem_append, List.mem_cons] at hy
  rcases hy with hy | hy | hy
  · exact key (h3 y hy x (by simp)) hya hxa
  · exact hne hy.symm
  · exact key ((List.pairwise_cons.1 h2).1 y hy) hxa hya

/-- What a mapping looks like after it was made and inserted after `prev`. -/
def newVma (s : Vmas) (p prev : Nat) (a b : BitVec 64) (nm : List Byte) : Vma :=
  ⟨a, b, nm, if prev ≠ 0 ∧ (s.info prev).name = nm then (s.info prev).leader else p⟩

theorem info_joinGroup {s : Vmas} {p prev : Nat} {a b : BitVec 64} {nm : List Byte} (hp : prev ≠ p) (x : Nat) :
    (joinGroup (allocVma s p a b nm) p prev).info x = if x = p then newVma s p prev a b nm else s.info x := by
  unfold joinGroup newVma
  have h1 : (allocVma s p a b nm).info prev = s.info prev := by simp [allocVma, hp]
  have h2 : (allocVma s p a b nm).info p = ⟨a, b, nm, p⟩ := by simp [allocVma]
  rw [h1, h2]
  by_cases h : prev ≠ 0 ∧ (s.info prev).name = nm
  · rw [if_pos h, if_pos h]
    by_cases hx : x = p
    · simp [hx]
    · simp [hx, allocVma]
  · rw [if_neg h, if_neg h]
    simp [allocVma]

theorem rb_joinGroup (s : Vmas) (p prev : Nat) : (joinGroup s p prev).rb = s.rb := by
  unfold joinGroup; split <;> rfl

theorem list_joinGroup (s : Vmas) (p prev : Nat) : (joinGroup s p prev).list = s.list := by
  unfold joinGroup; split <;> rfl

/-- `alloc_vma` and `insert_vma`: if the new range is apart from all that are
known it is known too; if not, it is in the list and nothing else. -/
theorem Inv.insert {s : Vmas} {known : Known} {t : Tree} (h : Inv s known t) {p prev : Nat} {a b : BitVec 64}
    {nm : List Byte} (hp0 : p ≠ 0) (hpt : p ∉ ids t) (hpp : prev ≠ p) (hab : a < b) :
    ∃ s' t', insertVma (allocVma s p a b nm) p prev = some s' ∧ s'.list = s.list ++ [p] ∧
      s'.sibs = (joinGroup (allocVma s p a b nm) p prev).sibs ∧
      (∀ x, s'.info x = if x = p then newVma s p prev a b nm else s.info x) ∧
      (∀ x, x ≠ 0 → x ≠ p → x ∉ ids t → s'.rb.m x = s.rb.m x) ∧
      (((∀ q ∈ known, Apart q.2 ⟨a.toNat, b.toNat⟩) ∧ (∃ u v, ids t = u ++ v ∧ ids t' = u ++ p :: v) ∧
          Inv s' ((p, ⟨a.toNat, b.toNat⟩) :: known) t') ∨
        ((∃ q ∈ known, ¬ Apart q.2 ⟨a.toNat, b.toNat⟩) ∧ t' = t ∧ Inv s' known t ∧
          s'.rb.m p = some ⟨0, false, 0, 0⟩)) := by
  generalize hv : newVma s p prev a b nm = v
  have hvs : v.start = a ∧ v.stop = b := by rw [← hv]; exact ⟨rfl, rfl⟩
  have hvr : rangeOf v = ⟨a.toNat, b.toNat⟩ := by rw [rangeOf, hvs.1, hvs.2]
  have hvne : v.start < v.stop := by rw [hvs.1, hvs.2]; exact hab
  generalize hs1 : ({ joinGroup (allocVma s p a b nm) p prev with
    list := (joinGroup (allocVma s p a b nm) p prev).list ++ [p] } : Vmas) = s1
  have hinfo : ∀ x, s1.info x = if x = p then v else s.info x := by
    intro x
    rw [← hs1, ← hv]
    exact info_joinGroup hpp x
  have hrb : s1.rb = Rb.upd s.rb p ⟨0, false, 0, 0⟩ := by
    rw [← hs1]
    show (joinGroup (allocVma s p a b nm) p prev).rb = _
    rw [rb_joinGroup]
    rfl
  have hlist : s1.list = s.list ++ [p] := by
    rw [← hs1]
    show (joinGroup (allocVma s p a b nm) p prev).list ++ [p] = _
    rw [list_joinGroup]
    rfl
  have hsib : s1.sibs = (joinGroup (allocVma s p a b nm) p prev).sibs := by rw [← hs1]
  have hi : ∀ x ∈ ids t, s1.info x = s.info x := by
    intro x hx
    rw [hinfo, if_neg]
    exact fun e => hpt (by rw [← e]; exact hx)
  have hip : s1.info p = v := by rw [hinfo, if_pos rfl]
  have htree : IsTree s1.rb t := by
    rw [hrb]
    refine ⟨h.tree.root, h.tree.rep.frame ?_, h.tree.nodup⟩
    intro x hx
    have : x ≠ p := fun e => hpt (by rw [← e]; exact hx)
    simp [Rb.upd, this]
  have hne : ∀ x ∈ ids t, (s1.info x).start < (s1.info x).stop := by
    intro x hx
    rw [hi x hx]
    exact h.ne x hx
  have hsort : (ids t).Pairwise fun x y => (s1.info x).stop ≤ (s1.info y).start := by
    refine h.sorted.imp_of_mem ?_
    intro x y hx hy hxy
    rw [hi x hx, hi y hy]
    exact hxy
  have hmono := vmaCmp_mono (info := s1.info) (n := s1.info p) (by rw [hip]; exact hvne) hne hsort
  have hmp : s1.rb.m p ≠ none := by rw [hrb]; simp [Rb.upd]
  have hins : insertVma (allocVma s p a b nm) p prev =
      (Rb.rbInsertNode s1.rb p fun n => vmaCmp (s1.info n) (s1.info p)).bind fun r => some { s1 with rb := r.1 } := by
    rw [insertVma, ← hs1]
    rfl
  rcases Rb.rbInsertNode_ok htree h.rb hmono hp0 hpt hmp with
    ⟨n, hn, h0, e⟩ | ⟨hno, s', t', u, w, e, ht', hrb', e1, e2, hu, hw, ho⟩
  · refine ⟨s1, t, ?_, hlist, hsib, hinfo, ?_, Or.inr ⟨?_, rfl, ?_, ?_⟩⟩
    · rw [hins, e]; rfl
    · intro x _ hx _
      rw [hrb]
      simp [Rb.upd, hx]
    · refine ⟨(n, rangeOf (s.info n)), (h.known _ _).2 ⟨hn, rfl⟩, ?_⟩
      have := (vmaCmp_cases (hne n hn) (by rw [hip]; exact hvne)).2.2.1 h0
      rw [hi n hn, hip, hvr] at this
      exact this
    · refine ⟨htree, h.rb, hne, hsort, ?_⟩
      intro q r
      rw [h.known]
      constructor
      · rintro ⟨h1, h2⟩
        exact ⟨h1, by rw [h2, hi q h1]⟩
      · rintro ⟨h1, h2⟩
        exact ⟨h1, by rw [h2, hi q h1]⟩
    · rw [hrb]
      simp [Rb.upd]
  · have hmem : ∀ m, m ∈ ids t' ↔ m = p ∨ m ∈ ids t := by
      intro m
      rw [e1, e2]
      simp only [List.mem_append, List.mem_cons]
      constructor
      · rintro (h | h | h) <;> simp [h]
      · rintro (h | h | h) <;> simp [h]
    refine ⟨{ s1 with rb := s' }, t', ?_, hlist, hsib, hinfo, ?_, Or.inl ⟨?_, ⟨u, w, e1, e2⟩, ?_⟩⟩
    · rw [hins, e]; rfl
    · intro x hx0 hxp hxt
      show s'.m x = _
      rw [ho x hx0 (fun hm => ((hmem x).1 hm).elim hxp hxt), hrb]
      simp [Rb.upd, hxp]
    · rintro ⟨q, r⟩ hq
      obtain ⟨hqt, rfl⟩ := (h.known q r).1 hq
      apply Classical.byContradiction
      intro hap
      have := (vmaCmp_cases (v := s1.info q) (n := s1.info p) (hne q hqt) (by rw [hip]; exact hvne)).2.2.2
      rw [hi q hqt, hip, hvr] at this
      have h2 := hno q hqt
      rw [hi q hqt, hip] at h2
      exact h2 (this hap)
    · refine ⟨ht', hrb', ?_, ?_, ?_⟩
      · intro x hx
        rcases (hmem x).1 hx with rfl | hx
        · show (s1.info x).start < _
          rw [hip]; exact hvne
        · exact hne x hx
      · show (ids t').Pairwise fun x y => (s1.info x).stop ≤ (s1.info y).start
        rw [e1] at hsort
        rw [e2]
        have hmu : ∀ x ∈ u, x ∈ ids t := fun x hx => by rw [e1]; simp [hx]
        have hmw : ∀ x ∈ w, x ∈ ids t := fun x hx => by rw [e1]; simp [hx]
        obtain ⟨s1', s2', s3'⟩ := List.pairwise_append.1 hsort
        refine List.pairwise_append.2 ⟨s1', List.pairwise_cons.2 ⟨?_, s2'⟩, ?_⟩
        · intro y hy
          exact (vmaCmp_cases (hne y (hmw y hy)) (by rw [hip]; exact hvne)).1.1 (hw y hy)
        · intro x hx y hy
          rcases List.mem_cons.1 hy with rfl | hy
          · exact (vmaCmp_cases (hne x (hmu x hx)) (by rw [hip]; exact hvne)).2.1.1 (hu x hx)
          · exact s3' x hx y hy
      · intro q r
        show _ ↔ q ∈ ids t' ∧ r = rangeOf (s1.info q)
        rw [List.mem_cons, hmem, h.known, Prod.mk.injEq]
        constructor
        · rintro (⟨rfl, rfl⟩ | ⟨h1, rfl⟩)
          · exact ⟨Or.inl rfl, by rw [hip, hvr]⟩
          · exact ⟨Or.inr h1, by rw [hi q h1]⟩
        · rintro ⟨rfl | h1, rfl⟩
          · exact Or.inl ⟨rfl, by rw [hip, hvr]⟩
          · exact Or.inr ⟨h1, by rw [hi q h1]⟩

/-- `unlink_vma` of a mapping in the tree. -/
theorem Inv.unlink {s : Vmas} {known : Known} {t : Tree} (h : Inv s known t) {p : Nat} (hp : p ∈ ids t) :
    ∃ s' t', unlinkVma s p = some s' ∧ s'.list = s.list.filter (· ≠ p) ∧ s'.info = s.info ∧
      (∃ u v, ids t = u ++ p :: v ∧ ids t' = u ++ v) ∧ s'.rb.m p = s.rb.m p ∧
      (∀ x, x ≠ 0 → x ∉ ids t → s'.rb.m x = s.rb.m x) ∧ Inv s' (known.filter (·.1 ≠ p)) t' := by
  obtain ⟨rb, t', u, v, e, ht', hrb', e1, e2, hsn, ho⟩ := Rb.rbErase_tree h.tree h.rb hp
  have hnd := h.tree.nodup
  have hmem : ∀ m, m ∈ ids t' ↔ m ≠ p ∧ m ∈ ids t := by
    intro m
    rw [e1, List.nodup_append, List.nodup_cons] at hnd
    rw [e1, e2]
    simp only [List.mem_append, List.mem_cons]
    constructor
    · rintro (hm | hm)
      · exact ⟨fun e => hnd.2.2 m hm p (by simp) e, Or.inl hm⟩
      · exact ⟨fun e => hnd.2.1.1 (by rw [← e]; exact hm), Or.inr (Or.inr hm)⟩
    · rintro ⟨h1, hm | hm | hm⟩
      · exact Or.inl hm
      · exact absurd hm h1
      · exact Or.inr hm
  refine ⟨⟨rb, s.info, s.list.filter (· ≠ p), fun x => (s.sibs x).filter (· ≠ p)⟩, t',
    by rw [unlinkVma, e]; rfl, rfl, rfl, ⟨u, v, e1, e2⟩, hsn, ho, ht', hrb', ?_, ?_, ?_⟩
  · intro n hn
    exact h.ne n ((hmem n).1 hn).2
  · have := h.sorted
    rw [e1] at this
    rw [e2]
    exact this.sublist (List.sublist_append_left u [p] |>.append (List.Sublist.refl v) |> (by simpa using ·))
  · intro q r
    rw [List.mem_filter, h.known, hmem]
    simp only [ne_eq, decide_not, Bool.not_eq_true', decide_eq_false_iff_not]
    constructor
    · rintro ⟨⟨h1, h2⟩, h3⟩
      exact ⟨⟨h3, h1⟩, h2⟩
    · rintro ⟨⟨h3, h1⟩, h2⟩
      exact ⟨⟨h1, h2⟩, h3⟩

theorem Inv.init (info : Nat → Vma) : Inv (initVmas info) [] .leaf :=
  ⟨⟨rfl, trivial, by simp [ids]⟩, ⟨rfl, trivial, 0, rfl⟩, by simp [ids], by simp [ids], by simp [ids]⟩

/-! `find_vma_span_area` -/

theorem spanLoop_ok {s : Vmas} {t : Tree} (h : IsTree s.rb t) (size : BitVec 64) : ∀ (l a : List Nat),
    ids t = a ++ l → ∃ r, spanLoop s size (hd l) = some r ∧
      ((r = 0 ∧ ∀ u x y v, l = u ++ x :: y :: v → ¬ (s.info y).start - (s.info x).stop ≥ size) ∨
       ∃ u x y v, l = u ++ x :: y :: v ∧ (s.info y).start - (s.info x).stop ≥ size ∧ r = (s.info x).stop)
  | [], a, _ => by
    refine ⟨0, ?_, Or.inl ⟨rfl, by simp⟩⟩
    rw [spanLoop, hd]; rfl
  | [x], a, e => by
    refine ⟨0, ?_, Or.inl ⟨rfl, ?_⟩⟩
    · have hx : hd [x] = x := rfl
      rw [spanLoop, hx, if_neg (h.rep.ne_zero x (by rw [e]; simp)), Rb.rbNext_seq h e]
      simp [hd]
    · intro u x' y' v e
      have := congrArg List.length e
      simp at this
      omega
  | x :: y :: l, a, e => by
    have hx : hd (x :: y :: l) = x := rfl
    have hy0 : y ≠ 0 := h.rep.ne_zero y (by rw [e]; simp)
    rw [spanLoop, hx, if_neg (h.rep.ne_zero x (by rw [e]; simp)), Rb.rbNext_seq h e]
    simp only [Option.bind_eq_bind, Option.bind_some, hd, hy0, if_false]
    by_cases hg : (s.info y).start - (s.info x).stop ≥ size
    · rw [if_pos hg]
      exact ⟨_, rfl, Or.inr ⟨[], x, y, l, rfl, hg, rfl⟩⟩
    · rw [if_neg hg]
      obtain ⟨r, er, hr⟩ := spanLoop_ok h size (y :: l) (a ++ [x]) (by rw [e]; simp)
      refine ⟨r, er, ?_⟩
      rcases hr with ⟨h0, hr⟩ | ⟨u, x', y', v, e', hr, hr'⟩
      · refine Or.inl ⟨h0, ?_⟩
        intro u x' y' v e'
        cases u with
        | nil =>
          simp only [List.nil_append, List.cons.injEq] at e'
          rw [← e'.1, ← e'.2.1]
          exact hg
        | cons z u =>
          simp only [List.cons_append, List.cons.injEq] at e'
          exact hr u x' y' v e'.2
      · exact Or.inr ⟨x :: u, x', y', v, by rw [e']; rfl, hr, hr'⟩

end Ulp.Vma
