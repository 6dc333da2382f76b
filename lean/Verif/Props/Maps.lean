/-
C46: reading the memory map of a process (src/task/vma.c:321-405).
-/
import Verif.Props.Vma
namespace Ulp.Vma
open Rb (Tree IsTree hd)
open Rb.Tree (ids)
open Range

/-- The range of a line of the map. -/
def Line.range (e : Line) : Range := ⟨e.start.toNat, e.stop.toNat⟩

theorem readLines_false : ∀ (l : List (Nat × Line)) (s : Vmas) (prev : Nat),
    readLines false s l prev = vrun s (inserts prev l)
  | [], s, prev => rfl
  | (p, e) :: l, s, prev => by
    rw [readLines, if_neg (by simp), inserts, vrun, vstep]
    congr 1
    funext s
    exact readLines_false l s p

/-! ## Groups -/

/-- In the sequence of names, `j` is the first of the run of equal names that
`i` is in. -/
def FirstOfGroup (names : List (List Byte)) (i j : Nat) : Prop :=
  j ≤ i ∧ (∀ k, j ≤ k → k ≤ i → names[k]? = names[i]?) ∧ (j = 0 ∨ names[j - 1]? ≠ names[j]?)

theorem FirstOfGroup.append {a b : List (List Byte)} {i j : Nat} (h : FirstOfGroup a i j) (hi : i < a.length) :
    FirstOfGroup (a ++ b) i j := by
  obtain ⟨h1, h2, h3⟩ := h
  have key : ∀ k, k ≤ i → (a ++ b)[k]? = a[k]? := fun k hk => List.getElem?_append_left (by omega)
  refine ⟨h1, fun k hk hk' => ?_, ?_⟩
  · rw [key k hk', key i (Nat.le_refl _)]
    exact h2 k hk hk'
  · rcases h3 with h3 | h3
    · exact Or.inl h3
    · right
      rw [key j h1, key (j - 1) (by omega)]
      exact h3

/-- The structures made for the lines `done` are grouped: each leads to the first
of its group, and the leader's list has the others, in order. -/
def Grouped (s : Vmas) (done : List (Nat × Line)) : Prop :=
  (∀ i p e, done[i]? = some (p, e) → (s.info p).name = e.name ∧
    ∃ j q e', done[j]? = some (q, e') ∧ FirstOfGroup (done.map (·.2.name)) i j ∧ (s.info p).leader = q) ∧
  ∀ q e, (q, e) ∈ done → s.sibs q = (done.map (·.1)).filter fun p => p ≠ q ∧ (s.info p).leader = q

theorem nodup_getElem? {l : List (Nat × Line)} (h : (l.map (·.1)).Nodup) {i j p : Nat} {e f : Line}
    (hi : l[i]? = some (p, e)) (hj : l[j]? = some (p, f)) : i = j ∧ e = f := by
  have h1 : (l.map (·.1))[i]? = some p := by rw [List.getElem?_map, hi]; rfl
  have h2 : (l.map (·.1))[j]? = some p := by rw [List.getElem?_map, hj]; rfl
  have hil : i < (l.map (·.1)).length := (List.getElem?_eq_some_iff.1 h1).1
  have : i = j := (List.getElem?_inj hil h).1 (h1.trans h2.symm)
  subst this
  rw [hi] at hj
  cases hj
  exact ⟨rfl, rfl⟩

theorem Grouped.step {s s' : Vmas} {done : List (Nat × Line)} {p prev : Nat} {e : Line}
    (h : Grouped s done) (hn : (0 :: (done ++ [(p, e)]).map (·.1)).Nodup)
    (hprev : (done = [] ∧ prev = 0) ∨ ∃ d x, done = d ++ [(prev, x)])
    (hi : ∀ x, s'.info x = if x = p then newVma s p prev e.start e.stop e.name else s.info x)
    (hs : s'.sibs = (joinGroup (allocVma s p e.start e.stop e.name) p prev).sibs) :
    Grouped s' (done ++ [(p, e)]) := by
  obtain ⟨g1, g2⟩ := h
  rw [List.map_append, List.nodup_cons] at hn
  obtain ⟨hn0, hn⟩ := hn
  have hnd : (done.map (·.1)).Nodup := (List.nodup_append.1 hn).1
  have hpd : ∀ e', (p, e') ∉ done := by
    intro e' hm
    exact (List.nodup_append.1 hn).2.2 p (List.mem_map_of_mem (f := (·.1)) hm) p (by simp) rfl
  have hp0 : p ≠ 0 := fun e => hn0 (by simp [e])
  have hi' : ∀ q e', (q, e') ∈ done → s'.info q = s.info q := by
    intro q e' hm
    rw [hi, if_neg]
    rintro rfl
    exact hpd e' hm
  have hlead : ∀ q e', (q, e') ∈ done → ∃ e'', ((s.info q).leader, e'') ∈ done := by
    intro q e' hm
    obtain ⟨i, hi⟩ := List.getElem?_of_mem hm
    obtain ⟨_, j, q', e'', hj, _, hl⟩ := g1 i q e' hi
    rw [hl]
    exact ⟨e'', List.mem_of_getElem? hj⟩
  have hlen : ∀ {i : Nat} {x}, done[i]? = some x → i < done.length := fun h => (List.getElem?_eq_some_iff.1 h).1
  have hold : ∀ i q e', done[i]? = some (q, e') → (s'.info q).name = e'.name ∧
      ∃ j q' e'', (done ++ [(p, e)])[j]? = some (q', e'') ∧
        FirstOfGroup ((done ++ [(p, e)]).map (·.2.name)) i j ∧ (s'.info q).leader = q' := by
    intro i q e' hq
    obtain ⟨n1, j, q', e'', hj, hf, hl⟩ := g1 i q e' hq
    have hm := List.mem_of_getElem? hq
    rw [hi' q e' hm]
    refine ⟨n1, j, q', e'', ?_, ?_, hl⟩
    · rw [List.getElem?_append_left (hlen hj)]
      exact hj
    · rw [List.map_append]
      exact hf.append (by rw [List.length_map]; exact hlen hq)
  have hnew : (s'.info p).name = e.name ∧ ∃ j q' e'', (done ++ [(p, e)])[j]? = some (q', e'') ∧
      FirstOfGroup ((done ++ [(p, e)]).map (·.2.name)) done.length j ∧ (s'.info p).leader = q' := by
    rw [hi p, if_pos rfl]
    refine ⟨rfl, ?_⟩
    have hself : (done ++ [(p, e)])[done.length]? = some (p, e) := by simp
    rcases hprev with ⟨rfl, rfl⟩ | ⟨d, x, rfl⟩
    · refine ⟨0, p, e, by simp, ⟨Nat.le_refl _, ?_, Or.inl rfl⟩, ?_⟩
      · intro k _ hk
        have : k = 0 := by simpa using hk
        rw [this]; rfl
      · simp [newVma]
    · have hpi : (d ++ [(prev, x)])[d.length]? = some (prev, x) := by simp
      obtain ⟨m1, j, q', e'', hj, hf, hl⟩ := g1 d.length prev x hpi
      have hprev0 : prev ≠ 0 := fun e => hn0 (by simp [e])
      have hlast : ((d ++ [(prev, x)] ++ [(p, e)]).map (·.2.name))[d.length]? = some x.name := by simp
      have hlast2 : ((d ++ [(prev, x)] ++ [(p, e)]).map (·.2.name))[d.length + 1]? = some e.name := by
        simp only [List.map_append, List.map_cons, List.map_nil, List.append_assoc, List.cons_append, List.nil_append]
        rw [List.getElem?_append_right (by simp)]
        simp
      have hlen2 : (d ++ [(prev, x)]).length = d.length + 1 := by simp
      rw [hlen2]
      by_cases hname : x.name = e.name
      · refine ⟨j, q', e'', ?_, ⟨?_, ?_, ?_⟩, ?_⟩
        · rw [List.getElem?_append_left (hlen hj)]
          exact hj
        · exact Nat.le_succ_of_le hf.1
        · intro k hk hk'
          rw [hlast2]
          rcases Nat.lt_or_ge d.length k with hkl | hkl
          · rw [show k = d.length + 1 by omega, hlast2]
          · have h2 := hf.2.1 k hk hkl
            rw [List.map_append, List.getElem?_append_left (by simp; omega), h2]
            simp [hname]
        · rcases hf.2.2 with h0 | h0
          · exact Or.inl h0
          · right
            have hjl := hf.1
            rw [List.map_append, List.getElem?_append_left (by simp; omega),
              List.getElem?_append_left (by simp; omega)]
            exact h0
        · rw [newVma, if_pos ⟨hprev0, by rw [m1]; exact hname⟩]
          exact hl
      · refine ⟨d.length + 1, p, e, ?_, ⟨Nat.le_refl _, ?_, ?_⟩, ?_⟩
        · rw [← hlen2]; exact hself
        · intro k hk hk'
          rw [Nat.le_antisymm hk' hk]
        · right
          rw [hlast2, Nat.add_sub_cancel, hlast]
          simpa using hname
        · rw [newVma, if_neg]
          rintro ⟨_, h⟩
          rw [m1] at h
          exact hname h
  refine ⟨?_, ?_⟩
  · intro i q e' hq
    rcases Nat.lt_or_ge i done.length with hil | hil
    · rw [List.getElem?_append_left hil] at hq
      exact hold i q e' hq
    · rw [List.getElem?_append_right hil] at hq
      have : i - done.length = 0 := by
        cases hk : i - done.length with
        | zero => rfl
        | succ k => rw [hk] at hq; simp at hq
      rw [this] at hq
      simp only [List.length_cons, List.length_nil, Nat.zero_add, Nat.lt_add_one, getElem?_pos, List.getElem_cons_zero,
        Option.some.injEq, Prod.mk.injEq] at hq
      obtain ⟨rfl, rfl⟩ := hq
      rw [show i = done.length by omega]
      exact hnew
  · intro q e' hqm
    have hal : ∀ x, x ≠ p → (allocVma s p e.start e.stop e.name).sibs x = s.sibs x := by
      intro x hx
      simp [allocVma, hx]
    have hap : (allocVma s p e.start e.stop e.name).sibs p = [] := by simp [allocVma]
    -- the leader of the new structure, if it is another one
    have hfilt : ∀ (q : Nat), (done.map (·.1)).filter (fun x => decide (x ≠ q ∧ (s'.info x).leader = q)) =
        (done.map (·.1)).filter (fun x => decide (x ≠ q ∧ (s.info x).leader = q)) := by
      intro q
      apply List.filter_congr
      intro x hx
      obtain ⟨⟨y, f⟩, hy, rfl⟩ := List.mem_map.1 hx
      simp only [hi' y f hy]
    have hfp : (done.map (·.1)).filter (fun x => decide (x ≠ p ∧ (s.info x).leader = p)) = [] := by
      rw [List.filter_eq_nil_iff]
      intro x hx
      obtain ⟨⟨y, f⟩, hy, rfl⟩ := List.mem_map.1 hx
      obtain ⟨e'', hl⟩ := hlead y f hy
      simp only [decide_eq_true_eq, not_and]
      intro _ hl'
      rw [hl'] at hl
      exact hpd e'' hl
    have hjoin : ∀ x, s'.sibs x = if x = (s'.info p).leader ∧ x ≠ p then s.sibs x ++ [p]
        else if x = p then [] else s.sibs x := by
      intro x
      rw [hs, hi p, if_pos rfl]
      have hprevp : prev ≠ p := by
        rintro rfl
        rcases hprev with ⟨_, h0⟩ | ⟨d, y, hd⟩
        · exact hp0 h0
        · exact hpd y (by rw [hd]; simp)
      unfold joinGroup
      rw [show (allocVma s p e.start e.stop e.name).info prev = s.info prev by simp [allocVma, hprevp],
        show ((allocVma s p e.start e.stop e.name).info p).name = e.name by simp [allocVma]]
      by_cases hc : prev ≠ 0 ∧ (s.info prev).name = e.name
      · rw [if_pos hc]
        have hld : (newVma s p prev e.start e.stop e.name).leader = (s.info prev).leader := by
          simp [newVma, hc]
        rw [hld]
        have hpl : (s.info prev).leader ≠ p := by
          rcases hprev with ⟨_, h0⟩ | ⟨d, y, hd⟩
          · exact absurd h0 hc.1
          · obtain ⟨e'', hl⟩ := hlead prev y (by rw [hd]; simp)
            intro h
            rw [h] at hl
            exact hpd e'' hl
        by_cases hx : x = (s.info prev).leader
        · have hxp : x ≠ p := by rw [hx]; exact hpl
          simp only [hx, true_and]
          rw [if_pos trivial, if_pos hpl, hal _ hpl]
        · rw [if_neg fun h => hx h.1]
          simp only [hx, if_false]
          by_cases hxp : x = p
          · rw [if_pos hxp, hxp, hap]
          · rw [if_neg hxp, hal x hxp]
      · rw [if_neg hc]
        have hld : (newVma s p prev e.start e.stop e.name).leader = p := by
          simp only [newVma, if_neg hc]
        rw [hld, if_neg fun h => h.2 h.1]
        by_cases hxp : x = p
        · rw [if_pos hxp, hxp, hap]
        · rw [if_neg hxp, hal x hxp]
    rw [List.map_append, List.filter_append, hfilt, hjoin]
    rcases List.mem_append.1 hqm with hq | hq
    · have hqp : q ≠ p := by
        intro hqp
        rw [hqp] at hq
        exact hpd e' hq
      rw [← g2 q e' hq, if_neg hqp]
      by_cases hl : q = (s'.info p).leader
      · rw [if_pos ⟨hl, hqp⟩]
        simp [← hl, Ne.symm hqp]
      · rw [if_neg fun h => hl h.1]
        simp [Ne.symm hl]
    · simp only [List.mem_singleton, Prod.mk.injEq] at hq
      rw [hq.1, hfp, if_neg fun h => h.2 rfl, if_pos rfl]
      simp

theorem Grouped.run : ∀ (rest done : List (Nat × Line)) {s : Vmas} {a : Abs} {t : Tree} {prev : Nat}, Good s a t →
    Grouped s done → (0 :: (done ++ rest).map (·.1)).Nodup → a.used = done.map (·.1) →
    (∀ x ∈ rest, x.2.start < x.2.stop) → ((done = [] ∧ prev = 0) ∨ ∃ d x, done = d ++ [(prev, x)]) →
    ∃ s', readLines false s rest prev = some s' ∧ s'.list = (done ++ rest).map (·.1) ∧ Grouped s' (done ++ rest)
  | [], done, s, a, t, prev, hg, h, _, hu, _, _ => by
    refine ⟨s, rfl, ?_, ?_⟩
    · rw [hg.list, hu, List.append_nil]
    · rw [List.append_nil]; exact h
  | (p, e) :: rest, done, s, a, t, prev, hg, h, hn, hu, hr, hprev => by
    have hn' : (0 :: ((done ++ [(p, e)]) ++ rest).map (·.1)).Nodup := by simpa using hn
    have hn1 : (0 :: (done ++ [(p, e)]).map (·.1)).Nodup := by
      rw [List.map_append] at hn'
      exact (List.nodup_append.1 (show ((0 :: (done ++ [(p, e)]).map (·.1)) ++ rest.map (·.1)).Nodup from hn')).1
    have hp0 : p ≠ 0 := by
      rintro rfl
      exact (List.nodup_cons.1 hn1).1 (by simp)
    have hpu : p ∉ a.used := by
      rw [hu]
      intro hm
      have := (List.nodup_cons.1 hn1).2
      rw [List.map_append] at this
      exact (List.nodup_append.1 this).2.2 p hm p (by simp) rfl
    have hpp : prev ≠ p := by
      rintro rfl
      rcases hprev with ⟨_, h0⟩ | ⟨d, x, rfl⟩
      · exact hp0 h0
      · exact hpu (by rw [hu]; simp)
    obtain ⟨s1, t1, e1, hl1, hs1, hi1, _, _⟩ := hg.inv.insert (nm := e.name) hp0 (fun hm => hpu (hg.sub p hm)) hpp
      (hr (p, e) (by simp))
    obtain ⟨s1', t1', e1', hg1⟩ := hg.step (.insert p prev e.start e.stop e.name)
      ⟨hp0, hpu, hpp, hr (p, e) (by simp)⟩
    rw [vstep, e1] at e1'
    cases e1'
    have hused : (specStep a (.insert p prev e.start e.stop e.name)).used = (done ++ [(p, e)]).map (·.1) := by
      rw [← hg1.list, hl1, hg.list, hu]
      simp
    obtain ⟨s2, e2, hl2, hg2⟩ := Grouped.run rest (done ++ [(p, e)]) (prev := p) hg1
      (h.step hn1 hprev hi1 hs1) hn' hused (fun x hx => hr x (by simp [hx])) (Or.inr ⟨done, e, rfl⟩)
    refine ⟨s2, ?_, ?_, ?_⟩
    · rw [readLines, if_neg (by simp), e1]
      exact e2
    · rw [hl2]; simp
    · have : done ++ [(p, e)] ++ rest = done ++ (p, e) :: rest := by simp
      rw [← this]; exact hg2

/-- **C46.** The first reading of a map, whatever its lines: one structure per
line, in order; each leads to the first line of its run of equal names, and the
leader's list has exactly the others of the run. -/
theorem C46_first_read (info : Nat → Vma) (l : List (Nat × Line)) (hn : (0 :: l.map (·.1)).Nodup)
    (hl : ∀ x ∈ l, x.2.start < x.2.stop) :
    ∃ s, readTaskVmas (initVmas info) false l = some s ∧ s.list = l.map (·.1) ∧
      (∀ i p e, l[i]? = some (p, e) →
        ∃ j q e', l[j]? = some (q, e') ∧ FirstOfGroup (l.map (·.2.name)) i j ∧ (s.info p).leader = q) ∧
      ∀ q e, (q, e) ∈ l → s.sibs q = (l.map (·.1)).filter fun p => p ≠ q ∧ (s.info p).leader = q := by
  obtain ⟨s, e, h1, h2, h3⟩ := Grouped.run l [] (Good.init info) ⟨by simp, by simp⟩ (by simpa using hn) rfl hl
    (Or.inl ⟨rfl, rfl⟩)
  rw [List.nil_append] at h1 h2 h3
  exact ⟨s, e, h1, fun i p e hi => (h2 i p e hi).2, h3⟩

/-- **C46.** If the lines are apart from each other, as the kernel's are, every
address is then found in the structure of its line. -/
theorem C46_first_read_found (info : Nat → Vma) (l : List (Nat × Line)) (hn : (0 :: l.map (·.1)).Nodup)
    (hl : ∀ x ∈ l, x.2.start < x.2.stop) (hp : l.Pairwise fun x y => Apart x.2.range y.2.range) :
    ∃ s, readTaskVmas (initVmas info) false l = some s ∧
      (∀ a : BitVec 64, (∀ x ∈ l, ¬ (x.2.start ≤ a ∧ a < x.2.stop)) → findVma s a = some 0) ∧
      ∀ a : BitVec 64, ∀ x ∈ l, x.2.start ≤ a → a < x.2.stop → findVma s a = some x.1 := by
  rw [readTaskVmas, readLines_false]
  exact C30_disjoint_maps info l hn hl hp

/-! ## Reading the map again -/

theorem reread : ∀ (l : List (Nat × Line)) {s : Vmas} {known0 : Known} {a : Abs} {t : Tree} {prev : Nat}, Good s a t →
    (l.map (·.1)).Nodup → (∀ x ∈ l, x.1 ≠ 0 ∧ x.1 ∉ a.used ∧ x.1 ≠ prev ∧ x.2.start.toNat + 1 < x.2.stop.toNat) →
    l.Pairwise (fun x y => Apart x.2.range y.2.range) →
    (∀ q ∈ a.known, ∀ x ∈ l, q.2 = x.2.range ∨ Apart q.2 x.2.range) →
    (∀ x ∈ l, (∃ p, (p, x.2.range) ∈ a.known) ↔ ∃ p, (p, x.2.range) ∈ known0) →
    ∃ (s' : Vmas) (a' : Abs) (t' : Tree) (new : List (Nat × Line)), readLines true s l prev = some s' ∧ Good s' a' t' ∧
      (∀ x, x ∈ new ↔ x ∈ l ∧ ¬ ∃ p, (p, x.2.range) ∈ known0) ∧ new.Sublist l ∧
      s'.list = s.list ++ new.map (·.1) ∧
      ∀ q, q ∈ a'.known ↔ q ∈ a.known ∨ ∃ x ∈ new, q = (x.1, x.2.range)
  | [], s, known0, a, t, prev, hg, _, _, _, _, _ =>
    ⟨s, a, t, [], rfl, hg, by simp, by simp, by simp, by simp⟩
  | (p, e) :: l, s, known0, a, t, prev, hg, hn, hx, hp, hk, h0 => by
    rw [List.map_cons, List.nodup_cons] at hn
    rw [List.pairwise_cons] at hp
    obtain ⟨x1, x2, x3, x4⟩ := hx (p, e) (by simp)
    simp only at x1 x2 x3 x4
    have hlt : e.start < e.stop := by rw [BitVec.lt_def]; omega
    have hadd : (e.start + 1).toNat = e.start.toNat + 1 := by
      have := e.stop.isLt
      rw [BitVec.toNat_add]
      simp
      omega
    have hhas : e.range.Has (e.start + 1).toNat := by
      rw [hadd]
      simp only [Range.Has, Line.range]
      omega
    obtain ⟨old, eo, ho⟩ := hg.inv.find (e.start + 1)
    by_cases hold : ∃ q, (q, e.range) ∈ a.known
    · -- already known: skipped
      have hskip : old ≠ 0 ∧ (s.info old).start = e.start ∧ (s.info old).stop = e.stop := by
        obtain ⟨q, hq⟩ := hold
        rcases ho with ⟨_, ho⟩ | ⟨o0, o1, o2⟩
        · exact absurd hhas (ho _ hq)
        · obtain ⟨q1, q2⟩ := (hg.inv.known _ _).1 hq
          have : old = q := hg.inv.unique o1 q1 o2 (by rw [← q2]; exact hhas)
          subst this
          refine ⟨o0, ?_⟩
          simp only [Line.range, rangeOf, Range.mk.injEq] at q2
          exact ⟨(BitVec.eq_of_toNat_eq q2.1).symm, (BitVec.eq_of_toNat_eq q2.2).symm⟩
      obtain ⟨s', a', t', new, r1, r2, r3, r4, r5, r6⟩ := reread l (known0 := known0) hg hn.2
        (fun x hxl => hx x (by simp [hxl])) hp.2 (fun q hq x hxl => hk q hq x (by simp [hxl]))
        (fun x hxl => h0 x (by simp [hxl]))
      refine ⟨s', a', t', new, ?_, r2, ?_, r4.cons _, r5, r6⟩
      · rw [readLines, if_pos rfl, eo, Option.bind_some, if_pos hskip]
        exact r1
      · intro x
        rw [r3, List.mem_cons]
        constructor
        · rintro ⟨m1, m2⟩
          exact ⟨Or.inr m1, m2⟩
        · rintro ⟨rfl | m1, m2⟩
          · exact absurd ((h0 (p, e) (by simp)).1 hold) m2
          · exact ⟨m1, m2⟩
    · -- new
      have hap : ∀ q ∈ a.known, Apart q.2 e.range := by
        rintro ⟨q, r⟩ hq
        rcases hk (q, r) hq (p, e) (by simp) with h | h
        · exact absurd ⟨q, by rw [← h]; exact hq⟩ hold
        · exact h
      have hns : ¬ (old ≠ 0 ∧ (s.info old).start = e.start ∧ (s.info old).stop = e.stop) := by
        rintro ⟨o0, o1, o2⟩
        rcases ho with ⟨h0, _⟩ | ⟨_, m1, _⟩
        · exact o0 h0
        · refine hold ⟨old, (hg.inv.known _ _).2 ⟨m1, ?_⟩⟩
          rw [Line.range, rangeOf, o1, o2]
      obtain ⟨s1, t1, e1, hl1, _⟩ := hg.inv.insert (nm := e.name) x1 (fun hm => x2 (hg.sub p hm)) x3.symm hlt
      obtain ⟨s1', t1', e1', hg1⟩ := hg.step (.insert p prev e.start e.stop e.name) ⟨x1, x2, x3.symm, hlt⟩
      rw [vstep, e1] at e1'
      cases e1'
      have hspec : specStep a (.insert p prev e.start e.stop e.name) =
          ⟨(p, e.range) :: a.known, a.used ++ [p]⟩ := by
        simp only [specStep]
        exact if_pos hap
      rw [hspec] at hg1
      have hne : ∀ x ∈ l, x.2.range ≠ e.range := by
        intro x hxl hr
        have := hp.1 x hxl
        simp only at this
        rw [hr] at this
        exact this _ ⟨hhas, hhas⟩
      obtain ⟨s', a', t', new, r1, r2, r3, r4, r5, r6⟩ := reread l (known0 := known0) (prev := p) hg1 hn.2
        (by
          intro x hxl
          obtain ⟨y1, y2, y3, y4⟩ := hx x (by simp [hxl])
          have hxp : x.1 ≠ p := by
            intro ep
            exact hn.1 (by rw [← ep]; exact List.mem_map_of_mem (f := (·.1)) hxl)
          refine ⟨y1, ?_, hxp, y4⟩
          simp only [List.mem_append, List.mem_singleton, not_or]
          exact ⟨y2, hxp⟩)
        hp.2
        (by
          intro q hq x hxl
          rcases List.mem_cons.1 hq with rfl | hq
          · exact Or.inr (hp.1 x hxl)
          · exact hk q hq x (by simp [hxl]))
        (by
          intro x hxl
          rw [← h0 x (by simp [hxl])]
          constructor
          · rintro ⟨q, hq⟩
            rcases List.mem_cons.1 hq with hq | hq
            · rw [Prod.mk.injEq] at hq
              exact absurd hq.2 (hne x hxl)
            · exact ⟨q, hq⟩
          · rintro ⟨q, hq⟩
            exact ⟨q, by simp [hq]⟩)
      refine ⟨s', a', t', (p, e) :: new, ?_, r2, ?_, r4.cons_cons _, ?_, ?_⟩
      · rw [readLines, if_pos rfl, eo, Option.bind_some, if_neg hns, e1]
        exact r1
      · intro x
        rw [List.mem_cons, r3, List.mem_cons]
        constructor
        · rintro (rfl | ⟨m1, m2⟩)
          · exact ⟨Or.inl rfl, fun h => hold ((h0 (p, e) (by simp)).2 h)⟩
          · exact ⟨Or.inr m1, m2⟩
        · rintro ⟨rfl | m1, m2⟩
          · exact Or.inl rfl
          · exact Or.inr ⟨m1, m2⟩
      · rw [r5, hl1]
        simp
      · intro q
        rw [r6]
        simp only [List.mem_cons]
        constructor
        · rintro ((h | h) | ⟨x, hx, h⟩)
          · exact Or.inr ⟨(p, e), Or.inl rfl, h⟩
          · exact Or.inl h
          · exact Or.inr ⟨x, Or.inr hx, h⟩
        · rintro (h | ⟨x, rfl | hx, h⟩)
          · exact Or.inl (Or.inr h)
          · exact Or.inl (Or.inl h)
          · exact Or.inr ⟨x, hx, h⟩

/-- **C46 (part).** Reading the map again, when every mapping known before is
either still there with the same bounds or gone: the lines whose range was not
known are added, in order, and no other; afterwards exactly those and the ones
known before are found.  Without the condition it fails: `C46_changed_mapping`. -/
theorem C46_reread_partial {s : Vmas} {a : Abs} (h : Reach s a) (l : List (Nat × Line)) (hn : (l.map (·.1)).Nodup)
    (hx : ∀ x ∈ l, x.1 ≠ 0 ∧ x.1 ∉ a.used ∧ x.2.start.toNat + 1 < x.2.stop.toNat)
    (hp : l.Pairwise fun x y => Apart x.2.range y.2.range)
    (hk : ∀ q ∈ a.known, ∀ x ∈ l, q.2 = x.2.range ∨ Apart q.2 x.2.range) :
    ∃ (s' : Vmas) (new : List (Nat × Line)), readTaskVmas s true l = some s' ∧ new.Sublist l ∧
      (∀ x, x ∈ new ↔ x ∈ l ∧ ¬ ∃ p, (p, x.2.range) ∈ a.known) ∧
      s'.list = s.list ++ new.map (·.1) ∧
      ∀ b : BitVec 64, ∃ r, findVma s' b = some r ∧
        ((r = 0 ∧ (∀ q ∈ a.known, ¬ q.2.Has b.toNat) ∧ ∀ x ∈ l, ¬ x.2.range.Has b.toNat) ∨
         (r ≠ 0 ∧ ((∃ q, (r, q) ∈ a.known ∧ q.Has b.toNat) ∨ ∃ x ∈ new, x.1 = r ∧ x.2.range.Has b.toNat))) := by
  obtain ⟨t, hg⟩ := h.good
  obtain ⟨s', a', t', new, r1, r2, r3, r4, r5, r6⟩ := reread l (known0 := a.known) (prev := 0) hg hn
    (fun x hxl => ⟨(hx x hxl).1, (hx x hxl).2.1, (hx x hxl).1, (hx x hxl).2.2⟩) hp hk (fun _ _ => Iff.rfl)
  refine ⟨s', new, r1, r4, r3, r5, fun b => ?_⟩
  obtain ⟨r, er, hr⟩ := r2.inv.find b
  refine ⟨r, er, ?_⟩
  rcases hr with ⟨h0, hr⟩ | ⟨h0, m1, m2⟩
  · refine Or.inl ⟨h0, fun q hq => hr q ((r6 q).2 (Or.inl hq)), fun x hxl hb => ?_⟩
    by_cases hkn : ∃ p, (p, x.2.range) ∈ a.known
    · obtain ⟨p, hp⟩ := hkn
      exact hr _ ((r6 _).2 (Or.inl hp)) hb
    · exact hr (x.1, x.2.range) ((r6 _).2 (Or.inr ⟨x, (r3 x).2 ⟨hxl, hkn⟩, rfl⟩)) hb
  · refine Or.inr ⟨h0, ?_⟩
    rcases (r6 (r, rangeOf (s'.info r))).1 ((r2.inv.known _ _).2 ⟨m1, rfl⟩) with hq | ⟨x, hxn, hq⟩
    · exact Or.inl ⟨_, hq, m2⟩
    · rw [Prod.mk.injEq] at hq
      exact Or.inr ⟨x, hxn, hq.1.symm, by rw [← hq.2]; exact m2⟩

/-! ## What goes wrong -/

/-- A line that overlaps a known mapping without being equal to it (a heap that
has grown, a mapping split by `mprotect`) gets a structure in the list at each
reading, and never becomes known: addresses in it are looked up as before. -/
theorem C46_changed_mapping {s : Vmas} {a : Abs} (h : Reach s a) {p : Nat} {e : Line} (hp0 : p ≠ 0)
    (hp : p ∉ a.used) (hlt : e.start < e.stop) {q : Nat × Range} (hq : q ∈ a.known) (hov : ¬ Apart q.2 e.range)
    (hne : ∀ q ∈ a.known, q.2 ≠ e.range) :
    ∃ s', readTaskVmas s true [(p, e)] = some s' ∧ s'.list = s.list ++ [p] ∧
      Reach s' ⟨a.known, a.used ++ [p]⟩ ∧ ∀ b, findVma s' b = findVma s b := by
  obtain ⟨t, hg⟩ := h.good
  obtain ⟨info, os, ho, er, rfl⟩ := h
  obtain ⟨s1, t1, e1, hl1, _, hi1, _, hc⟩ := hg.inv.insert (nm := e.name) hp0 (fun hm => hp (hg.sub p hm))
    (Ne.symm hp0) hlt
  obtain ⟨old, eo, hold⟩ := hg.inv.find (e.start + 1)
  have hns : ¬ (old ≠ 0 ∧ (s.info old).start = e.start ∧ (s.info old).stop = e.stop) := by
    rintro ⟨o0, o1, o2⟩
    rcases hold with ⟨h0, _⟩ | ⟨_, m1, _⟩
    · exact o0 h0
    · refine hne (old, rangeOf (s.info old)) ((hg.inv.known _ _).2 ⟨m1, rfl⟩) ?_
      rw [Line.range, rangeOf, o1, o2]
  have hspec : specStep (specRun ⟨[], []⟩ os) (.insert p 0 e.start e.stop e.name) =
      ⟨(specRun ⟨[], []⟩ os).known, (specRun ⟨[], []⟩ os).used ++ [p]⟩ := by
    simp only [specStep]
    exact if_neg fun hap => hov (hap q hq)
  have hread : readTaskVmas s true [(p, e)] = some s1 := by
    rw [readTaskVmas, readLines, if_pos rfl, eo, Option.bind_some, if_neg hns, e1]
    rfl
  refine ⟨s1, hread, hl1, ?_, ?_⟩
  · have happ : ∀ (os os' : List VOp) (a : Abs), AllOK a os → AllOK (specRun a os) os' → AllOK a (os ++ os') := by
      intro os os'
      induction os with
      | nil => intro a _ h; exact h
      | cons o os ih => intro a h h'; exact ⟨h.1, ih _ h.2 h'⟩
    have hrun : ∀ (os os' : List VOp) (a : Abs), specRun a (os ++ os') = specRun (specRun a os) os' := by
      intro os os'
      induction os with
      | nil => intro a; rfl
      | cons o os ih => intro a; exact ih _
    have hvr : ∀ (os os' : List VOp) (s : Vmas), vrun s (os ++ os') = (vrun s os).bind fun s => vrun s os' := by
      intro os os'
      induction os with
      | nil => intro s; rfl
      | cons o os ih =>
        intro s
        rw [List.cons_append, vrun, vrun]
        cases vstep s o with
        | none => rfl
        | some s => exact ih s
    have hok : OK (specRun ⟨[], []⟩ os) (.insert p 0 e.start e.stop e.name) := ⟨hp0, hp, Ne.symm hp0, hlt⟩
    refine ⟨info, os ++ [.insert p 0 e.start e.stop e.name], happ _ _ _ ho ⟨hok, trivial⟩, ?_, ?_⟩
    · rw [hvr, er, Option.bind_some, vrun, vstep, e1]
      rfl
    · rw [hrun]
      exact hspec.symm
  · intro b
    rcases hc with ⟨hap, _⟩ | ⟨_, rfl, hi', _⟩
    · exact absurd (hap q hq) hov
    · obtain ⟨r, e1', h1⟩ := hg.inv.find b
      obtain ⟨r', e2', h2⟩ := hi'.find b
      rw [e1', e2']
      rcases h1 with ⟨rfl, h1⟩ | ⟨h1, h1', h1''⟩
      · rcases h2 with ⟨rfl, _⟩ | ⟨_, h2', h2''⟩
        · rfl
        · exact absurd h2'' (h1 (r', rangeOf (s1.info r')) ((hi'.known _ _).2 ⟨h2', rfl⟩))
      · have hsame : rangeOf (s1.info r) = rangeOf (s.info r) := by
          have := (hi'.known r (rangeOf (s.info r))).1 ((hg.inv.known _ _).2 ⟨h1', rfl⟩)
          exact this.2.symm
        rcases h2 with ⟨rfl, h2⟩ | ⟨_, h2', h2''⟩
        · exact absurd h1'' (h2 _ ((hg.inv.known _ _).2 ⟨h1', rfl⟩))
        · rw [hi'.unique h2' h1' h2'' (by rw [hsame]; exact h1'')]

/-- A mapping that becomes known at a second reading right after a known mapping
of the same name does not join its group: it leads to itself. -/
theorem C46_group_of_new_mapping {s : Vmas} {a : Abs} (h : Reach s a) {p : Nat} {e : Line} (hp0 : p ≠ 0)
    (hp : p ∉ a.used) (hlt : e.start < e.stop) (hap : ∀ q ∈ a.known, Apart q.2 e.range) :
    ∃ s', readTaskVmas s true [(p, e)] = some s' ∧ (s'.info p).leader = p := by
  obtain ⟨t, hg⟩ := h.good
  obtain ⟨s1, t1, e1, hl1, _, hi1, _, hc⟩ := hg.inv.insert (nm := e.name) hp0 (fun hm => hp (hg.sub p hm))
    (Ne.symm hp0) hlt
  obtain ⟨old, eo, hold⟩ := hg.inv.find (e.start + 1)
  have hns : ¬ (old ≠ 0 ∧ (s.info old).start = e.start ∧ (s.info old).stop = e.stop) := by
    rintro ⟨o0, o1, o2⟩
    rcases hold with ⟨h0, _⟩ | ⟨_, m1, _⟩
    · exact o0 h0
    · have := hap (old, rangeOf (s.info old)) ((hg.inv.known _ _).2 ⟨m1, rfl⟩) e.start.toNat
      refine this ⟨?_, ?_⟩
      · simp only [rangeOf, o1, o2, Range.Has]
        exact ⟨Nat.le_refl _, hlt⟩
      · exact ⟨Nat.le_refl _, hlt⟩
  refine ⟨s1, ?_, ?_⟩
  · rw [readTaskVmas, readLines, if_pos rfl, eo, Option.bind_some, if_neg hns, e1]
    rfl
  · rw [hi1, if_pos rfl, newVma, if_neg (by simp)]

/-! The hypotheses are met: two mappings, then one more; and one that has grown. -/

theorem lowMaps_reach (info : Nat → Vma) : ∃ s, Reach s (specRun ⟨[], []⟩ (inserts 0 lowMaps)) := by
  obtain ⟨s, t, e, h⟩ := Good.run _ (Good.init info) lowMaps_ok.1
  exact ⟨s, info, _, lowMaps_ok.1, e, rfl⟩

example : (0 :: lowMaps.map (·.1)).Nodup ∧ (∀ x ∈ lowMaps, x.2.start < x.2.stop) := by
  exact ⟨by decide, by simp [lowMaps]⟩

/-- The known mappings and a new one in between. -/
def moreMaps : List (Nat × Line) :=
  [(24, ⟨0x10000#64, 0x11000#64, []⟩), (32, ⟨0x200000#64, 0x201000#64, []⟩), (40, ⟨0x401000#64, 0x402000#64, []⟩)]

example : (moreMaps.map (·.1)).Nodup ∧
    (∀ x ∈ moreMaps, x.1 ≠ 0 ∧ x.1 ∉ (specRun ⟨[], []⟩ (inserts 0 lowMaps)).used ∧
      x.2.start.toNat + 1 < x.2.stop.toNat) ∧
    (moreMaps.Pairwise fun x y => Apart x.2.range y.2.range) ∧
    ∀ q ∈ (specRun ⟨[], []⟩ (inserts 0 lowMaps)).known, ∀ x ∈ moreMaps, q.2 = x.2.range ∨ Apart q.2 x.2.range := by
  have hused : (specRun ⟨[], []⟩ (inserts 0 lowMaps)).used = [8, 16] := by
    have h : ∀ a p prev start stop nm, (specStep a (.insert p prev start stop nm)).used = a.used ++ [p] := by
      intro a p prev start stop nm
      simp only [specStep]
      split <;> rfl
    simp only [lowMaps, inserts, specRun, h, List.nil_append, List.cons_append]
  refine ⟨by decide, ?_, ?_, ?_⟩
  · rw [hused]
    simp [moreMaps]
  · simp only [moreMaps, List.pairwise_cons, List.mem_cons, List.not_mem_nil, or_false, forall_eq_or_imp, forall_eq,
      Apart, Range.Has, Line.range, BitVec.toNat_ofNat]
    refine ⟨⟨?_, ?_⟩, ?_, by simp⟩ <;> intro a <;> omega
  · intro q hq x hx
    rcases (lowMaps_ok.2 q).1 hq with h | ⟨y, hy, rfl⟩
    · simp at h
    · simp only [lowMaps, List.mem_cons, List.not_mem_nil, or_false] at hy
      simp only [moreMaps, List.mem_cons, List.not_mem_nil, or_false] at hx
      rcases hy with rfl | rfl <;> rcases hx with rfl | rfl | rfl <;>
        first
        | exact Or.inl rfl
        | (right; simp only [Line.range, Apart, Range.Has, BitVec.toNat_ofNat]; intro a; omega)

/-- The second mapping has grown by a page. -/
example : ∃ q ∈ (specRun ⟨[], []⟩ (inserts 0 lowMaps)).known,
    ¬ Apart q.2 (Line.range ⟨0x401000#64, 0x403000#64, []⟩) := by
  refine ⟨_, (lowMaps_ok.2 _).2 (Or.inr ⟨_, List.mem_cons_of_mem _ (List.mem_cons_self ..), rfl⟩), ?_⟩
  intro h
  have := h 0x401000
  simp [Range.Has, Line.range] at this

end Ulp.Vma
