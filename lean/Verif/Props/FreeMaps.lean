/-
C50: giving up the known mappings of a process (src/task/vma.c:190-205).
-/
import Verif.Props.Maps
import Verif.Proof.RbRoot
import Verif.Props.RbTree
namespace Ulp.Vma
open Rb (Tree IsTree St SameM Sim)
open Rb.Tree (ids)
open Range

/-- Structures in use but not in the tree have an all-zero tree node. -/
structure Full (s : Vmas) (a : Abs) (t : Tree) : Prop extends Good s a t where
  stray : ∀ n ∈ a.used, n ∉ ids t → s.rb.m n = some ⟨0, false, 0, 0⟩
  nodup : a.used.Nodup
  nz : 0 ∉ a.used

theorem Full.step {s : Vmas} {a : Abs} {t : Tree} (h : Full s a t) (o : VOp) (ho : OK a o) :
    ∃ s' t', vstep s o = some s' ∧ Full s' (specStep a o) t' := by
  obtain ⟨s', t', e, hg⟩ := h.toGood.step o ho
  cases o with
  | insert p prev start stop name =>
    obtain ⟨hp0, hpu, hpp, hlt⟩ := ho
    obtain ⟨s2, t2, e2, _, _, _, hfr, hc⟩ := h.inv.insert (nm := name) hp0 (fun hm => hpu (h.sub p hm)) hpp hlt
    rw [vstep, e2] at e
    cases e
    have hu : (specStep a (.insert p prev start stop name)).used = a.used ++ [p] := by
      simp only [specStep]
      split <;> rfl
    -- the tree of `hg` and the one of `hc` hold the same nodes
    have hold : ∀ n, n ∉ ids t' → n ∈ a.used → n ∉ ids t := by
      intro n hn hnu hnt
      have hk : ∀ q ∈ a.known, q ∈ (specStep a (.insert p prev start stop name)).known := by
        intro q hq
        simp only [specStep]
        split
        · exact List.mem_cons_of_mem _ hq
        · exact hq
      exact hn ((hg.inv.known n _).1 (hk _ ((h.inv.known n _).2 ⟨hnt, rfl⟩))).1
    refine ⟨s', t', by rw [vstep, e2], hg, ?_, ?_, ?_⟩
    · intro n hn hnt
      rw [hu, List.mem_append, List.mem_singleton] at hn
      by_cases hnp : n = p
      · subst hnp
        rcases hc with ⟨hap, _, _⟩ | ⟨_, _, _, hz⟩
        · refine absurd ((hg.inv.known n ⟨start.toNat, stop.toNat⟩).1 ?_).1 hnt
          simp only [specStep, if_pos hap]
          exact List.mem_cons_self ..
        · exact hz
      · have hnu : n ∈ a.used := hn.resolve_right hnp
        rw [hfr n (fun e => h.nz (e ▸ hnu)) hnp (hold n hnt hnu)]
        exact h.stray n hnu (hold n hnt hnu)
    · rw [hu, List.nodup_append]
      exact ⟨h.nodup, by simp, fun x hx y hy e => hpu (by rw [List.mem_singleton] at hy; rw [← hy, ← e]; exact hx)⟩
    · rw [hu]
      simp only [List.mem_append, List.mem_singleton, not_or]
      exact ⟨h.nz, Ne.symm hp0⟩
  | unlink p =>
    obtain ⟨r, hr⟩ := ho
    have hp := ((h.inv.known p r).1 hr).1
    obtain ⟨s2, t2, e2, _, _, ⟨u, v, e3, e4⟩, _, hfr, hi⟩ := h.inv.unlink hp
    rw [vstep, e2] at e
    cases e
    refine ⟨s', t', by rw [vstep, e2], hg, ?_, ?_, ?_⟩
    · intro n hn hnt
      rw [specStep, List.mem_filter] at hn
      have hnp : n ≠ p := by simpa using hn.2
      have hnt' : n ∉ ids t := by
        intro hm
        refine hnt ((hg.inv.known n (rangeOf (s.info n))).1 ?_).1
        rw [specStep, List.mem_filter]
        exact ⟨(h.inv.known n _).2 ⟨hm, rfl⟩, by simpa using hnp⟩
      rw [hfr n (fun e => h.nz (e ▸ hn.1)) hnt']
      exact h.stray n hn.1 hnt'
    · exact h.nodup.filter _
    · rw [specStep, List.mem_filter]
      exact fun hm => h.nz hm.1

theorem Full.run : ∀ (os : List VOp) {s : Vmas} {a : Abs} {t : Tree}, Full s a t → AllOK a os →
    ∃ s' t', vrun s os = some s' ∧ Full s' (specRun a os) t'
  | [], s, a, t, h, _ => ⟨s, t, rfl, h⟩
  | o :: os, s, a, t, h, ho => by
    obtain ⟨s1, t1, e1, h1⟩ := h.step o ho.1
    obtain ⟨s2, t2, e2, h2⟩ := Full.run os h1 ho.2
    exact ⟨s2, t2, by rw [vrun, e1]; exact e2, h2⟩

theorem Reach.full {s : Vmas} {a : Abs} (h : Reach s a) : ∃ t, Full s a t := by
  obtain ⟨info, os, ho, e, rfl⟩ := h
  obtain ⟨s', t, e', hg⟩ := Full.run os ⟨Good.init info, by simp, by simp, by simp⟩ ho
  rw [e] at e'
  cases e'
  exact ⟨t, hg⟩

/-- Freeing the structures `L`: the tree is followed in a state `sh` with the same
nodes and the root pointer it would have without the stray nodes. -/
theorem freeLoop_ok : ∀ (L : List Nat) {s : Vmas} {sh : St} {t : Tree}, SameM sh s.rb → IsTree sh t → Rb.RB t →
    L.Nodup → 0 ∉ L → (∀ n ∈ ids t, n ∈ L) → (∀ n ∈ L, n ∉ ids t → sh.m n = some ⟨0, false, 0, 0⟩) →
    ∃ s', freeLoop s L = some s' ∧ ∀ x, x ≠ 0 → s'.rb.m x = if x ∈ L then none else s.rb.m x
  | [], s, sh, t, _, _, _, _, _, _, _ => ⟨s, rfl, by simp⟩
  | p :: L, s, sh, t, hs, ht, hrb, hn, h0, hsub, hst => by
    rw [List.nodup_cons] at hn
    rw [List.mem_cons, not_or] at h0
    have hp0 : p ≠ 0 := Ne.symm h0.1
    -- what unlinking does to the nodes
    obtain ⟨rb, sh1, t1, e1, hs1, ht1, hrb1, hi1, hm1, hf1⟩ : ∃ rb sh1 t1, Rb.rbErase s.rb p = some rb ∧
        SameM sh1 rb ∧ IsTree sh1 t1 ∧ Rb.RB t1 ∧ (∀ n, n ∈ ids t1 ↔ n ∈ ids t ∧ n ≠ p) ∧
        sh1.m p ≠ none ∧ ∀ x, x ≠ 0 → x ∉ ids t → sh1.m x = sh.m x := by
      by_cases hp : p ∈ ids t
      · obtain ⟨sh1, t1, u, v, e, h1, h2, h3, h4, h5, h6⟩ := Rb.rbErase_tree ht hrb hp
        obtain ⟨rb, e', h7⟩ := Sim.rbErase hs p sh1 e
        refine ⟨rb, sh1, t1, e', h7, h1, h2, ?_, ?_, h6⟩
        · intro n
          have hnd := ht.nodup
          rw [h3, List.nodup_append, List.nodup_cons] at hnd
          rw [h3, h4]
          simp only [List.mem_append, List.mem_cons]
          constructor
          · rintro (hm | hm)
            · exact ⟨Or.inl hm, fun e => hnd.2.2 n hm p (by simp) e⟩
            · exact ⟨Or.inr (Or.inr hm), fun e => hnd.2.1.1 (by rw [← e]; exact hm)⟩
          · rintro ⟨hm | hm | hm, h1⟩
            · exact Or.inl hm
            · exact absurd hm h1
            · exact Or.inr hm
        · rw [h5]
          exact Rb.Rep.alive ht.rep p hp
      · have hz := hst p (by simp) hp
        have hz' : s.rb.m p = some ⟨0, false, 0, 0⟩ := by rw [hs]; exact hz
        refine ⟨_, sh, t, Rb.rbErase_zero hp0 hz', hs, ht, hrb, ?_, ?_, fun _ _ _ => rfl⟩
        · intro n
          exact ⟨fun h => ⟨h, fun e => hp (e ▸ h)⟩, fun h => h.1⟩
        · rw [hz]; simp
    have hfree : Rb.freeNode rb p = some { rb with m := fun x => if x = p then none else rb.m x } := by
      have : rb.m p ≠ none := by rw [hs1]; exact hm1
      obtain ⟨n, hn⟩ := Option.ne_none_iff_exists'.1 this
      simp [Rb.freeNode, Rb.get, hp0, hn]
    have hp1 : p ∉ ids t1 := fun h => ((hi1 p).1 h).2 rfl
    -- the tree after the structure is freed
    have ht2 : IsTree { sh1 with m := fun x => if x = p then none else sh1.m x } t1 := by
      refine ⟨ht1.root, ?_, ht1.nodup⟩
      refine Rb.Rep.frame ht1.rep ?_
      intro x hx
      simp only
      rw [if_neg]
      rintro rfl
      exact hp1 hx
    obtain ⟨s', e', hf'⟩ := freeLoop_ok L (s := ⟨{ rb with m := fun x => if x = p then none else rb.m x }, s.info,
        s.list.filter (· ≠ p), fun x => (s.sibs x).filter (· ≠ p)⟩)
      (sh := { sh1 with m := fun x => if x = p then none else sh1.m x }) (t := t1)
      (by simp only [SameM]; rw [hs1]) ht2 hrb1 hn.2 h0.2
      (by
        intro n hn'
        obtain ⟨h1, h2⟩ := (hi1 n).1 hn'
        exact (List.mem_cons.1 (hsub n h1)).resolve_left h2)
      (by
        intro n hn' hnt
        have hnp : n ≠ p := fun e => hn.1 (e ▸ hn')
        have hnt' : n ∉ ids t := fun h => hnt ((hi1 n).2 ⟨h, hnp⟩)
        simp only [if_neg hnp]
        rw [hf1 n (fun e => h0.2 (e ▸ hn')) hnt']
        exact hst n (List.mem_cons_of_mem _ hn') hnt')
    refine ⟨s', ?_, ?_⟩
    · rw [freeLoop, unlinkVma, e1]
      simp only [Option.bind_eq_bind, Option.bind_some]
      change ((Rb.freeNode rb p).bind _) = _
      rw [hfree]
      exact e'
    · intro x hx
      rw [hf' x hx]
      by_cases hxL : x ∈ L
      · rw [if_pos hxL, if_pos (List.mem_cons_of_mem _ hxL)]
      · rw [if_neg hxL]
        by_cases hxp : x = p
        · simp [hxp]
        · have hxpl : x ∉ p :: L := by simp [hxp, hxL]
          rw [if_neg hxpl]
          simp only [if_neg hxp]
          have hxt : x ∉ ids t := fun h => hxpl (hsub x h)
          rw [hs1, hf1 x hx hxt, ← hs]

/-- **C50.** Giving up the mappings of a process, after any history and also when
some of them overlap: no freed structure is read or freed again (the run ends
without error), every structure in use is freed, no other memory is changed, and
nothing is known any more. -/
theorem C50_free_mappings {s : Vmas} {a : Abs} (h : Reach s a) :
    ∃ s', freeTaskVmas s = some s' ∧ (∀ p ∈ a.used, s'.rb.m p = none) ∧
      (∀ p, p ≠ 0 → p ∉ a.used → s'.rb.m p = s.rb.m p) ∧ s'.list = [] ∧
      ∀ b, findVma s' b = some 0 := by
  obtain ⟨t, hf⟩ := h.full
  obtain ⟨s', e, hs'⟩ := freeLoop_ok s.list (s := s) (sh := s.rb) rfl hf.inv.tree hf.inv.rb
    (by rw [hf.list]; exact hf.nodup) (by rw [hf.list]; exact hf.nz) (by rw [hf.list]; exact hf.sub)
    (by rw [hf.list]; exact hf.stray)
  rw [hf.list] at hs'
  refine ⟨_, by rw [freeTaskVmas, e]; rfl, ?_, ?_, rfl, ?_⟩
  · intro p hp
    have := hs' p (fun e => hf.nz (e ▸ hp))
    rw [if_pos hp] at this
    exact this
  · intro p hp0 hp
    have := hs' p hp0
    rw [if_neg hp] at this
    exact this
  · intro b
    simp only [findVma, Rb.rbSearchNode]
    rw [Rb.searchLoop]
    rfl

/-! A reachable state with a mapping that overlaps a known one. -/

example (info : Nat → Vma) : ∃ s a, Reach s a ∧ a.used = [8, 16, 24] ∧
    ∃ q ∈ a.known, ¬ Apart q.2 (Line.range ⟨0x401000#64, 0x403000#64, []⟩) := by
  obtain ⟨s, h⟩ := lowMaps_reach info
  have hused : (specRun ⟨[], []⟩ (inserts 0 lowMaps)).used = [8, 16] := by
    have h : ∀ a p prev start stop nm, (specStep a (.insert p prev start stop nm)).used = a.used ++ [p] := by
      intro a p prev start stop nm
      simp only [specStep]
      split <;> rfl
    simp only [lowMaps, inserts, specRun, h, List.nil_append, List.cons_append]
  have hq : (16, Line.range ⟨0x401000#64, 0x402000#64, []⟩) ∈ (specRun ⟨[], []⟩ (inserts 0 lowMaps)).known :=
    (lowMaps_ok.2 _).2 (Or.inr ⟨_, List.mem_cons_of_mem _ (List.mem_cons_self ..), rfl⟩)
  have hov : ¬ Apart (Line.range ⟨0x401000#64, 0x402000#64, []⟩) (Line.range ⟨0x401000#64, 0x403000#64, []⟩) := by
    intro h
    have := h 0x401000
    simp [Range.Has, Line.range] at this
  obtain ⟨s', _, _, hr, _⟩ := C46_changed_mapping h (p := 24) (e := ⟨0x401000#64, 0x403000#64, []⟩) (by decide)
    (by rw [hused]; decide) (by simp) hq hov (by
      intro q hq
      rcases (lowMaps_ok.2 q).1 hq with h | ⟨y, hy, rfl⟩
      · simp at h
      · simp only [lowMaps, List.mem_cons, List.not_mem_nil, or_false] at hy
        rcases hy with rfl | rfl <;> simp [Line.range])
  exact ⟨s', _, hr, by rw [hused]; rfl, _, hq, hov⟩

end Ulp.Vma
