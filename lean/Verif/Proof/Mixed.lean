import Verif.Spec.Mixed
import Verif.Props.FileHist
import Verif.Props.TaskRun
import Verif.Props.TaskKill
namespace Ulp.Mixed
open LoadBytes
open TaskRun (Proc Job LawfulP Unmaps Jumps asks mapsOf)
open Linux (State)

/-- The memory `m` with the contents of `m'` at the addresses `D`. -/
noncomputable def over (D : Addr → Prop) (m' m : Mem) : Mem := fun x =>
  haveI := Classical.propDecidable (D x); if D x then m' x else m x

theorem over_in {D : Addr → Prop} {m' m : Mem} {x : Addr} (h : D x) : over D m' m x = m' x := by
  unfold over
  rw [if_pos h]

theorem over_out {D : Addr → Prop} {m' m : Mem} {x : Addr} (h : ¬ D x) : over D m' m x = m x := by
  unfold over
  rw [if_neg h]

theorem over_write {D : Addr → Prop} {m' m : Mem} {a : Addr} {bs : List Byte}
    (h : ∀ i, i < bs.length → ¬ D (a + BitVec.ofNat 64 i)) : over D m' (m.write a bs) = (over D m' m).write a bs := by
  funext x
  by_cases hx : (x - a).toNat < bs.length
  · have := h _ hx
    rw [← addr_eq_add_sub] at this
    rw [over_out this, Mem.write_apply, Mem.write_apply, List.getElem?_eq_getElem hx]
    rfl
  · rw [Mem.write_out (over D m' m) a bs x (by omega)]
    by_cases hd : D x
    · rw [over_in hd, over_in hd]
    · rw [over_out hd, over_out hd, Mem.write_out m a bs x (by omega)]

theorem over_eqOff {D R : Addr → Prop} {m' m n : Mem} (h : EqOff R m n) : EqOff R (over D m' m) (over D m' n) := by
  intro x hx
  by_cases hd : D x
  · rw [over_in hd, over_in hd]
  · rw [over_out hd, over_out hd, h x hx]

/-- Changes away from the redirects go below them. -/
theorem Layers_over {arch : Arch} {R D : Addr → Prop} {base m' : Mem} :
    ∀ (st : List Patch.Layer) (m : Mem), (∀ l ∈ st, ∀ i, i < 16 → ¬ D (l.map.info.virt + BitVec.ofNat 64 i)) →
    Patch.Layers arch R base st m → Patch.Layers arch R (over D m' base) st (over D m' m) := by
  intro st
  induction st with
  | nil => intro m _ h; exact over_eqOff h
  | cons l st ih =>
    intro m hd h
    obtain ⟨m0, h1, h2, h3⟩ := h
    have hl := hd l (List.mem_cons_self ..)
    refine ⟨over D m' m0, ih m0 (fun l' hl' => hd l' (List.mem_cons_of_mem _ hl')) h1, ?_, ?_⟩
    · rw [h2]
      apply Mem.read_congr
      intro i hi
      rw [over_out (hl i hi)]
    · have := over_eqOff (D := D) (m' := m') h3
      cases hact : l.active with
      | false =>
        rw [hact] at this
        exact this
      | true =>
        rw [hact, if_pos rfl, over_write (by rw [jmpEntry_length]; exact hl)] at this
        rw [if_pos rfl]
        exact this

variable {width : Nat → Nat}
  {value : Nat → BitVec 64 → BitVec 64 → BitVec 64 → Option (Nat × BitVec 64)}

theorem FInv_over {R D base n w st m'} (h : FInv width value R base n w st) (he : ∀ x, ¬ D x → m' x = w.mem x)
    (hm : ∀ m ∈ w.maps, (∀ i, i < m.len → ¬ D (m.start + BitVec.ofNat 64 i)) ∧
      ∀ i, i < 16 → ¬ D (m.info.virt + BitVec.ofNat 64 i)) :
    FInv width value R (over D m' base) n { w with mem := m' } st := by
  have hmem : m' = over D m' w.mem := by
    funext x
    by_cases hd : D x
    · rw [over_in hd]
    · rw [over_out hd, he x hd]
  refine ⟨{ h.inv with layers := ?_ }, ?_, h.apart, h.area⟩
  · change Patch.Layers w.arch R (over D m' base) _ m'
    rw [hmem]
    have := Layers_over (D := D) (m' := m') _ _ (fun l hl => (hm _ (h.inv.perm.mem_iff.1 (List.mem_map_of_mem hl))).2) h.inv.layers
    rw [← hmem]
    rw [← hmem] at this
    exact this
  · intro v hv
    apply (h.whole v hv).congr
    intro i hi
    exact he _ ((hm _ (h.live hv)).1 i hi)

/-- What a run of `ultask` leaves. -/
theorem task_frame {pg : Nat} {k : Ultask.Kern (Proc State)} (hk : LawfulP pg k) {arch : Arch} {j : Job} (hj : j.Fine)
    {s : State} {m : Mem} {cut : Option (Nat × Nat)} {p : Proc State} (h : j.leaves k arch ⟨s, m⟩ cut = some p) (x : Addr)
    (hx : ¬ (Use.task k s j cut).names pg x) : p.mem x = m x := by
  have h1 : s.space (x.toNat / pg) ≠ none := fun e => hx (.inl e)
  have h2 : ¬ Unmaps pg j.c.fs (mapsOf j.c j.ls) (asks j.e j.opts) (x.toNat / pg) := fun e => hx (.inr (.inl e))
  have h3 : ¬ Jumps (asks j.e j.opts) x := fun e => hx (.inr (.inr e))
  cases cut with
  | none =>
    unfold Job.leaves at h
    cases hr : j.run k arch ⟨s, m⟩ with
    | none => rw [hr] at h; cases h
    | some d =>
      rw [hr] at h
      cases h
      exact (TaskRun.C130_run_partial hk hj hr).2.2.1 x h2 h1 h3
  | some c =>
    unfold Job.leaves at h
    dsimp only at h
    cases hr : j.killed k arch ⟨s, m⟩ c.1 c.2 with
    | none => rw [hr] at h; cases h
    | some d =>
      rw [hr] at h
      cases h
      exact (TaskRun.C133_killed_partial hk hj hr).2.2.1 x h2 h1 h3

theorem uses_inv {M : Machine} (hM : Links M width value) {pg : Nat} {R : Addr → Prop} (us : List Use) : ∀ {base n w st},
    FInv width value R base n w st → n + us.length < 2 ^ 32 → GoodUses M pg width R w us →
    ∃ w' rs st' base', runUses M w us = some (w', rs) ∧ w'.arch = w.arch ∧ AllDo st (cmds us) rs st' ∧
      FInv width value R base' (n + us.length) w' st' ∧ ∀ x, (∀ u ∈ us, ¬ u.names pg x) → base' x = base x := by
  induction us with
  | nil => intro base n w st h _ _; exact ⟨w, [], st, base, rfl, rfl, .nil, h, fun _ _ => rfl⟩
  | cons u us ih =>
    intro base n w st h hn hg
    rw [List.length_cons] at hn
    rw [show n + (u :: us).length = n + 1 + us.length by rw [List.length_cons]; omega]
    cases u with
    | cmd c =>
      obtain ⟨w1, rs1, st1, e1, e2, e3, e4⟩ := files_inv hM [c] h (by rw [List.length_singleton]; omega)
        ⟨hg.1, fun _ _ _ => trivial⟩
      cases e3 with
      | @cons _ _ _ _ r _ _ hd ha =>
      cases ha
      have hrun : runFile M w c = some (w1, r) := by
        unfold runFiles at e1
        cases hr : runFile M w c with
        | none => rw [hr] at e1; cases e1
        | some x => rw [hr] at e1; cases e1; rfl
      obtain ⟨w2, rs, st2, base2, f1, f2, f3, f4, f5⟩ := ih (base := base) (n := n + 1) e4 (by omega) (hg.2 w1 [r] (by
        unfold runUses
        rw [hrun]
        rfl))
      refine ⟨w2, r :: rs, st2, base2, ?_, f2.trans e2, .cons hd f3, f4, fun x hx => f5 x fun u hu => hx u (List.mem_cons_of_mem _ hu)⟩
      unfold runUses
      rw [hrun]
      dsimp only
      rw [f1]
    | task k s j cut =>
      obtain ⟨⟨g1, g2, g3, g4⟩, hrest⟩ := hg
      obtain ⟨p, hp⟩ : ∃ p, j.leaves k w.arch ⟨s, w.mem⟩ cut = some p := by
        cases cut with
        | none =>
          obtain ⟨d, hd⟩ := TaskRun.C130_ends g1 w.arch g2 ⟨s, w.mem⟩ g3
          exact ⟨d.proc, by unfold Job.leaves; rw [hd]; rfl⟩
        | some c =>
          obtain ⟨d, hd⟩ := TaskRun.C133_ends g1 w.arch g2 ⟨s, w.mem⟩ g3 c.1 c.2
          exact ⟨d.1, by unfold Job.leaves; dsimp only; rw [hd]; rfl⟩
      have hI := FInv_over (D := (Use.task k s j cut).names pg) h (fun x hx => task_frame g1 g2 hp x hx) g4
      obtain ⟨w2, rs, st2, base2, f1, f2, f3, f4, f5⟩ := ih (n := n + 1) (hI.mono (Nat.le_succ n)) (by omega) (hrest _ [] (by
        unfold runUses
        rw [hp]
        rfl))
      refine ⟨w2, rs, st2, base2, ?_, f2, f3, f4, ?_⟩
      · unfold runUses
        rw [hp]
        exact f1
      · intro x hx
        rw [f5 x fun u hu => hx u (List.mem_cons_of_mem _ hu)]
        exact over_out (hx _ (List.mem_cons_self ..))

end Ulp.Mixed
