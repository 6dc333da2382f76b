import Verif.Spec.JumpHist
import Verif.Props.FileHist
namespace Ulp.LoadBytes
open Load PatchFile

/-- What `run_jmp` does when the jump is written all or nothing. -/
theorem runJmp_cases (arch : Arch) {vs : Vma.Vmas} (m : Mem) {src dst : Addr} (rd : Option Nat) {wr : Option Nat}
    (h1 : (Vma.findVma vs src).isSome) (h2 : (Vma.findVma vs dst).isSome)
    (hw : wr = none ∨ wr = some 0 ∨ wr = some 16) :
    ∃ m' r, Ultask.runJmp arch vs m src dst rd wr = some (m', r) ∧
      ((r = 0 ∧ src ≠ 0 ∧ dst ≠ 0 ∧ m' = m.write src (jmpEntry arch dst)) ∨
        (¬ (r = 0 ∧ src ≠ 0 ∧ dst ≠ 0) ∧ m' = m)) := by
  obtain ⟨f, hf⟩ := Option.isSome_iff_exists.1 h1
  obtain ⟨t, ht⟩ := Option.isSome_iff_exists.1 h2
  unfold Ultask.runJmp
  by_cases hz : src = 0 ∨ dst = 0
  · rw [if_pos hz]
    refine ⟨m, 0, rfl, .inr ⟨fun h => ?_, rfl⟩⟩
    rcases hz with hz | hz
    · exact h.2.1 hz
    · exact h.2.2 hz
  rw [if_neg hz, hf, Option.bind_some, ht, Option.map_some]
  by_cases hft : f = 0 ∨ t = 0
  · rw [if_pos hft]
    exact ⟨m, -2, rfl, .inr ⟨fun h => absurd h.1 (by decide), rfl⟩⟩
  rw [if_neg hft]
  dsimp only
  by_cases hg : (Ultask.memcpyFromTask m src (List.replicate jmpEntrySize 0) rd).2 = -1 ∨
      (Ultask.memcpyFromTask m src (List.replicate jmpEntrySize 0) rd).2 < jmpEntrySize
  · rw [if_pos hg]
    exact ⟨m, -12, rfl, .inr ⟨fun h => absurd h.1 (by decide), rfl⟩⟩
  rw [if_neg hg]
  rcases hw with rfl | rfl | rfl
  · exact ⟨m, -12, rfl, .inr ⟨fun h => absurd h.1 (by decide), rfl⟩⟩
  · refine ⟨m, -12, ?_, .inr ⟨fun h => absurd h.1 (by decide), rfl⟩⟩
    unfold Ultask.memcpyToTask
    dsimp only
    rw [if_pos (by decide)]
    rfl
  · refine ⟨m.write src (jmpEntry arch dst), 0, ?_, .inl ⟨rfl, fun h => hz (.inl h), fun h => hz (.inr h), rfl⟩⟩
    unfold Ultask.memcpyToTask
    dsimp only
    rw [if_neg (by decide), List.take_of_length_le (by rw [jmpEntry_length]; omega)]

theorem write_comm (m : Mem) {a b : Addr} {xs ys : List Byte} (h : Disjoint a xs.length b ys.length) :
    (m.write a xs).write b ys = (m.write b ys).write a xs := by
  funext x
  by_cases ha : (x - a).toNat < xs.length
  · have hb : ys.length ≤ (x - b).toNat := by
      apply Nat.le_of_not_lt
      intro hb
      exact h _ _ ha hb ((addr_eq_add_sub a x).symm.trans (addr_eq_add_sub b x))
    rw [Mem.write_out _ _ _ _ hb, Mem.write_apply, Mem.write_apply, Mem.write_out m b ys x hb]
  · rw [Mem.write_out (m.write b ys) a xs x (by omega), Mem.write_apply (m.write a xs), Mem.write_apply m b,
      Mem.write_out m a xs x (by omega)]

/-- A write away from the redirects goes below them. -/
theorem Layers_write {arch : Arch} {R : Addr → Prop} {base : Mem} {a : Addr} {bs : List Byte} (hb : bs.length = 16) :
    ∀ (st : List Patch.Layer) (m : Mem), (∀ l ∈ st, Disjoint a 16 l.map.info.virt 16) →
    Patch.Layers arch R base st m → Patch.Layers arch R (base.write a bs) st (m.write a bs) := by
  intro st
  induction st with
  | nil => intro m _ h; exact EqOff.write h a bs
  | cons l st ih =>
    intro m hd h
    obtain ⟨m0, h1, h2, h3⟩ := h
    have hl := hd l (List.mem_cons_self ..)
    refine ⟨m0.write a bs, ih m0 (fun l' hl' => hd l' (List.mem_cons_of_mem _ hl')) h1, ?_, ?_⟩
    · rw [Mem.read_write_disjoint _ _ _ _ _ (by rw [hb]; exact hl)]
      exact h2
    · have := h3.write a bs
      cases hact : l.active with
      | false =>
        rw [hact] at this
        exact this
      | true =>
        rw [hact, if_pos rfl] at this
        rw [if_pos rfl, write_comm _ (by rw [hb, jmpEntry_length]; exact hl)]
        exact this

section
variable {width : Nat → Nat}
  {value : Nat → BitVec 64 → BitVec 64 → BitVec 64 → Option (Nat × BitVec 64)}

theorem FInv.jump {R base n w st} (h : FInv width value R base n w st) {src : Addr} {bs : List Byte}
    (hb : bs.length = 16) (hR : WindowOff R src 16) (hc : ∀ m ∈ w.maps, Clear src m.info.virt) :
    FInv width value R (base.write src bs) n { w with mem := w.mem.write src bs } st := by
  refine ⟨{ h.inv with layers := Layers_write hb _ _ ?_ h.inv.layers }, ?_, h.apart, h.area⟩
  · intro l hl
    exact hc _ (h.inv.perm.mem_iff.1 (List.mem_map_of_mem hl))
  · intro v hv
    apply (h.whole v hv).congr
    intro i hi
    apply Mem.write_out
    rw [hb]
    exact window_out hR (h.area v hv) i hi

theorem steps_inv {M : Machine} (hM : Links M width value) {R : Addr → Prop} (ss : List Step) : ∀ {base n w st},
    FInv width value R base n w st → n + ss.length < 2 ^ 32 → GoodSteps M width R w ss →
    ∃ w' rs st', runSteps M w ss = some (w', rs) ∧ w'.arch = w.arch ∧ StepsDo st ss rs st' ∧
      FInv width value R (overlayAll base (jumps w.arch ss rs)) (n + ss.length) w' st' := by
  induction ss with
  | nil => intro base n w st h _ _; exact ⟨w, [], st, rfl, rfl, .nil, h⟩
  | cons s ss ih =>
    intro base n w st h hn hg
    rw [List.length_cons] at hn
    cases s with
    | cmd c =>
      obtain ⟨w1, rs1, st1, e1, e2, e3, e4⟩ := files_inv hM [c] h (by rw [List.length_singleton]; omega)
        ⟨hg.1, fun _ _ _ => trivial⟩
      cases e3 with
      | @cons _ _ _ _ r _ _ hd ha =>
      cases ha
      have hrun : runFile M w c = some (w1, r) := by
        unfold runFiles at e1
        cases hr : runFile M w c with
        | none => rw [hr] at e1; cases e1
        | some x => rw [hr] at e1; cases e1; rfl
      obtain ⟨w2, rs, st2, f1, f2, f3, f4⟩ := ih (base := base) (n := n + 1) e4 (by omega) (hg.2 w1 r hrun)
      refine ⟨w2, r :: rs, st2, ?_, f2.trans e2, .cmd hd f3, ?_⟩
      · unfold runSteps
        rw [show runStep M w (.cmd c) = some (w1, r) from hrun]
        dsimp only
        rw [f1]
      · rw [e2] at f4
        rw [show n + (Step.cmd c :: ss).length = n + 1 + ss.length by rw [List.length_cons]; omega]
        exact f4
    | jump vs src dst rd wr =>
      obtain ⟨⟨g1, g2, g3, g4, g5⟩, hrest⟩ := hg
      obtain ⟨m', r, e1, e2⟩ := runJmp_cases w.arch w.mem rd g1 g2 g3
      have hrun : runStep M w (.jump vs src dst rd wr) = some ({ w with mem := m' }, r) := by
        unfold runStep
        dsimp only
        rw [e1]
        rfl
      rw [show n + (Step.jump vs src dst rd wr :: ss).length = n + 1 + ss.length by rw [List.length_cons]; omega]
      rcases e2 with ⟨e2, e3, e4, rfl⟩ | ⟨e2, rfl⟩
      · obtain ⟨w2, rs, st2, f1, f2, f3, f4⟩ := ih (n := n + 1) ((h.jump (jmpEntry_length w.arch dst) g4 g5).mono (Nat.le_succ n))
          (by omega) (hrest _ r hrun)
        refine ⟨w2, r :: rs, st2, ?_, f2, .jump f3, ?_⟩
        · unfold runSteps
          rw [hrun]
          dsimp only
          rw [f1]
        · unfold jumps
          rw [if_pos ⟨e2, e3, e4⟩]
          exact f4
      · obtain ⟨w2, rs, st2, f1, f2, f3, f4⟩ := ih (n := n + 1) (h.mono (Nat.le_succ n)) (by omega) (hrest w r hrun)
        refine ⟨w2, r :: rs, st2, ?_, f2, .jump f3, ?_⟩
        · unfold runSteps
          rw [hrun]
          dsimp only
          rw [f1]
        · unfold jumps
          rw [if_neg e2]
          exact f4

end
end Ulp.LoadBytes
