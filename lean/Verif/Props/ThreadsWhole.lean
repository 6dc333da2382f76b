/-
C138: at every moment the replacement that threads go on in is complete and mapped.
-/
import Verif.Proof.ThreadsWhole
namespace Ulp.ThreadsHist
open Threads (Proc Mode poke window Redirect x86Redirect)

variable {I : Isa} {arch : Arch}

/-- **C138.**  At every moment of every history, also the one at which ulpatch is killed: a function that goes on
in a replacement goes on in that of a patch for it whose file is mapped and whose image is complete.  So the image is
written before the entry, and the entry is taken out before the mapping.

Missing: as for `C138_threads_partial`, and threads that write to the images (`QuietRun`). -/
theorem C138_whole_partial (R : Redirect I arch) (F : List Addr) (hF : Apart F) (cs : List Cmd)
    (hfit : ∀ c ∈ cs, c.Fits F) (hroom : Roomy F [] cs) (q : Proc I) (before after : List Act) (t : Ideal I)
    (htool : (before ++ after).filter Act.isTool = toolActs arch q.mem [] cs)
    (hfair : FairRun R F ⟨q, fun _ => .original⟩ before) (hquiet : QuietRun R F cs ⟨q, fun _ => .original⟩ before)
    (ht : Ideal.acts R F ⟨q, fun _ => .original⟩ before = some t) :
    ∃ q', acts q before = some q' ∧ Same F q' t ∧
      ∀ f p, t.modes f = .redirect p → Ready cs q'.mem q'.mapped f p := by
  rw [List.filter_append] at htool
  have hfits := roomy_fits cs [] hroom
  have howned : ∀ x, Owned cs x → ¬ InWindow F x := by
    rintro x ⟨f, p, start, img, len, keep, hin, hx⟩
    exact (hfits f p start img len keep hin).2 x hx
  obtain ⟨q', w', h1, h2⟩ := inv_acts R F q.mem before q.mem q ⟨q, fun _ => .original⟩ t (start_inv F q)
    ((honest_filter F q.mem before q.mem _).2 (by
      refine honest_prefix F q.mem _ (after.filter Act.isTool) _ _ ?_
      rw [htool]
      exact honest_tool hF q.mem cs [] q.mem _ hfit trivial (fun _ _ => rfl) fun _ _ => rfl)) hfair ht
  refine ⟨q', h1, h2.same, ?_⟩
  have hgood := whole_acts R F cs (fun f p start img len keep h => (hfits f p start img len keep h).1) howned before
    ⟨q, fun _ => .original⟩ t q.mem (fun _ _ => rfl) (by
      refine Whole.prefix _ (after.filter Act.isTool) ?_
      rw [htool]
      exact whole_tool cs q.mem cs [] q.mem q.mapped _ (fun _ h => h) hfit hroom (fun v h => by cases h) List.Pairwise.nil
        (fun v h => by cases h) fun _ => rfl) hquiet ht
  have := hgood.congr (m' := q'.mem) (fun f p start img len keep h => (hfits f p start img len keep h).1)
    fun x hx => h2.same.2.2.2 x (howned x hx)
  rw [← h2.same.2.2.1] at this
  exact this

/-! ### The example of `Props/ThreadsHist` -/

/-- Threads that store nothing. -/
def storelessB (R : Redirect I arch) (F : List Addr) : Ideal I → List Act → Bool
  | _, [] => true
  | s, a :: l =>
    (match a with
      | .run i => match I.step s.proc.mem (s.proc.regs i) with | none => true | some (_, st) => st.isEmpty
      | _ => true) &&
    match s.act R F a with | none => true | some t => storelessB R F t l

theorem storelessB_sound {R : Redirect I arch} {F : List Addr} (cs : List Cmd) (l : List Act) : ∀ s : Ideal I,
    storelessB R F s l = true → QuietRun R F cs s l := by
  induction l with
  | nil => intro s _; trivial
  | cons a l ih =>
    intro s h t ht
    unfold storelessB at h
    rw [Bool.and_eq_true] at h
    obtain ⟨h1, h2⟩ := h
    rw [ht] at h2
    refine ⟨?_, ih t h2⟩
    cases a with
    | run i =>
      intro x _
      dsimp only at h1
      replace ht : s.run R F i = some t := ht
      unfold Ideal.run at ht
      by_cases c1 : s.proc.stopped i = true
      · rw [if_pos c1] at ht; obtain rfl := Option.some.inj ht; rfl
      rw [if_neg c1] at ht
      cases htk : taken R F s (s.proc.regs i) with
      | some y =>
        rw [htk] at ht
        dsimp only at ht
        by_cases c2 : (window y.1).all s.proc.mapped = false
        · rw [if_pos c2] at ht; cases ht
        · rw [if_neg c2] at ht; obtain rfl := Option.some.inj ht; rfl
      | none =>
        rw [htk] at ht
        dsimp only at ht
        cases hp : s.proc.run i with
        | none => rw [hp] at ht; cases ht
        | some p' =>
          rw [hp] at ht
          obtain rfl := Option.some.inj ht
          unfold Proc.run at hp
          rw [if_neg c1] at hp
          by_cases hm : (I.reads s.proc.mem (s.proc.regs i)).all s.proc.mapped = false
          · rw [if_pos hm] at hp; cases hp
          rw [if_neg hm] at hp
          cases he : I.step s.proc.mem (s.proc.regs i) with
          | none => rw [he] at hp; cases hp
          | some e =>
            rw [he] at hp h1
            dsimp only at hp h1
            by_cases hd : e.2.all (fun s' => s.proc.mapped s'.1) = false
            · rw [if_pos hd] at hp; cases hp
            rw [if_neg hd] at hp
            obtain rfl := Option.some.inj hp
            show (e.2.foldl (fun m s => poke m s.1 s.2) s.proc.mem) x = s.proc.mem x
            rw [List.isEmpty_iff.1 h1]
            rfl
    | _ => trivial

theorem apart_regions {a b : Addr} {n k : Nat} (h : n ≤ (b - a).toNat ∧ k ≤ (a - b).toNat) (hn : n < 2 ^ 32) (hk : k < 2 ^ 32) :
    ∀ x, Within a n x → ¬ Within b k x := by
  intro x h1 h2
  unfold Within at h1 h2
  bv_omega

theorem window_out {F : List Addr} {a : Addr} {n : Nat} (hn : n < 2 ^ 32)
    (h : (F.all fun f => decide (n ≤ (f - a).toNat) && decide (16 ≤ (a - f).toNat)) = true) :
    ∀ x, Within a n x → ¬ InWindow F x := by
  rintro x hx ⟨f, hf, hxf⟩
  have := List.all_eq_true.1 h f hf
  rw [Bool.and_eq_true, decide_eq_true_eq, decide_eq_true_eq] at this
  exact apart_regions this hn (by omega) x hx (mem_window_iff.1 hxf)

example : Roomy [0x1000, 0x3000] [] hCmds := by
  refine ⟨by decide, by decide, window_out (by decide) (by decide +kernel), by simp, ?_⟩
  refine ⟨by decide, by decide, window_out (by decide) (by decide +kernel), ?_, ?_⟩
  · intro r hr
    rcases List.mem_singleton.1 hr with rfl
    exact apart_regions (by decide +kernel) (by decide) (by decide)
  refine ⟨by decide +kernel, by decide, window_out (by decide) (by decide +kernel), ?_, ?_⟩
  · intro r hr
    rcases List.mem_cons.1 hr with rfl | hr
    · exact apart_regions (by decide +kernel) (by decide) (by decide)
    rcases List.mem_singleton.1 hr with rfl
    exact apart_regions (by decide +kernel) (by decide) (by decide)
  exact trivial

example : QuietRun x86Redirect [0x1000, 0x3000] hCmds ⟨hProc, fun _ => .original⟩ hSched :=
  storelessB_sound _ _ _ (by decide +kernel)

end Ulp.ThreadsHist
