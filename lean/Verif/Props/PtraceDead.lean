/-
C40: what a process is continued with after each thing it reports, also when it reports
that it has ended.
-/
import Verif.Props.Ptrace
namespace Ulp.Ptrace

/-- What a process can report to the one that traces it (wait(2)): it stopped by a signal, it
was killed by a signal, with or without writing its memory to a file, or it ended with a
code. -/
inductive Report where
  | stopped (sig : BitVec 8)
  | killed (sig : BitVec 7) (core : Bool)
  | exited (code : BitVec 8)

/-- The wait status of a report (signals from 1 to 126 kill). -/
def Report.status : Report → BitVec 32
  | .stopped sig => stoppedBy sig
  | .killed sig core => sig.setWidth 32 ||| (if core then 0x80#32 else 0#32)
  | .exited code => code.setWidth 32 <<< 8

/-- The signals that kill. -/
def Report.Proper : Report → Prop
  | .killed sig _ => sig ≠ 0 ∧ sig ≠ 127
  | _ => True

/-- What the process is continued with while it is attached to.  After it has ended with a
code, that is the code in the place of the second byte (finding, see `C40_exit_as_signal`). -/
def Report.pass : Report → BitVec 32
  | .stopped sig => if sig = 5#8 then 0#32 else sig.setWidth 32
  | .killed sig _ => sig.setWidth 32
  | .exited code => code.setWidth 32 <<< 8

/-- What the process is continued with while the end of a remote call is waited for. -/
def Report.passCall : Report → BitVec 32
  | .stopped sig => sig.setWidth 32
  | .killed sig _ => sig.setWidth 32
  | .exited _ => 0#32

theorem killed_facts : ∀ (sig : BitVec 7) (core : Bool), sig ≠ 0 ∧ sig ≠ 127 →
    wifstopped (Report.killed sig core).status = false ∧ wifsignaled (Report.killed sig core).status = true ∧
    wtermsig (Report.killed sig core).status = sig.setWidth 32 := by decide +kernel

theorem exited_facts : ∀ code : BitVec 8, wifstopped (Report.exited code).status = false ∧
    wifsignaled (Report.exited code).status = false := by decide +kernel

theorem attachLoop_report {R : Type} {e : Ev R} {rep : Report} (es : List (Ev R)) (t : Tgt R) (hp : rep.Proper)
    (hs : e.status = rep.status) (hw : e.wait = none) (hstop : ∀ sig, rep = .stopped sig → sig ≠ 19#8) :
    attachLoop (e :: es) t = match e.cont with
      | some err => (t, some err, [])
      | none => ((attachLoop es (e.run rep.pass t)).1, (attachLoop es (e.run rep.pass t)).2.1,
          rep.pass :: (attachLoop es (e.run rep.pass t)).2.2) := by
  rw [attachLoop, hw]
  dsimp only
  have hno : ¬ (wifstopped e.status = true ∧ wstopsig e.status = SIGSTOP) := by
    rw [hs]
    cases rep with
    | stopped sig =>
      rintro ⟨-, h⟩
      rw [Report.status, wstopsig_stoppedBy] at h
      have : ∀ sig : BitVec 8, sig.setWidth 32 = SIGSTOP → sig = 19#8 := by decide +kernel
      exact hstop sig rfl (this sig h)
    | killed sig core => rw [(killed_facts sig core hp).1]; simp
    | exited code => rw [(exited_facts code).1]; simp
  rw [if_neg hno]
  have hpass : (if wifstopped e.status = true then
        (if wstopsig e.status = SIGTRAP then 0#32 else wstopsig e.status)
      else if wifsignaled e.status = true then wtermsig e.status else e.status) = rep.pass := by
    rw [hs]
    cases rep with
    | stopped sig =>
      rw [Report.status, if_pos (wifstopped_stoppedBy sig), wstopsig_stoppedBy, Report.pass]
      by_cases h5 : sig = 5#8
      · rw [if_pos h5, if_pos ((setWidth_trap sig).2 h5)]
      · rw [if_neg h5, if_neg fun h => h5 ((setWidth_trap sig).1 h)]
    | killed sig core =>
      obtain ⟨h1, h2, h3⟩ := killed_facts sig core hp
      rw [h1, h2, h3]
      rfl
    | exited code =>
      obtain ⟨h1, h2⟩ := exited_facts code
      rw [h1, h2]
      rfl
  rw [hpass]
  cases e.cont <;> rfl

/-- C40.  Whatever the process reports while it is attached to, as long as the calls succeed
and it is not the stop by SIGSTOP: it is continued after each report, once, in order, with
what is to be passed on for it; the first call that fails ends the attaching with its error,
so a process that has ended, which cannot be continued, is not taken for attached. -/
theorem C40_reports {R : Type} {before after : List (Ev R)} {last : Ev R} {reps : List Report} {rep : Report}
    (t : Tgt R) (hb : before.map Ev.status = reps.map Report.status) (hprop : ∀ r ∈ reps, r.Proper)
    (hok : ∀ ev ∈ before, ev.wait = none ∧ ev.cont = none) (hstop : ∀ sig, Report.stopped sig ∈ reps → sig ≠ 19#8)
    (hl : last.wait = none) (hs : last.status = rep.status) (hrep : rep.Proper) :
    ∃ t', t' = (before.zip (reps.map Report.pass)).foldl (fun t p => p.1.run p.2 t) t ∧
      (rep = .stopped 19#8 →
        taskAttach none (before ++ last :: after) t = (t', some 0, reps.map Report.pass)) ∧
      (∀ err, rep ≠ .stopped 19#8 → last.cont = some err →
        taskAttach none (before ++ last :: after) t = (t', some err, reps.map Report.pass)) := by
  rw [taskAttach]
  induction before generalizing t reps with
  | nil =>
    have : reps = [] := by simpa using hb.symm
    subst this
    refine ⟨t, rfl, ?_, ?_⟩
    · rintro rfl
      rw [List.nil_append, attachLoop, hl]
      dsimp only
      rw [if_pos]
      · rfl
      · rw [hs, Report.status, wifstopped_stoppedBy, wstopsig_stoppedBy]
        decide
    · intro err hne hc
      rw [List.nil_append, attachLoop_report after t hrep hs hl (by rintro sig rfl rfl; exact hne rfl), hc]
      rfl
  | cons ev before ih =>
    cases reps with
    | nil => simp at hb
    | cons r reps =>
      simp only [List.map_cons, List.cons.injEq] at hb
      obtain ⟨h1, h2⟩ := hok ev (by simp)
      obtain ⟨t', h3, h4, h5⟩ := ih (ev.run r.pass t) hb.2 (fun q hq => hprop q (by simp [hq]))
        (fun v hv => hok v (by simp [hv])) (fun sig hm => hstop sig (by simp [hm]))
      have hstep := attachLoop_report (before ++ last :: after) t (hprop r (by simp)) hb.1 h1
        (by rintro sig rfl; exact hstop sig (by simp))
      rw [h2] at hstep
      dsimp only at hstep
      refine ⟨t', by rw [h3]; rfl, ?_, ?_⟩
      · intro hr
        rw [List.cons_append, hstep, h4 hr]
        rfl
      · intro err hne hc
        rw [List.cons_append, hstep, h5 err hne hc]
        rfl

/-- The same while the end of a remote call is waited for: a process that ends there makes
the call fail when it cannot be continued. -/
theorem C40_wait_reports {R : Type} {before after : List (Ev R)} {last : Ev R} {reps : List Report}
    (t : Tgt R) (hb : before.map Ev.status = reps.map Report.status) (hprop : ∀ r ∈ reps, r.Proper)
    (hok : ∀ ev ∈ before, ev.wait = none ∧ ev.cont = none)
    (hstop : ∀ sig, Report.stopped sig ∈ reps → sig ≠ 19#8 ∧ sig ≠ 5#8 ∧ sig ≠ 11#8) (hl : last.cont ≠ none) :
    ∃ t', waitForStop (before ++ last :: after) t =
      (t', some (-1), (0#32 :: reps.map Report.passCall).take reps.length) := by
  rw [waitForStop]
  generalize 0#32 = status
  induction before generalizing t reps status with
  | nil =>
    have : reps = [] := by simpa using hb.symm
    subst this
    refine ⟨t, ?_⟩
    rw [List.nil_append, waitLoop, if_pos hl]
    rfl
  | cons ev before ih =>
    cases reps with
    | nil => simp at hb
    | cons r reps =>
      simp only [List.map_cons, List.cons.injEq] at hb
      obtain ⟨h1, h2⟩ := hok ev (by simp)
      obtain ⟨t', h3⟩ := ih (ev.run status t) hb.2 (fun q hq => hprop q (by simp [hq]))
        (fun v hv => hok v (by simp [hv])) (fun sig hm => hstop sig (by simp [hm])) r.passCall
      refine ⟨t', ?_⟩
      rw [List.cons_append, waitLoop, if_neg (by rw [h2]; simp)]
      dsimp only
      rw [if_neg (by rw [h1]; simp), hb.1]
      have hp := hprop r (by simp)
      cases r with
      | stopped sig =>
        obtain ⟨g1, g2, g3⟩ := hstop sig (by simp)
        have key : ∀ sig : BitVec 8, sig ≠ 19#8 ∧ sig ≠ 5#8 ∧ sig ≠ 11#8 → ¬ (sig.setWidth 32 = SIGSTOP ∨ sig.setWidth 32 = SIGTRAP) ∧
          sig.setWidth 32 ≠ SIGSEGV := by decide +kernel
        obtain ⟨k1, k2⟩ := key sig ⟨g1, g2, g3⟩
        rw [Report.status, if_pos (wifstopped_stoppedBy sig), wstopsig_stoppedBy, if_neg k1, if_neg k2]
        rw [Report.passCall] at h3
        rw [h3]
        rfl
      | killed sig core =>
        obtain ⟨f1, f2, f3⟩ := killed_facts sig core hp
        rw [f1, f2, f3, if_neg (by simp), if_pos rfl]
        rw [Report.passCall] at h3
        rw [h3]
        rfl
      | exited code =>
        obtain ⟨f1, f2⟩ := exited_facts code
        rw [f1, f2, if_neg (by simp), if_neg (by simp)]
        rw [Report.passCall] at h3
        rw [h3]
        rfl

/-- **Finding on C40**: after a process has ended with a code, attaching tries to continue it
with a "signal" that is no signal, the code times 256. -/
theorem C40_exit_as_signal {R : Type} (t : Tgt R) :
    (taskAttach none [⟨none, fun _ t => t, none, (Report.exited 3#8).status⟩, ⟨none, fun _ t => t, none, stoppedBy 19#8⟩] t).2.2 =
      [768#32] := by
  obtain ⟨t', -, h, -⟩ := C40_reports (before := [(⟨none, fun _ t => t, none, (Report.exited 3#8).status⟩ : Ev R)])
    (after := []) (last := ⟨none, fun _ t => t, none, stoppedBy 19#8⟩) (reps := [.exited 3#8]) (rep := .stopped 19#8) t rfl
    (by simp [Report.Proper]) (by simp) (by simp) rfl rfl trivial
  have h := h rfl
  rw [List.singleton_append] at h
  rw [h]
  exact show List.map Report.pass [Report.exited 3#8] = [768#32] by decide

/-- The hypotheses are met: a process that is stopped by SIGALRM and is then killed by
SIGKILL, after which it cannot be continued (`-ESRCH`). -/
example : [(⟨none, fun _ t => t, none, stoppedBy 14#8⟩ : Ev X86Regs)].map Ev.status = [Report.stopped 14#8].map Report.status ∧
    (∀ r ∈ [Report.stopped 14#8], r.Proper) ∧ (Report.killed 9#7 false).Proper ∧
    (Report.killed 9#7 false).status = 9#32 := by
  refine ⟨rfl, ?_, ⟨by decide, by decide⟩, by decide⟩
  simp [Report.Proper]

example (t : Tgt X86Regs) : taskAttach none [⟨none, fun _ t => t, none, stoppedBy 14#8⟩, ⟨some (-3), fun _ t => t, none, 9#32⟩] t =
    (t, some (-3), [14#32]) := rfl

end Ulp.Ptrace
