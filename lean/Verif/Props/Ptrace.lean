/-
C39, C40, C41, C52, C53: stopping a process and running system calls in it.
-/
import Verif.Model.Ptrace
import Verif.Spec.Syscall
import Verif.Proof.Mem
namespace Ulp.Ptrace
open SysSpec

/-! ### C40 -/

/-- A wait status that says: stopped by this signal. -/
def stoppedBy (sig : BitVec 8) : BitVec 32 := sig.setWidth 32 <<< 8 ||| 0x7f#32

theorem wifstopped_stoppedBy : ∀ sig : BitVec 8, wifstopped (stoppedBy sig) = true := by decide +kernel

theorem wstopsig_stoppedBy : ∀ sig : BitVec 8, wstopsig (stoppedBy sig) = sig.setWidth 32 := by decide +kernel

theorem setWidth_trap : ∀ sig : BitVec 8, (sig.setWidth 32 = SIGTRAP) ↔ sig = 5#8 := by decide +kernel

/-- C40.  Whatever is reported while attaching: if attaching succeeds, then the
process was attached to, and the last thing reported was a stop by SIGSTOP, at which
the process was left; everything reported before was something else, and the process
was continued after each with the signal that was reported, where a trap counts as
no signal. -/
theorem C40_attach {R : Type} {att : Option Int} {evs : List (Ev R)} {t t' : Tgt R} {sent : List (BitVec 32)}
    (herr : ∀ e, (att = some e → e ≠ 0) ∧ ∀ ev ∈ evs, (ev.wait = some e → e ≠ 0) ∧ (ev.cont = some e → e ≠ 0))
    (h : taskAttach att evs t = (t', some 0, sent)) :
    att = none ∧ ∃ before last after, evs = before ++ last :: after ∧
      wifstopped last.status = true ∧ wstopsig last.status = SIGSTOP ∧
      (∀ ev ∈ before, ¬ (wifstopped ev.status = true ∧ wstopsig ev.status = SIGSTOP)) ∧
      sent.length = before.length ∧
      (∀ (i : Nat) (sig : BitVec 8), (∃ ev : Ev R, before[i]? = some ev ∧ ev.status = stoppedBy sig) →
        sent[i]? = some (if sig = 5#8 then 0#32 else sig.setWidth 32)) ∧
      t' = (before.zip sent).foldl (fun t p => p.1.run p.2 t) t := by
  have hatt : att = none := by
    cases att with
    | none => rfl
    | some e =>
      simp only [taskAttach, Prod.mk.injEq, Option.some.injEq] at h
      exact absurd h.2.1 ((herr e).1 rfl)
  subst hatt
  refine ⟨rfl, ?_⟩
  rw [taskAttach] at h
  have herr' : ∀ e, ∀ ev ∈ evs, (ev.wait = some e → e ≠ 0) ∧ (ev.cont = some e → e ≠ 0) := fun e => (herr e).2
  clear herr
  induction evs generalizing t t' sent with
  | nil => simp [attachLoop] at h
  | cons ev evs ih =>
    rw [attachLoop] at h
    cases hw : ev.wait with
    | some e =>
      rw [hw] at h
      simp only [Prod.mk.injEq, Option.some.injEq] at h
      exact absurd h.2.1 ((herr' e ev (by simp)).1 hw)
    | none =>
      rw [hw] at h
      simp only at h
      by_cases hst : wifstopped ev.status = true ∧ wstopsig ev.status = SIGSTOP
      · rw [if_pos hst] at h
        simp only [Prod.mk.injEq] at h
        refine ⟨[], ev, evs, rfl, hst.1, hst.2, by simp, by simp [← h.2.2], by simp, by simp [h.1]⟩
      · rw [if_neg hst] at h
        generalize hs : (if wifstopped ev.status = true then
            (if wstopsig ev.status = SIGTRAP then 0#32 else wstopsig ev.status)
          else if wifsignaled ev.status = true then wtermsig ev.status else ev.status) = status at h
        cases hc : ev.cont with
        | some e =>
          rw [hc] at h
          simp only [Prod.mk.injEq, Option.some.injEq] at h
          exact absurd h.2.1 ((herr' e ev (by simp)).2 hc)
        | none =>
          rw [hc] at h
          simp only [Prod.mk.injEq] at h
          obtain ⟨h1, h2, h3⟩ := h
          subst h3
          obtain ⟨before, last, after, e1, e2, e3, e4, e5, e6, e7⟩ := ih
            (t := ev.run status t) (t' := t') (sent := (attachLoop evs (ev.run status t)).2.2)
            (by rw [← h1, ← h2]) (fun e v hv => herr' e v (by simp [hv]))
          refine ⟨ev :: before, last, after, by rw [e1]; rfl, e2, e3, ?_, by simp [e5], ?_, ?_⟩
          · intro v hv
            rcases List.mem_cons.1 hv with rfl | hv
            · exact hst
            · exact e4 v hv
          · intro i sig hi
            cases i with
            | succ i =>
              simp only [List.getElem?_cons_succ] at hi ⊢
              exact e6 i sig hi
            | zero =>
              simp only [List.getElem?_cons_zero, Option.some.injEq] at hi ⊢
              obtain ⟨v, rfl, hv⟩ := hi
              rw [hv, if_pos (wifstopped_stoppedBy sig), wstopsig_stoppedBy] at hs
              rw [← hs]
              have : (sig.setWidth 32 = SIGTRAP) ↔ sig = 5#8 := setWidth_trap sig
              by_cases h5 : sig = 5#8
              · rw [if_pos h5, if_pos (this.2 h5)]
              · rw [if_neg h5, if_neg fun h => h5 (this.1 h)]
          · rw [List.zip_cons_cons, List.foldl_cons]
            exact e7

/-- The converse: if the calls succeed and the process reports stops, the first one
by SIGSTOP ends the attaching. -/
theorem C40_attach_ends {R : Type} {before after : List (Ev R)} {last : Ev R} (t : Tgt R)
    (hok : ∀ ev ∈ before, ev.wait = none ∧ ev.cont = none ∧ ¬ (wifstopped ev.status = true ∧ wstopsig ev.status = SIGSTOP))
    (hl : last.wait = none) (hs : last.status = stoppedBy 19#8) :
    ∃ t' sent, taskAttach none (before ++ last :: after) t = (t', some 0, sent) := by
  rw [taskAttach]
  induction before generalizing t with
  | nil =>
    refine ⟨t, [], ?_⟩
    rw [List.nil_append, attachLoop, hl]
    simp only
    rw [if_pos]
    rw [hs, wifstopped_stoppedBy, wstopsig_stoppedBy]
    decide
  | cons ev before ih =>
    obtain ⟨h1, h2, h3⟩ := hok ev (by simp)
    rw [List.cons_append, attachLoop, h1]
    simp only
    rw [if_neg h3, h2]
    simp only
    generalize (if wifstopped ev.status = true then
        (if wstopsig ev.status = SIGTRAP then 0#32 else wstopsig ev.status)
      else if wifsignaled ev.status = true then wtermsig ev.status else ev.status) = status
    obtain ⟨t', sent, e⟩ := ih (ev.run status t) (fun v hv => hok v (by simp [hv]))
    exact ⟨t', status :: sent, by rw [e]⟩

/-- While attaching a timer signal, a trap and another signal arrive. -/
def someEvs : List (Ev X86Regs) :=
  [⟨none, fun _ t => t, none, stoppedBy 14#8⟩, ⟨none, fun _ t => t, none, stoppedBy 5#8⟩,
   ⟨none, fun _ t => t, none, stoppedBy 10#8⟩, ⟨none, fun _ t => t, none, stoppedBy 19#8⟩]

example (t : Tgt X86Regs) : taskAttach none someEvs t = (t, some 0, [14#32, 0#32, 10#32]) := by
  rfl

/-- The same for the loop that waits for the end of a remote call: stops by other
signals than SIGSTOP, SIGTRAP and SIGSEGV are passed on, each once, in order. -/
theorem C40_wait {R : Type} {before after : List (Ev R)} {last : Ev R} {sigs : List (BitVec 8)} (t : Tgt R)
    (hb : before.map Ev.status = sigs.map stoppedBy) (hok : ∀ ev ∈ before, ev.wait = none ∧ ev.cont = none)
    (hsig : ∀ s ∈ sigs, s ≠ 19#8 ∧ s ≠ 5#8 ∧ s ≠ 11#8)
    (hl : last.wait = none) (hc : last.cont = none) (hs : last.status = stoppedBy 5#8 ∨ last.status = stoppedBy 19#8) :
    ∃ t', waitForStop (before ++ last :: after) t = (t', some 0, 0#32 :: sigs.map (·.setWidth 32)) ∧
      t' = ((before ++ [last]).zip (0#32 :: sigs.map (·.setWidth 32))).foldl (fun t p => p.1.run p.2 t) t := by
  rw [waitForStop]
  generalize 0#32 = status
  induction before generalizing t status sigs with
  | nil =>
    have : sigs = [] := by simpa using hb.symm
    subst this
    refine ⟨last.run status t, ?_, by simp⟩
    have h1 : wifstopped last.status = true := by
      rcases hs with hs | hs <;> rw [hs] <;> exact wifstopped_stoppedBy _
    have h2 : wstopsig last.status = SIGSTOP ∨ wstopsig last.status = SIGTRAP := by
      rcases hs with hs | hs <;> rw [hs, wstopsig_stoppedBy] <;> decide
    rw [List.nil_append, waitLoop]
    simp [hl, hc, h1, h2]
  | cons ev before ih =>
    cases sigs with
    | nil => simp at hb
    | cons s sigs =>
      simp only [List.map_cons, List.cons.injEq] at hb
      obtain ⟨h1, h2⟩ := hok ev (by simp)
      obtain ⟨t', e, et⟩ := ih (ev.run status t) hb.2 (fun v hv => hok v (by simp [hv]))
        (fun v hv => hsig v (by simp [hv])) (s.setWidth 32)
      have hs' := hsig s (by simp)
      have hne : s.setWidth 32 ≠ SIGSTOP ∧ s.setWidth 32 ≠ SIGTRAP ∧ s.setWidth 32 ≠ SIGSEGV := by
        clear ih e et hb hsig
        revert s; decide +kernel
      refine ⟨t', ?_, ?_⟩
      · rw [List.cons_append, waitLoop]
        simp only [h1, h2, ne_eq, not_true_eq_false, if_false]
        rw [hb.1, if_pos (wifstopped_stoppedBy s), wstopsig_stoppedBy, if_neg (by simp [hne]), if_neg hne.2.2, e]
        rfl
      · rw [et]
        simp

/-! ### C41 -/

/-- C41.  Closing one of the standard descriptors is refused and the process is not
touched; any other descriptor is passed to `close`. -/
theorem C41_close (abi : Abi) (n : NR) (base : Addr) (fd : BitVec 32) (env : Env abi.Regs) (t : Tgt abi.Regs) :
    (fd.toNat ≤ 2 → taskClose abi n base fd env t = (t, some (some (-22)))) ∧
    (2 < fd.toNat → (taskClose abi n base fd env t).1 =
      (taskSyscall abi base n.close (fd.signExtend 64, 0, 0, 0, 0, 0) env t).tgt) := by
  have hskip : shouldSkipRemoteFd fd = true ↔ fd.toNat ≤ 2 := by
    simp only [shouldSkipRemoteFd, Bool.or_eq_true, beq_iff_eq]
    constructor
    · rintro ((rfl | rfl) | rfl) <;> decide
    · intro h
      have : fd.toNat = 0 ∨ fd.toNat = 1 ∨ fd.toNat = 2 := by omega
      rcases this with h | h | h
      · exact Or.inl (Or.inl (BitVec.eq_of_toNat_eq h))
      · exact Or.inl (Or.inr (BitVec.eq_of_toNat_eq h))
      · exact Or.inr (BitVec.eq_of_toNat_eq h)
  constructor
  · intro h
    rw [taskClose, if_pos (hskip.2 h)]
  · intro h
    rw [taskClose, if_neg (by rw [hskip]; omega)]

/-- C41 for truncation. -/
theorem C41_ftruncate (abi : Abi) (n : NR) (base : Addr) (fd : BitVec 32) (len : BitVec 64) (env : Env abi.Regs)
    (t : Tgt abi.Regs) :
    (fd.toNat ≤ 2 → taskFtruncate abi n base fd len env t = (t, some (-22))) ∧
    (2 < fd.toNat → (taskFtruncate abi n base fd len env t).1 =
      (taskSyscall abi base n.ftruncate (fd.signExtend 64, len, 0, 0, 0, 0) env t).tgt) := by
  have hskip : shouldSkipRemoteFd fd = true ↔ fd.toNat ≤ 2 := by
    simp only [shouldSkipRemoteFd, Bool.or_eq_true, beq_iff_eq]
    constructor
    · rintro ((rfl | rfl) | rfl) <;> decide
    · intro h
      have : fd.toNat = 0 ∨ fd.toNat = 1 ∨ fd.toNat = 2 := by omega
      rcases this with h | h | h
      · exact Or.inl (Or.inl (BitVec.eq_of_toNat_eq h))
      · exact Or.inl (Or.inr (BitVec.eq_of_toNat_eq h))
      · exact Or.inr (BitVec.eq_of_toNat_eq h)
  constructor
  · intro h
    rw [taskFtruncate, if_pos (hskip.2 h)]
  · intro h
    rw [taskFtruncate, if_neg (by rw [hskip]; omega)]

/-! ### C39 -/

/-- The three transfers of code are complete. -/
def Complete {abi : Abi} (env : Env abi.Regs) : Prop :=
  abi.code.length ≤ env.rd ∧ abi.code.length ≤ env.wr ∧ abi.code.length ≤ env.wrBack

/-- The errors the environment reports are negative. -/
def Errs {abi : Abi} (env : Env abi.Regs) : Prop :=
  ∀ e, env.getOld = some e ∨ env.set = some e ∨ env.get = some e ∨ env.setOld = some e → e < 0

theorem orig_eq {abi : Abi} {env : Env abi.Regs} (hc : Complete env) (m : Mem) (base : Addr) :
    (m.read base abi.code.length).take env.rd ++ (env.uninit.take abi.code.length).drop env.rd =
      m.read base abi.code.length := by
  rw [List.take_of_length_le (by simpa using hc.1), List.drop_of_length_le, List.append_nil]
  rw [List.length_take]
  have := hc.1
  omega

theorem waitLoop_ret {R : Type} : ∀ {evs : List (Ev R)} {st : BitVec 32} {t : Tgt R} {r : Int},
    (waitLoop evs st t).2.1 = some r → r = 0 ∨ r = -1
  | [], _, _, _, h => by simp [waitLoop] at h
  | e :: es, st, t, r, h => by
    rw [waitLoop] at h
    split at h
    · simp at h; exact Or.inr h.symm
    · simp only at h
      split at h
      · simp at h; exact Or.inr h.symm
      · split at h
        · split at h
          · simp at h; exact Or.inl h.symm
          · split at h
            · simp at h; exact Or.inr h.symm
            · exact waitLoop_ret h
        · exact waitLoop_ret h

/-- The registers a system call is started with. -/
def startRegs (abi : Abi) (old : abi.Regs) (base : Addr) (nr : BitVec 32)
    (args : BitVec 64 × BitVec 64 × BitVec 64 × BitVec 64 × BitVec 64 × BitVec 64) : abi.Regs :=
  abi.copy (abi.setIp old base) (abi.prepare abi.zero (nr.signExtend 64) args)

/-- C39, the part about leaving things as found: whatever the process does while
it runs, if the call succeeds then all its registers are as before; and whether it
succeeds or fails, the overwritten code is as before and the rest of its memory is
as the process left it.  It assumes that the transfers of code are complete.
Missing: the registers when a step after the first change fails, `C39_regs_lost`;
incomplete transfers, `C39_code_lost`. -/
theorem C39_as_found_partial (abi : Abi) (hlen : abi.code.length ≤ 2 ^ 64) (base : Addr) (nr : BitVec 32)
    (args : BitVec 64 × BitVec 64 × BitVec 64 × BitVec 64 × BitVec 64 × BitVec 64) (env : Env abi.Regs)
    (hc : Complete env) (he : Errs env) (t : Tgt abi.Regs) (ret : Int)
    (h : (taskSyscall abi base nr args env t).ret = some ret) :
    (ret = 0 → (taskSyscall abi base nr args env t).tgt.regs = t.regs) ∧
    (taskSyscall abi base nr args env t).tgt.mem.read base abi.code.length = t.mem.read base abi.code.length ∧
    (env.getOld ≠ none ∨ env.set ≠ none → (taskSyscall abi base nr args env t).tgt = t) ∧
    (env.getOld = none ∧ env.set = none →
      ∀ x, abi.code.length ≤ (x - base).toNat → (taskSyscall abi base nr args env t).tgt.mem x =
        (waitForStop env.evs ⟨startRegs abi t.regs base nr args, t.mem.write base abi.code⟩).1.mem x) := by
  have hread : ∀ m : Mem, (m.write base ((t.mem.read base abi.code.length).take env.wrBack)).read base abi.code.length =
      t.mem.read base abi.code.length := by
    intro m
    rw [List.take_of_length_le (by simpa using hc.2.2)]
    have := Mem.read_write_self m base (t.mem.read base abi.code.length) (by simpa using hlen)
    simpa using this
  have hout : ∀ (m : Mem) x, abi.code.length ≤ (x - base).toNat →
      (m.write base ((t.mem.read base abi.code.length).take env.wrBack)) x = m x := by
    intro m x hx
    apply Mem.write_out
    rw [List.length_take, Mem.read_length]
    exact Nat.le_trans (Nat.min_le_right _ _) hx
  have hcode : abi.code.take env.wr = abi.code := List.take_of_length_le hc.2.1
  rw [taskSyscall] at h ⊢
  simp only at h ⊢
  cases hg : env.getOld with
  | some e =>
    rw [hg] at h
    simp only [Option.some.injEq] at h ⊢
    subst h
    exact ⟨fun h => by have := he e (Or.inl hg); omega, trivial, fun _ => trivial, by simp⟩
  | none =>
    rw [hg] at h
    simp only [orig_eq hc, hcode] at h ⊢
    cases hs : env.set with
    | some e =>
      rw [hs] at h
      simp only [pokeBack, Option.some.injEq] at h ⊢
      subst h
      refine ⟨fun h => by have := he e (Or.inr (Or.inl hs)); omega, hread _, fun _ => ?_, by simp⟩
      have : (t.mem.write base abi.code).write base ((t.mem.read base abi.code.length).take env.wrBack) = t.mem := by
        rw [List.take_of_length_le (by simpa using hc.2.2)]
        exact Mem.write_restore _ _ _
      rw [this]
    | none =>
      rw [hs] at h
      simp only at h ⊢
      rw [startRegs]
      generalize hw : waitForStop env.evs ⟨abi.copy (abi.setIp t.regs base)
        (abi.prepare abi.zero (nr.signExtend 64) args), t.mem.write base abi.code⟩ = w at h ⊢
      cases hr : w.2.1 with
      | none => rw [hr] at h; simp at h
      | some r =>
        rw [hr] at h
        simp only at h ⊢
        have hr01 : r = 0 ∨ r = -1 := by
          rw [← hw, waitForStop] at hr
          exact waitLoop_ret hr
        by_cases hneg : r < 0
        · rw [if_pos hneg] at h ⊢
          simp only [pokeBack, Option.some.injEq] at h ⊢
          subst h
          exact ⟨fun h => by omega, hread _, by simp, fun _ x hx => hout _ x hx⟩
        · rw [if_neg hneg] at h ⊢
          cases hg2 : env.get with
          | some e =>
            rw [hg2] at h
            simp only [pokeBack, Option.some.injEq] at h ⊢
            subst h
            exact ⟨fun h => by have := he e (Or.inr (Or.inr (Or.inl hg2))); omega, hread _, by simp,
              fun _ x hx => hout _ x hx⟩
          | none =>
            rw [hg2] at h
            simp only at h ⊢
            cases hs2 : env.setOld with
            | some e =>
              rw [hs2] at h
              simp only [pokeBack, Option.some.injEq] at h ⊢
              subst h
              exact ⟨fun h => by have := he e (Or.inr (Or.inr (Or.inr hs2))); omega, hread _, by simp,
                fun _ x hx => hout _ x hx⟩
            | none =>
              simp only [pokeBack]
              exact ⟨fun _ => trivial, hread _, by simp, fun _ x hx => hout _ x hx⟩

/-- A call that runs to its breakpoint, for either machine. -/
theorem syscall_runs (abi : Abi) (base : Addr) (nr : BitVec 32)
    (args : BitVec 64 × BitVec 64 × BitVec 64 × BitVec 64 × BitVec 64 × BitVec 64) (env : Env abi.Regs)
    (hc : Complete env) (h1 : env.getOld = none) (h2 : env.set = none) (h3 : env.get = none) (h4 : env.setOld = none)
    (t t' : Tgt abi.Regs) {before after : List (Ev abi.Regs)} {last : Ev abi.Regs} {sigs : List (BitVec 8)}
    (hev : env.evs = before ++ last :: after)
    (hb : before.map Ev.status = sigs.map stoppedBy)
    (hok : ∀ ev ∈ before, ev.wait = none ∧ ev.cont = none ∧ ∀ sig t, ev.run sig t = t)
    (hsig : ∀ s ∈ sigs, s ≠ 19#8 ∧ s ≠ 5#8 ∧ s ≠ 11#8)
    (hl : last.wait = none) (hlc : last.cont = none) (hs : last.status = stoppedBy 5#8)
    (hrun : ∀ sig, last.run sig ⟨startRegs abi t.regs base nr args, t.mem.write base abi.code⟩ = t') :
    taskSyscall abi base nr args env t =
      ⟨⟨t.regs, t'.mem.write base (t.mem.read base abi.code.length)⟩, some 0, some (abi.ret t'.regs)⟩ := by
  have hcode : abi.code.take env.wr = abi.code := List.take_of_length_le hc.2.1
  obtain ⟨w, e, ew⟩ := C40_wait (before := before) (after := after) (last := last) (sigs := sigs)
    ⟨startRegs abi t.regs base nr args, t.mem.write base abi.code⟩ hb (fun v hv => ⟨(hok v hv).1, (hok v hv).2.1⟩)
    hsig hl hlc (Or.inl hs)
  have hw : w = t' := by
    rw [ew]
    have : ∀ (b : List (Ev abi.Regs)) (l : List (BitVec 32)) (st : BitVec 32) (u : Tgt abi.Regs),
        (∀ ev ∈ b, ∀ sig t, ev.run sig t = t) → b.length = l.length → (∀ sig, last.run sig u = t') →
        ((b ++ [last]).zip (st :: l)).foldl (fun t p => p.1.run p.2 t) u = t' := by
      intro b
      induction b with
      | nil =>
        intro l st u _ _ hu
        simp [hu]
      | cons v b ih =>
        intro l st u hv hlen hu
        cases l with
        | nil => simp at hlen
        | cons x l =>
          rw [List.cons_append, List.zip_cons_cons, List.foldl_cons]
          simp only [hv v (by simp)]
          exact ih l x u (fun y hy => hv y (by simp [hy])) (by simpa using hlen) hu
    refine this before _ _ _ (fun v hv => (hok v hv).2.2) ?_ hrun
    have := congrArg List.length hb
    simpa using this
  rw [taskSyscall]
  simp only [h1, h2, h3, h4, orig_eq hc, hcode, hev]
  rw [startRegs] at e
  rw [e, hw]
  simp only [pokeBack]
  rw [List.take_of_length_le (by simpa using hc.2.2)]
  rfl

theorem runsTo_det {R : Type} {step : Tgt R → Step R} {t a b : Tgt R} (ha : RunsTo step t a) (hb : RunsTo step t b) :
    a = b := by
  induction ha with
  | stop h =>
    cases hb with
    | stop h' => rw [h] at h'; cases h'; rfl
    | go h' _ => rw [h] at h'; cases h'
  | go h _ ih =>
    cases hb with
    | stop h' => rw [h] at h'; cases h'
    | go h' hr => rw [h] at h'; cases h'; exact ih hr

/-- C39 on x86_64: the system call and its result.  The process is continued, other
signals may interrupt it and are passed on, and then it runs from where it was put to
a breakpoint.  Then the kernel has been called once, with the number and the six
arguments given; its result is returned; all registers are as before and the memory
is as the kernel left it, with the original code.  (The kernel does not change the
code that was put in.) -/
theorem C39_x86_partial (k : Kernel) (base : Addr) (nr : BitVec 32)
    (args : BitVec 64 × BitVec 64 × BitVec 64 × BitVec 64 × BitVec 64 × BitVec 64) (env : Env X86Regs)
    (hc : Complete (abi := x86) env) (h1 : env.getOld = none) (h2 : env.set = none) (h3 : env.get = none)
    (h4 : env.setOld = none) (t : Tgt X86Regs) {before after : List (Ev X86Regs)} {last : Ev X86Regs}
    {sigs : List (BitVec 8)} (hev : env.evs = before ++ last :: after)
    (hb : before.map Ev.status = sigs.map stoppedBy)
    (hok : ∀ ev ∈ before, ev.wait = none ∧ ev.cont = none ∧ ∀ sig t, ev.run sig t = t)
    (hsig : ∀ s ∈ sigs, s ≠ 19#8 ∧ s ≠ 5#8 ∧ s ≠ 11#8)
    (hl : last.wait = none) (hlc : last.cont = none) (hs : last.status = stoppedBy 5#8)
    (hrun : ∀ sig t, t.regs.rip = base → t.mem.read base 3 = [0x0f#8, 0x05#8, 0xcc#8] →
      RunsTo (x86Step k) t (last.run sig t))
    (hk : ∀ nr args (m : Mem), (k nr args m).2.read base 3 = m.read base 3) :
    taskSyscall x86 base nr args env t =
      ⟨⟨t.regs, (k (nr.signExtend 64) args (t.mem.write base [0x0f#8, 0x05#8, 0xcc#8])).2.write base (t.mem.read base 3)⟩,
       some 0, some (k (nr.signExtend 64) args (t.mem.write base [0x0f#8, 0x05#8, 0xcc#8])).1⟩ := by
  obtain ⟨a1, a2, a3, a4, a5, a6⟩ := args
  generalize hm : t.mem.write base [0x0f#8, 0x05#8, 0xcc#8] = m
  have hread : m.read base 3 = [0x0f#8, 0x05#8, 0xcc#8] := by
    rw [← hm]
    exact Mem.read_write_self t.mem base [0x0f#8, 0x05#8, 0xcc#8] (by decide)
  have hr2 : ∀ m' : Mem, m'.read base 3 = [0x0f#8, 0x05#8, 0xcc#8] → m'.read base 2 = [0x0f#8, 0x05#8] ∧
      m'.read (base + 2#64) 2 ≠ [0x0f#8, 0x05#8] ∧ m'.read (base + 2#64) 1 = [0xcc#8] := by
    intro m' h
    simp only [Mem.read, List.range, List.range.loop, List.map_cons, List.map_nil, List.cons.injEq, and_true] at h ⊢
    refine ⟨⟨h.1, h.2.1⟩, ?_, ?_⟩
    · intro hh
      have h0 : base + 2#64 + BitVec.ofNat 64 0 = base + BitVec.ofNat 64 2 := by simp
      rw [h0, h.2.2] at hh
      exact absurd (List.cons.inj hh).1 (by decide)
    · have h0 : base + 2#64 + BitVec.ofNat 64 0 = base + BitVec.ofNat 64 2 := by simp
      rw [h0]
      exact h.2.2
  generalize hout : k (nr.signExtend 64) (a1, a2, a3, a4, a5, a6) m = out
  have hst : startRegs x86 t.regs base nr (a1, a2, a3, a4, a5, a6) =
      { t.regs with
        r15 := 0, r14 := 0, r13 := 0, r12 := 0, rbp := 0, rbx := 0, r11 := 0, r10 := a4, r9 := a6, r8 := a5,
        rax := nr.signExtend 64, rcx := 0, rdx := a3, rsi := a2, rdi := a1, rip := base } := rfl
  generalize hregs : startRegs x86 t.regs base nr (a1, a2, a3, a4, a5, a6) = regs at hst
  have hrip : regs.rip = base := by rw [hst]
  let t1 : Tgt X86Regs := ⟨{ regs with rax := out.1, rcx := base + 2#64, r11 := regs.eflags, rip := base + 2#64 }, out.2⟩
  let t2 : Tgt X86Regs := ⟨{ t1.regs with rip := base + 2#64 + 1#64 }, out.2⟩
  have hs1 : x86Step k ⟨regs, m⟩ = .next t1 := by
    rw [x86Step]
    simp only [hrip]
    rw [if_pos (hr2 m hread).1]
    have : k regs.rax (regs.rdi, regs.rsi, regs.rdx, regs.r10, regs.r8, regs.r9) m = out := by
      rw [hst, ← hout]
    rw [this]
  have hout3 : out.2.read base 3 = [0x0f#8, 0x05#8, 0xcc#8] := by
    rw [← hout, hk, hread]
  have hs2 : x86Step k t1 = .trap t2 := by
    rw [x86Step]
    have := hr2 out.2 hout3
    simp only [t1]
    rw [if_neg this.2.1, if_pos this.2.2]
  have hrunsTo : RunsTo (x86Step k) ⟨regs, m⟩ t2 := .go hs1 (.stop hs2)
  have := syscall_runs x86 base nr (a1, a2, a3, a4, a5, a6) env hc h1 h2 h3 h4 t t2 hev hb hok hsig hl hlc hs
    (by
      intro sig
      change last.run sig ⟨startRegs x86 t.regs base nr (a1, a2, a3, a4, a5, a6),
        t.mem.write base [0x0f#8, 0x05#8, 0xcc#8]⟩ = t2
      rw [hm, hregs]
      exact runsTo_det (hrun sig _ hrip hread) hrunsTo)
  rw [this]
  rfl

/-- C39 on aarch64. -/
theorem C39_a64_partial (k : Kernel) (base : Addr) (nr : BitVec 32)
    (args : BitVec 64 × BitVec 64 × BitVec 64 × BitVec 64 × BitVec 64 × BitVec 64) (env : Env A64Regs)
    (hc : Complete (abi := a64) env) (h1 : env.getOld = none) (h2 : env.set = none) (h3 : env.get = none)
    (h4 : env.setOld = none) (t : Tgt A64Regs) {before after : List (Ev A64Regs)} {last : Ev A64Regs}
    {sigs : List (BitVec 8)} (hev : env.evs = before ++ last :: after)
    (hb : before.map Ev.status = sigs.map stoppedBy)
    (hok : ∀ ev ∈ before, ev.wait = none ∧ ev.cont = none ∧ ∀ sig t, ev.run sig t = t)
    (hsig : ∀ s ∈ sigs, s ≠ 19#8 ∧ s ≠ 5#8 ∧ s ≠ 11#8)
    (hl : last.wait = none) (hlc : last.cont = none) (hs : last.status = stoppedBy 5#8)
    (hrun : ∀ sig t, t.regs.pc = base → t.mem.read base 8 = leBytes 8 0xd42000a0d4000001#64 →
      RunsTo (a64Step k) t (last.run sig t))
    (hk : ∀ nr args (m : Mem), (k nr args m).2.read base 8 = m.read base 8) :
    taskSyscall a64 base nr args env t =
      ⟨⟨t.regs, (k (nr.signExtend 64) args (t.mem.write base (leBytes 8 0xd42000a0d4000001#64))).2.write base
          (t.mem.read base 8)⟩,
       some 0, some (k (nr.signExtend 64) args (t.mem.write base (leBytes 8 0xd42000a0d4000001#64))).1⟩ := by
  obtain ⟨a1, a2, a3, a4, a5, a6⟩ := args
  have hcode : leBytes 8 0xd42000a0d4000001#64 = a64.code := by decide +kernel
  rw [hcode] at hrun ⊢
  generalize hm : t.mem.write base a64.code = m
  have hread : m.read base 8 = a64.code := by
    rw [← hm]
    exact Mem.read_write_self t.mem base a64.code (by decide)
  have hr2 : ∀ m' : Mem, m'.read base 8 = a64.code → leNat (m'.read base 4) = 0xd4000001 ∧
      leNat (m'.read (base + 4#64) 4) = 0xd42000a0 := by
    intro m' h
    have e1 : m'.read base 4 = (m'.read base 8).take 4 := by
      simp [Mem.read, List.range, List.range.loop]
    have e2 : m'.read (base + 4#64) 4 = (m'.read base 8).drop 4 := by
      simp [Mem.read, List.range, List.range.loop, BitVec.add_assoc]
    rw [e1, e2, h]
    decide
  generalize hout : k (nr.signExtend 64) (a1, a2, a3, a4, a5, a6) m = out
  generalize hregs : startRegs a64 t.regs base nr (a1, a2, a3, a4, a5, a6) = regs
  have hpc : regs.pc = base := by rw [← hregs]; rfl
  have hargs : (regs.regs 8, regs.regs 0, regs.regs 1, regs.regs 2, regs.regs 3, regs.regs 4, regs.regs 5) =
      (nr.signExtend 64, a1, a2, a3, a4, a5, a6) := by rw [← hregs]; rfl
  simp only [Prod.mk.injEq] at hargs
  let t1 : Tgt A64Regs := ⟨{ regs with regs := (fun i => if i = 0 then out.1 else regs.regs i), pc := base + 4#64 }, out.2⟩
  have hs1 : a64Step k ⟨regs, m⟩ = .next t1 := by
    rw [a64Step]
    simp only [hpc]
    rw [if_pos (hr2 m hread).1]
    have : k (regs.regs 8) (regs.regs 0, regs.regs 1, regs.regs 2, regs.regs 3, regs.regs 4, regs.regs 5) m = out := by
      obtain ⟨g1, g2, g3, g4, g5, g6, g7⟩ := hargs
      rw [g1, g2, g3, g4, g5, g6, g7, ← hout]
    rw [this]
  have hout8 : out.2.read base 8 = a64.code := by
    rw [← hout, hk, hread]
  have hs2 : a64Step k t1 = .trap t1 := by
    rw [a64Step]
    have := (hr2 out.2 hout8).2
    simp only [t1, this]
    rw [if_neg (by decide), if_pos (by decide)]
  have hrunsTo : RunsTo (a64Step k) ⟨regs, m⟩ t1 := .go hs1 (.stop hs2)
  have := syscall_runs a64 base nr (a1, a2, a3, a4, a5, a6) env hc h1 h2 h3 h4 t t1 hev hb hok hsig hl hlc hs
    (by
      intro sig
      rw [hm, hregs]
      exact runsTo_det (hrun sig _ hpc hread) hrunsTo)
  rw [this]
  rfl

/-- A machine for the hypotheses: it executes the two instructions. -/
def twoSteps {R : Type} (step : Tgt R → Step R) (t : Tgt R) : Tgt R :=
  match step t with
  | .next t1 =>
    match step t1 with
    | .trap t2 => t2
    | _ => t1
  | _ => t

/-- `getpid` on x86_64, interrupted by one signal. -/
def getpidEnv (k : Kernel) : Env X86Regs where
  getOld := none
  rd := 3
  wr := 3
  set := none
  evs := [⟨none, fun _ t => t, none, stoppedBy 17#8⟩, ⟨none, fun _ t => twoSteps (x86Step k) t, none, stoppedBy 5#8⟩]
  get := none
  setOld := none
  wrBack := 3
  uninit := []

/-- A kernel that knows one call. -/
def pidKernel : Kernel := fun nr _ m => (if nr = 39#64 then 4242#64 else -38#64, m)

example (base : Addr) (t : Tgt X86Regs) :
    ∃ m, taskSyscall x86 base 39#32 (0, 0, 0, 0, 0, 0) (getpidEnv pidKernel) t = ⟨⟨t.regs, m⟩, some 0, some 4242#64⟩ := by
  have hk : ∀ nr args (m : Mem), (pidKernel nr args m).2.read base 3 = m.read base 3 := fun _ _ _ => rfl
  refine ⟨_, C39_x86_partial pidKernel base 39#32 (0, 0, 0, 0, 0, 0) (getpidEnv pidKernel) ⟨Nat.le_refl 3, Nat.le_refl 3, Nat.le_refl 3⟩ rfl rfl rfl rfl t
    (before := [⟨none, fun _ t => t, none, stoppedBy 17#8⟩])
    (last := ⟨none, fun _ t => twoSteps (x86Step pidKernel) t, none, stoppedBy 5#8⟩) (after := []) (sigs := [17#8])
    rfl rfl (by simp) (by decide) rfl rfl rfl ?_ hk⟩
  intro sig u hrip hread
  simp only
  have h2 : u.mem.read base 2 = [0x0f#8, 0x05#8] := by
    simp only [Mem.read, List.range, List.range.loop, List.map_cons, List.map_nil, List.cons.injEq, and_true] at hread ⊢
    exact ⟨hread.1, hread.2.1⟩
  have h3 : u.mem (base + 2#64) = 0xcc#8 := by
    simp only [Mem.read, List.range, List.range.loop, List.map_cons, List.map_nil, List.cons.injEq, and_true] at hread
    exact hread.2.2
  have e1 : x86Step pidKernel u = .next ⟨{ u.regs with rax := (pidKernel u.regs.rax (u.regs.rdi, u.regs.rsi, u.regs.rdx, u.regs.r10, u.regs.r8, u.regs.r9) u.mem).1, rcx := base + 2#64, r11 := u.regs.eflags, rip := base + 2#64 }, u.mem⟩ := by
    rw [x86Step]
    simp only [hrip]
    rw [if_pos h2]
    rfl
  have e2 : ∀ r : X86Regs, r.rip = base + 2#64 →
      x86Step pidKernel ⟨r, u.mem⟩ = .trap ⟨{ r with rip := r.rip + 1#64 }, u.mem⟩ := by
    intro r hr
    rw [x86Step]
    simp only [hr]
    rw [if_neg, if_pos]
    · simp [Mem.read, List.range, List.range.loop, h3]
    · simp [Mem.read, List.range, List.range.loop, h3]
  rw [twoSteps, e1]
  simp only
  rw [e2 _ rfl]
  exact .go e1 (.stop (e2 _ rfl))

/-- Finding: if reading the registers back fails after the call, the process is left
with the registers of the call (its stack pointer and its program counter at the end
of the call), and only the code is put back. -/
theorem C39_regs_lost (base : Addr) (nr : BitVec 32)
    (args : BitVec 64 × BitVec 64 × BitVec 64 × BitVec 64 × BitVec 64 × BitVec 64) (t : Tgt X86Regs)
    (h : t.regs.rip ≠ base) :
    ∃ env : Env X86Regs, Complete (abi := x86) env ∧ (taskSyscall x86 base nr args env t).ret = some (-3) ∧
      (taskSyscall x86 base nr args env t).tgt.regs ≠ t.regs := by
  refine ⟨⟨none, 3, 3, none, [⟨none, fun _ t => t, none, stoppedBy 5#8⟩], some (-3), none, 3, []⟩,
    ⟨Nat.le_refl 3, Nat.le_refl 3, Nat.le_refl 3⟩, rfl, ?_⟩
  intro e
  exact h (by rw [← e]; rfl)

/-- Finding: the code is read without looking at the result.  If that fails and the
rest goes well, the call succeeds and what was in the tool's memory is left in the
process as its code. -/
theorem C39_code_lost (base : Addr) (nr : BitVec 32)
    (args : BitVec 64 × BitVec 64 × BitVec 64 × BitVec 64 × BitVec 64 × BitVec 64) (t : Tgt X86Regs)
    (junk : List Byte) (hj : junk.length = 3) :
    ∃ env : Env X86Regs, env.uninit = junk ∧ (taskSyscall x86 base nr args env t).ret = some 0 ∧
      (taskSyscall x86 base nr args env t).tgt.mem.read base 3 = junk := by
  refine ⟨⟨none, 0, 3, none, [⟨none, fun _ t => t, none, stoppedBy 5#8⟩], none, none, 3, junk⟩, rfl, rfl, ?_⟩
  have : (taskSyscall x86 base nr args
      ⟨none, 0, 3, none, [⟨none, fun _ t => t, none, stoppedBy 5#8⟩], none, none, 3, junk⟩ t).tgt.mem =
      (t.mem.write base x86.code).write base junk := by
    have h1 : (t.mem.read base 3).take 0 ++ (junk.take 3).drop 0 = junk := by
      simp [List.take_of_length_le (Nat.le_of_eq hj)]
    have h2 : junk.take 3 = junk := List.take_of_length_le (Nat.le_of_eq hj)
    change (t.mem.write base x86.code).write base (((t.mem.read base 3).take 0 ++ (junk.take 3).drop 0).take 3) = _
    rw [h1, h2]
  refine (congrArg (fun m : Mem => m.read base 3) this).trans ?_
  have := Mem.read_write_self (t.mem.write base x86.code) base junk (by omega)
  rw [hj] at this
  exact this

/-- Finding: a SIGSTOP that reaches the process before it has made the system call is
taken for the end of the call.  The tool reports success; the call was not made, and
its result is the call's own number. -/
theorem C39_spurious_stop (base : Addr) (nr : BitVec 32)
    (args : BitVec 64 × BitVec 64 × BitVec 64 × BitVec 64 × BitVec 64 × BitVec 64) (t : Tgt X86Regs) :
    ∃ env : Env X86Regs, Complete (abi := x86) env ∧ env.evs = [⟨none, fun _ t => t, none, stoppedBy 19#8⟩] ∧
      taskSyscall x86 base nr args env t = ⟨t, some 0, some (nr.signExtend 64)⟩ := by
  refine ⟨⟨none, 3, 3, none, [⟨none, fun _ t => t, none, stoppedBy 19#8⟩], none, none, 3, []⟩,
    ⟨Nat.le_refl 3, Nat.le_refl 3, Nat.le_refl 3⟩, rfl, ?_⟩
  have h : (t.mem.write base x86.code).write base (t.mem.read base 3) = t.mem := Mem.write_restore t.mem base x86.code
  change (⟨⟨t.regs, (t.mem.write base x86.code).write base (((t.mem.read base 3).take 3 ++ ([].take 3).drop 3).take 3)⟩,
    some 0, some (nr.signExtend 64)⟩ : SysRes X86Regs) = _
  have h1 : ((t.mem.read base 3).take 3 ++ (([] : List Byte).take 3).drop 3).take 3 = t.mem.read base 3 := by
    simp [Mem.read, List.range, List.range.loop]
  rw [h1, h]
  rfl

/-! ### C52 -/

/-- C52, in part: remote memory is reported as allocated only if the call succeeded,
and then the address is the kernel's result.  Missing: a result that is an error
number other than -1, `C52_error_as_address`. -/
theorem C52_malloc_partial (abi : Abi) (n : NR) (base : Addr) (len : BitVec 64) (env : Env abi.Regs)
    (t : Tgt abi.Regs) (a : BitVec 64) (h : (taskMalloc abi n base len env t).2 = some a) (ha : a ≠ 0#64) :
    ∃ ret, (taskSyscall abi base n.mmap (0#64, len, 3#64, 0x22#64, -1#64, 0#64) env t).ret = some ret ∧ 0 ≤ ret ∧
      (taskSyscall abi base n.mmap (0#64, len, 3#64, 0x22#64, -1#64, 0#64) env t).res = some a ∧ a ≠ -1#64 := by
  rw [taskMalloc, taskMmap] at h
  simp only [show (3#32).signExtend 64 = 3#64 from rfl, show (0x22#32).signExtend 64 = 0x22#64 from rfl,
    show (-1#32).signExtend 64 = -1#64 from by decide] at h
  generalize taskSyscall abi base n.mmap (0#64, len, 3#64, 0x22#64, -1#64, 0#64) env t = r at h ⊢
  cases hr : r.ret with
  | none => rw [hr] at h; simp at h
  | some ret =>
    rw [hr] at h
    simp only [Option.bind_some] at h
    by_cases hn : ret < 0
    · rw [if_pos hn] at h
      simp only [Option.map_some, Option.some.injEq] at h
      exact absurd h.symm (by simpa using ha)
    · rw [if_neg hn] at h
      refine ⟨ret, rfl, by omega, ?_⟩
      cases hv : r.res with
      | none => rw [hv] at h; simp at h
      | some v =>
        rw [hv] at h
        simp only [Option.map_some, Option.some.injEq] at h
        by_cases hm : v = -1#64
        · rw [if_pos hm] at h
          exact absurd h.symm ha
        · rw [if_neg hm] at h
          subst h
          exact ⟨rfl, hm⟩

/-- Finding: when the kernel has no memory (-12), the error number is returned as the
address of the memory. -/
theorem C52_error_as_address (n : NR) (base : Addr) (len : BitVec 64) (t : Tgt X86Regs) :
    ∃ env : Env X86Regs, Complete (abi := x86) env ∧
      (taskSyscall x86 base n.mmap (0#64, len, 3#64, 0x22#64, -1#64, 0#64) env t).res = some (-12#64) ∧
      (taskMalloc x86 n base len env t).2 = some (-12#64) := by
  refine ⟨⟨none, 3, 3, none, [⟨none, fun _ t => { t with regs := { t.regs with rax := -12#64 } }, none, stoppedBy 5#8⟩],
    none, none, 3, []⟩,
    ⟨Nat.le_refl 3, Nat.le_refl 3, Nat.le_refl 3⟩, rfl, ?_⟩
  rfl

/-! ### C53 -/

/-- C53, in part: when the system call could not be made, unmapping, changing the
protection and synchronising report a failure, and mapping gives no address.
Missing: truncating and `prctl`, which report success, `C53_silent`; closing, which
uses a result it does not have, `C53_close_undefined`. -/
theorem C53_reported_partial (abi : Abi) (n : NR) (base : Addr) (a len off : BitVec 64) (prot flags fd : BitVec 32)
    (env : Env abi.Regs) (t : Tgt abi.Regs) (e : Int) (he : e < 0) :
    ((taskSyscall abi base n.munmap (a, len, 0, 0, 0, 0) env t).ret = some e →
      (taskMunmap abi n base a len env t).2 = some (-1)) ∧
    ((taskSyscall abi base n.mprotect (a, len, prot.signExtend 64, 0, 0, 0) env t).ret = some e →
      (taskMprotect abi n base a len prot env t).2 = some (-1)) ∧
    ((taskSyscall abi base n.msync (a, len, flags.signExtend 64, 0, 0, 0) env t).ret = some e →
      (taskMsync abi n base a len flags env t).2 = some (-1)) ∧
    ((taskSyscall abi base n.mmap (a, len, prot.signExtend 64, flags.signExtend 64, fd.signExtend 64, off) env t).ret =
        some e → (taskMmap abi n base a len prot flags fd off env t).2 = some 0#64) := by
  refine ⟨?_, ?_, ?_, ?_⟩ <;> intro h
  · rw [taskMunmap]; simp only [h, Option.bind_some]; rw [if_pos he]
  · rw [taskMprotect]; simp only [h, Option.bind_some]; rw [if_pos he]
  · rw [taskMsync]; simp only [h, Option.bind_some]; rw [if_pos he]
  · rw [taskMmap]; simp only [h, Option.bind_some]; rw [if_pos he]

/-- Finding: truncating a file and `prctl` return 0, which is success, when the call
could not be made. -/
theorem C53_silent (abi : Abi) (n : NR) (base : Addr) (fd option : BitVec 32) (len a2 a3 a4 a5 : BitVec 64)
    (hfd : 2 < fd.toNat) (env : Env abi.Regs) (t : Tgt abi.Regs) (h : env.getOld = some (-3)) :
    (taskFtruncate abi n base fd len env t).2 = some 0 ∧ (taskPrctl abi n base option a2 a3 a4 a5 env t).2 = some 0 := by
  have hs : ¬ shouldSkipRemoteFd fd = true := by
    simp only [shouldSkipRemoteFd, Bool.or_eq_true, beq_iff_eq]
    rintro ((rfl | rfl) | rfl) <;> revert hfd <;> decide
  rw [taskFtruncate, if_neg hs, taskPrctl]
  simp [taskSyscall, h]

/-- Finding: closing uses a result that was not given. -/
theorem C53_close_undefined (abi : Abi) (n : NR) (base : Addr) (fd : BitVec 32) (hfd : 2 < fd.toNat)
    (env : Env abi.Regs) (t : Tgt abi.Regs) (h : env.getOld = some (-3)) :
    (taskClose abi n base fd env t).2 = some none := by
  have hs : ¬ shouldSkipRemoteFd fd = true := by
    simp only [shouldSkipRemoteFd, Bool.or_eq_true, beq_iff_eq]
    rintro ((rfl | rfl) | rfl) <;> revert hfd <;> decide
  rw [taskClose, if_neg hs]
  simp [taskSyscall, h]

end Ulp.Ptrace
