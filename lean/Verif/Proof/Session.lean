import Verif.Spec.Session
import Verif.Proof.System
import Verif.Props.Shell
import Verif.Props.TaskShell
import Verif.Props.InfoShell
namespace Ulp.Session
open TaskRun (Proc Job)
open Linux (State)
open LoadBytes (Machine FileCmd runFile)
open Sys (System Out Ev pidOf setProc Same)
open Getopt (Word Prog)
open Mixed (Use runUses)
open Shell (plain)
open Cli (Opt lastPid)

/-! ### The process that `-p` names -/

theorem last_split : ∀ os : List Opt, (∀ x ∈ os, x.isPid = false) ∨
    ∃ A P B, os = A ++ .pid P :: B ∧ ∀ x ∈ B, x.isPid = false
  | [] => .inl (by simp)
  | o :: os => by
    rcases last_split os with h | ⟨A, P, B, rfl, h⟩
    · cases ho : o.isPid with
      | false => exact .inl (by simpa [ho] using h)
      | true =>
        cases o with
        | pid P => exact .inr ⟨[], P, os, rfl, h⟩
        | _ => cases ho
    · exact .inr ⟨o :: A, P, B, rfl, h⟩

theorem task_pid {e : Cli.Env} {os : List Opt} {g : Cli.Cfg} (h : Cli.taskParse e os = .ok g) : pidOf os = some g.pid := by
  obtain ⟨d, h1, h2⟩ := Cli.parse_ok h
  obtain ⟨⟨m, hc, _⟩, hne, hp, _⟩ := Cli.check_ok h2
  have hgd : g.pid = d.pid := by rw [hc]
  rcases last_split os with hn | ⟨A, P, B, rfl, hB⟩
  · have := Cli.opts_keep Cli.Cfg.pid Opt.isPid e.page (Cli.opt_pid e.page) os hn h1
    exact absurd this hne
  · rw [Cli.fold_append] at h1
    obtain ⟨w, _, h1⟩ := Cli.bind_ok h1
    rw [Cli.fold_cons] at h1
    obtain ⟨b, e2, h1⟩ := Cli.bind_ok h1
    cases e2
    have := Cli.opts_keep Cli.Cfg.pid Opt.isPid e.page (Cli.opt_pid e.page) B hB h1
    rw [hgd, this]
    have hf : B.filter Opt.isPid = [] := List.filter_eq_nil_iff.2 fun x hx => by simp [hB x hx]
    have hl : lastPid (A ++ .pid P :: B) = some (.pid P) := by
      unfold lastPid
      rw [List.filter_append, List.filter_cons_of_pos rfl, hf, List.getLast?_append]
      rfl
    unfold pidOf
    rw [hl]

/-! ### One more use -/

theorem uses_cmd (M : Machine) (x : FileCmd) : ∀ (us : List Use) (w : Patch.World), runUses M w (us ++ [.cmd x]) =
    (runUses M w us).bind fun y => (runFile M y.1 x).map fun z => (z.1, y.2 ++ [z.2])
  | [], w => by
    show runUses M w [.cmd x] = (runFile M w x).map fun z => (z.1, [z.2])
    unfold runUses
    cases runFile M w x with
    | none => rfl
    | some z => rfl
  | .cmd c :: us, w => by
    rw [List.cons_append]
    unfold runUses
    cases runFile M w c with
    | none => rfl
    | some z =>
      dsimp only
      rw [uses_cmd M x us z.1]
      cases runUses M z.1 us with
      | none => rfl
      | some y =>
        dsimp only [Option.bind]
        cases runFile M y.1 x <;> rfl
  | .task k st j cut :: us, w => by
    rw [List.cons_append]
    unfold runUses
    cases j.leaves k w.arch ⟨st, w.mem⟩ cut with
    | none => rfl
    | some z => exact uses_cmd M x us _

theorem uses_task (M : Machine) (k : Ultask.Kern (Proc State)) (st : State) (j : Job) (cut : Option (Nat × Nat)) :
    ∀ (us : List Use) (w : Patch.World), runUses M w (us ++ [.task k st j cut]) =
    (runUses M w us).bind fun y => (j.leaves k y.1.arch ⟨st, y.1.mem⟩ cut).map fun z => ({ y.1 with mem := z.mem }, y.2)
  | [], w => by
    show runUses M w [.task k st j cut] = (j.leaves k w.arch ⟨st, w.mem⟩ cut).map fun z => ({ w with mem := z.mem }, [])
    unfold runUses
    cases j.leaves k w.arch ⟨st, w.mem⟩ cut with
    | none => rfl
    | some z => rfl
  | .cmd c :: us, w => by
    rw [List.cons_append]
    unfold runUses
    cases runFile M w c with
    | none => rfl
    | some z =>
      dsimp only
      rw [uses_task M k st j cut us z.1]
      cases runUses M z.1 us with
      | none => rfl
      | some y =>
        dsimp only [Option.bind]
        cases j.leaves k y.1.arch ⟨st, y.1.mem⟩ cut <;> rfl
  | .task k' st' j' cut' :: us, w => by
    rw [List.cons_append]
    unfold runUses
    cases j'.leaves k' w.arch ⟨st', w.mem⟩ cut' with
    | none => rfl
    | some z => exact uses_task M k st j cut us _

/-! ### One more act -/

/-- The process is as the uses of the tools on it say. -/
def Agree (M : Machine) (l : Option (Patch.World × List Use)) (os : List Out) (q : Option Patch.World) : Prop :=
  match l with
  | none => q = none
  | some (w, us) => ∃ w' rs, q = some w' ∧ runUses M w us = some (w', rs) ∧ os = rs.map Out.status

variable {M : Machine} {s t : System} {l : BitVec 32 → Option (Patch.World × List Use)} {o : BitVec 32 → List Out}

/-- What is shown of one act. -/
def Goes (M : Machine) (s : System) (l : BitVec 32 → Option (Patch.World × List Use)) (o : BitVec 32 → List Out) (a : Act)
    (r : Option (System × Out)) : Prop :=
  ∃ t' x, r = some (t', x) ∧ Same s t' ∧ ∀ p, Agree M (lifeStep s p (l p) a) (toldStep s p (o p) (a, x)) (t'.procs p)

theorem tool_step (hsame : Same s t) (h : ∀ p, Agree M (l p) (o p) (t.procs p)) {v : Ev} (hv : v.plain = true) (ht : v.tool = true)
    (hg : ∀ p w us, lifeStep s p (l p) (.ev v) = some (w, us) → runUses M w us ≠ none) :
    Goes M s l o (.ev v) (Sys.step M t v) := by
  have hl : ∀ p, lifeStep s p (l p) (.ev v) = match v.own s p with | none => l p | some x => (l p).map fun y => (y.1, y.2 ++ [.cmd x]) := by
    intro p
    cases v <;> first | rfl | cases ht
  have ho : ∀ p x, toldStep s p (o p) (.ev v, x) = if (v.own s p).isSome then o p ++ [x] else o p := by
    intro p x
    cases v <;> first | rfl | cases ht
  rcases Sys.shape M t ht with ⟨u, x, hu, hup, hus, hno⟩ | ⟨p, w, x, u, hw, hon, hx, hq, hup, hus, hr⟩
  · refine ⟨u, x, hu, hsame.trans hus, fun p => ?_⟩
    rw [hl, ho, hup]
    have hp := h p
    cases hop : v.own s p with
    | none => exact hp
    | some c =>
      have hpn : t.procs p = none := by
        cases hpw : t.procs p with
        | none => rfl
        | some w =>
          have := hno hv p w hpw
          rw [Sys.own_congr hsame p hv, hop] at this
          cases this
      rw [hpn] at hp ⊢
      cases hlp : l p with
      | none => rfl
      | some y =>
        rw [hlp] at hp
        obtain ⟨w', rs, k, -⟩ := hp
        cases k
  · have hx' := hx hv
    rw [Sys.own_congr hsame p hv] at hx'
    have hp := h p
    cases hlp : l p with
    | none =>
      rw [hlp, hw] at hp
      cases hp
    | some z =>
      rw [hlp, hw] at hp
      obtain ⟨w', rs, k1, k2, k3⟩ := hp
      cases k1
      have hrun := uses_cmd M x z.2 z.1
      rw [k2] at hrun
      dsimp only [Option.bind] at hrun
      have hne := hg p z.1 (z.2 ++ [.cmd x]) (by rw [hl, hx', hlp]; rfl)
      cases hrf : runFile M w x with
      | none =>
        rw [hrf] at hrun
        exact absurd hrun hne
      | some y =>
        rw [hrf] at hrun hr
        refine ⟨_, _, hr, (hsame.trans hus).proc p y.1, fun q => ?_⟩
        rw [hl, ho]
        by_cases hqp : q = p
        · subst hqp
          have hpq : (setProc u q y.1).procs q = some y.1 := if_pos rfl
          rw [hx', hpq, hlp]
          refine ⟨y.1, rs ++ [y.2], rfl, hrun, ?_⟩
          rw [if_pos (c := (some x).isSome = true) rfl, k3, List.map_append]
          rfl
        · have hn := hq q hqp
          rw [Sys.own_congr hsame q hv] at hn
          have hpq : (setProc u p y.1).procs q = u.procs q := if_neg hqp
          rw [hn, hpq, hup]
          exact h q

theorem ev_step (hsame : Same s t) (h : ∀ p, Agree M (l p) (o p) (t.procs p)) {v : Ev} (hv : v.plain = true)
    (hg : ∀ p w us, lifeStep s p (l p) (.ev v) = some (w, us) → runUses M w us ≠ none) :
    Goes M s l o (.ev v) (Sys.step M t v) := by
  cases v with
  | ulpatch opts c => exact tool_step hsame h hv rfl hg
  | ulftrace opts c => exact tool_step hsame h hv rfl hg
  | begins q w =>
    refine ⟨_, _, rfl, hsame.proc q w, fun p => ?_⟩
    unfold lifeStep toldStep
    dsimp only
    by_cases hq : q = p
    · subst hq
      have hpq : (setProc t q w).procs q = some w := if_pos rfl
      rw [if_pos rfl, if_pos rfl, hpq]
      exact ⟨w, [], rfl, rfl, rfl⟩
    · have hpq : (setProc t q w).procs p = t.procs p := if_neg fun e => hq e.symm
      rw [if_neg hq, if_neg hq, hpq]
      exact h p
  | ends q =>
    refine ⟨_, _, rfl, ⟨hsame.files, hsame.objPath, hsame.object⟩, fun p => ?_⟩
    unfold lifeStep toldStep
    dsimp only
    by_cases hq : q = p
    · subst hq
      rw [if_pos rfl, if_pos rfl]
      exact if_pos rfl
    · rw [if_neg hq, if_neg hq, if_neg fun e => hq e.symm]
      exact h p

/-- The run, from `open_task` on. -/
theorem leaves_run {k : Ultask.Kern (Proc State)} {arch : Arch} {p q : Proc State} {j : Job} {cut : Option (Nat × Nat)}
    (h : j.leaves k arch p cut = some q) : ∃ vs x, Vma.readTaskVmas (Vma.initVmas j.info) false j.ls = some vs ∧
      run k arch j.e j.c vs j.out p j.opts cut = some (q, x) := by
  cases cut with
  | none =>
    unfold Job.leaves Job.run at h
    dsimp only at h
    cases hr : Vma.readTaskVmas (Vma.initVmas j.info) false j.ls with
    | none => rw [hr] at h; cases h
    | some vs =>
      rw [hr] at h
      dsimp only [Option.bind] at h
      unfold run
      dsimp only
      cases hd : TaskRun.ultask k arch j.e j.c vs j.out p j.opts with
      | none => rw [hd] at h; cases h
      | some d =>
        rw [hd] at h
        cases h
        exact ⟨vs, _, rfl, by rw [hd]; rfl⟩
  | some c =>
    unfold Job.leaves Job.killed at h
    dsimp only at h
    cases hr : Vma.readTaskVmas (Vma.initVmas j.info) false j.ls with
    | none => rw [hr] at h; cases h
    | some vs =>
      rw [hr] at h
      dsimp only [Option.bind] at h
      unfold run
      dsimp only
      cases hd : TaskRun.killed k arch j.e j.c vs j.out p j.opts c.1 c.2 with
      | none => rw [hd] at h; cases h
      | some d =>
        rw [hd] at h
        cases h
        exact ⟨vs, _, rfl, by rw [hd]; rfl⟩

/-- A command line that is refused. -/
theorem run_refused {k : Ultask.Kern (Proc State)} {arch : Arch} {p q : Proc State} {j : Job} {cut : Option (Nat × Nat)} {n : Int}
    (hp : Cli.taskParse j.e j.opts = .error n) {vs : Vma.Vmas} {x : Out} (h : run k arch j.e j.c vs j.out p j.opts cut = some (q, x)) : q = p := by
  cases cut with
  | none =>
    unfold run TaskRun.ultask at h
    rw [hp] at h
    cases h
    rfl
  | some c =>
    unfold run TaskRun.killed at h
    rw [hp] at h
    cases h
    rfl

theorem task_step (hsame : Same s t) (h : ∀ p, Agree M (l p) (o p) (t.procs p)) {k : Ultask.Kern (Proc State)} {st : State} {j : Job} {cut : Option (Nat × Nat)}
    (hg : ∀ p w us, lifeStep s p (l p) (.task k st j cut) = some (w, us) → runUses M w us ≠ none) :
    Goes M s l o (.task k st j cut) (ultask t k st j.e j.c j.ls j.info j.out cut j.opts) := by
  have ho : ∀ p x, toldStep s p (o p) (.task k st j cut, x) = o p := fun _ _ => rfl
  have hl : ∀ p, lifeStep s p (l p) (.task k st j cut) =
    if pidOf j.opts = some p then (l p).map fun y => (y.1, y.2 ++ [.task k st j cut]) else l p := fun _ => rfl
  -- the run on a process that is there
  have there : ∀ p w, pidOf j.opts = some p → t.procs p = some w → ∃ d z rs, j.leaves k w.arch ⟨st, w.mem⟩ cut = some d ∧ l p = some z ∧
      runUses M z.1 (z.2 ++ [.task k st j cut]) = some ({ w with mem := d.mem }, rs) ∧ o p = rs.map Out.status := by
    intro p w hp hw
    have hap := h p
    cases hlp : l p with
    | none =>
      rw [hlp, hw] at hap
      cases hap
    | some z =>
      rw [hlp, hw] at hap
      obtain ⟨w', rs, k1, k2, k3⟩ := hap
      cases k1
      have hrun := uses_task M k st j cut z.2 z.1
      rw [k2] at hrun
      dsimp only [Option.bind] at hrun
      have hne := hg p z.1 (z.2 ++ [.task k st j cut]) (by rw [hl, if_pos hp, hlp]; rfl)
      cases hd : j.leaves k w.arch ⟨st, w.mem⟩ cut with
      | none =>
        rw [hd] at hrun
        exact absurd hrun hne
      | some d =>
        rw [hd] at hrun
        exact ⟨d, z, rs, rfl, rfl, hrun, k3⟩
  -- a run that changes nothing
  have idle : ∀ x, (∀ p w d, pidOf j.opts = some p → t.procs p = some w → j.leaves k w.arch ⟨st, w.mem⟩ cut = some d → d.mem = w.mem) →
      Goes M s l o (.task k st j cut) (some (t, x)) := by
    intro x hk
    refine ⟨t, x, rfl, hsame, fun p => ?_⟩
    rw [ho, hl]
    by_cases hp : pidOf j.opts = some p
    · rw [if_pos hp]
      cases hw : t.procs p with
      | none =>
        have hap := h p
        rw [hw] at hap
        cases hlp : l p with
        | none => rfl
        | some z =>
          rw [hlp] at hap
          obtain ⟨w', rs, k1, -⟩ := hap
          cases k1
      | some w =>
        obtain ⟨d, z, rs, d1, d2, d3, d4⟩ := there p w hp hw
        rw [d2]
        rw [hk p w d hp hw d1] at d3
        exact ⟨w, rs, rfl, d3, d4⟩
    · rw [if_neg hp]
      exact h p
  unfold ultask
  cases hpar : Cli.taskParse j.e j.opts with
  | error n =>
    dsimp only
    apply idle
    intro p w d _ _ hd
    obtain ⟨vs, x, -, hx⟩ := leaves_run hd
    rw [run_refused hpar hx]
  | ok g =>
    have hgp := task_pid hpar
    dsimp only
    cases hw : t.procs g.pid with
    | none =>
      dsimp only
      apply idle
      intro p w d hp hpw _
      rw [hgp] at hp
      cases hp
      rw [hw] at hpw
      cases hpw
    | some w =>
      obtain ⟨d, z, rs, d1, d2, d3, d4⟩ := there g.pid w hgp hw
      obtain ⟨vs, x, hr, hrun⟩ := leaves_run d1
      dsimp only
      rw [hr]
      dsimp only
      rw [hrun]
      refine ⟨_, _, rfl, hsame.proc _ _, fun q => ?_⟩
      rw [ho, hl]
      by_cases hq : q = g.pid
      · subst hq
        have hpq : (setProc t g.pid { w with mem := d.mem }).procs g.pid = some { w with mem := d.mem } := if_pos rfl
        rw [if_pos hgp, hpq, d2]
        exact ⟨_, rs, rfl, d3, d4⟩
      · have hpq : (setProc t g.pid { w with mem := d.mem }).procs q = t.procs q := if_neg hq
        rw [if_neg (by rw [hgp]; intro e; exact hq (Option.some.inj e).symm), hpq]
        exact h q

theorem info_same {posix : Bool} {ws : List Word} {os : List Cli.AOpt} (c : InfoShell.Circ) (hs : Prog.ulpinfo.Spelled posix ws os)
    (hsame : Same s t) (hsz : ∀ f b, s.files f = some b → b.length < 2 ^ 63)
    (hp : Cli.lastFile (os.map plain) ≠ some (.patch PFile.tempUlp)) :
    Same s (InfoShell.ulpinfo t posix ws c).1 ∧ (InfoShell.ulpinfo t posix ws c).1.procs = t.procs := by
  unfold InfoShell.ulpinfo
  rw [Getopt.C132_read _ _ _ _ hs, InfoShell.argsOf_map]
  dsimp only
  cases hf : (os.map plain).foldlM Cli.infoOpt {} with
  | error n => exact ⟨hsame, rfl⟩
  | ok g =>
    dsimp only
    split
    · exact ⟨hsame, rfl⟩
    cases hi : Cli.infoShow (InfoShell.infoEnv t) g with
    | error n => exact ⟨hsame, rfl⟩
    | ok x =>
      cases x with
      | file f =>
        have hrun : Cli.infoRun (InfoShell.infoEnv t) (os.map plain) = .ok (.file f) := by
          unfold Cli.infoRun
          rw [hf]
          exact hi
        have hlf := (((Cli.C100_shows _ _).1 f).1 hrun).2.1
        have hne : f ≠ PFile.tempUlp := by
          rintro rfl
          exact hp hlf
        dsimp only
        refine ⟨⟨fun q hq => ?_, hsame.objPath, hsame.object⟩, rfl⟩
        rw [← hsame.files q hq]
        exact PFile.C79_other_files_partial ⟨c.code, id⟩ f ⟨t.files, [], 0, 0⟩
          ⟨fun b hb => hsz f b (by rw [← hsame.files f hne]; exact hb), fun r hr => by cases hr⟩ q hq
      | task p =>
        dsimp only
        cases t.procs p with
        | none => exact ⟨hsame, rfl⟩
        | some w => exact ⟨hsame, rfl⟩

theorem means_goes (hsame : Same s t) (hsz : ∀ f b, s.files f = some b → b.length < 2 ^ 63)
    (h : ∀ p, Agree M (l p) (o p) (t.procs p)) {k : Line} {a : Act} (hm : Means k a) (ha : a.plain)
    (hg : ∀ p w us, lifeStep s p (l p) a = some (w, us) → runUses M w us ≠ none) :
    Goes M s l o a (type M t k) := by
  cases hm with
  | shell hm =>
    unfold type
    dsimp only
    rw [Shell.means_type M t hm]
    exact ev_step hsame h ha hg
  | ultask k st e c ls info out cut hm =>
    unfold type
    dsimp only
    rw [Getopt.C132_read _ _ _ _ hm, Shell.optsOf_map]
    exact task_step hsame h hg
  | ulpinfo c hm =>
    obtain ⟨h1, h2⟩ := info_same c hm hsame hsz ha
    unfold type
    dsimp only
    rcases hu : InfoShell.ulpinfo t _ _ c with ⟨u, r⟩
    rw [hu] at h1 h2
    cases r with
    | none => exact ⟨u, _, rfl, h1, fun p => by rw [h2]; exact h p⟩
    | some r => exact ⟨u, _, rfl, h1, fun p => by rw [h2]; exact h p⟩

/-- All the acts. -/
theorem run_agree (hsz : ∀ f b, s.files f = some b → b.length < 2 ^ 63) {ls : List Line} {as : List Act} (hm : AllMean ls as) :
    ∀ {t : System} {l : BitVec 32 → Option (Patch.World × List Use)} {o : BitVec 32 → List Out}, Same s t → (∀ p, Agree M (l p) (o p) (t.procs p)) → (∀ a ∈ as, a.plain) →
    (∀ bs, bs <+: as → ∀ p w us, bs.foldl (lifeStep s p) (l p) = some (w, us) → runUses M w us ≠ none) →
    ∃ t' os, types M t ls = some (t', os) ∧ Same s t' ∧
      ∀ p, Agree M (as.foldl (lifeStep s p) (l p)) ((as.zip os).foldl (toldStep s p) (o p)) (t'.procs p) := by
  induction hm with
  | nil => intro t l o hsame h _ _; exact ⟨t, [], rfl, hsame, h⟩
  | @cons k a ls as hm _ ih =>
    intro t l o hsame h ha hg
    obtain ⟨t1, x, e1, e2, e3⟩ := means_goes hsame hsz h hm (ha a (List.mem_cons_self ..))
      fun p w us he => hg [a] ⟨as, rfl⟩ p w us he
    obtain ⟨t2, os, f1, f2, f3⟩ := ih e2 (l := fun p => lifeStep s p (l p) a) (o := fun p => toldStep s p (o p) (a, x)) e3
      (fun b hb => ha b (List.mem_cons_of_mem _ hb)) fun bs hbs p w us he => hg (a :: bs) (by
        obtain ⟨cs, rfl⟩ := hbs
        exact ⟨cs, rfl⟩) p w us he
    refine ⟨t2, x :: os, ?_, f2, f3⟩
    unfold types
    rw [e1]
    dsimp only
    rw [f1]

end Ulp.Session
