import Verif.Props.Session

/-! C143: a process that is not there.  C144: mistyped command lines. -/

namespace Ulp.Session
open LoadBytes
open Sys (System Out Ev pidOf setProc Same exSys exCirc ex1 ex2)
open TaskRun (Proc Job asks)
open Linux (State)
open Getopt (Word Prog)
open Cli (Opt AOpt)
open Mixed
open Shell (plain)
open InfoShell (Asks Wordy Reads Tells)
open Load (lit)

theorem seen_loose {P : Prog} {posix : Bool} {ws : List Word} {os : List AOpt} (h : P.Loose posix ws os) :
    P.cases posix ws = os.map .opt := Getopt.read_spelled (Getopt.fits P) h

theorem fold_bad {σ ω : Type} {step : σ → ω → Except Int σ} {P : ω → Prop} (hs : ∀ c o n, step c o = .error n → n % 256 = 0 → P o) :
    ∀ (l : List ω) (c : σ) (n : Int), l.foldlM step c = .error n → n % 256 = 0 → ∃ o ∈ l, P o
  | [], _, _, h, _ => by cases h
  | o :: l, c, n, h, hn => by
    rw [List.foldlM_cons] at h
    cases e : step c o with
    | error n =>
      rw [e] at h
      cases h
      exact ⟨o, List.mem_cons_self, hs _ _ _ e hn⟩
    | ok d =>
      rw [e] at h
      obtain ⟨x, h1, h2⟩ := fold_bad hs l d n h hn
      exact ⟨x, List.mem_cons_of_mem _ h1, h2⟩

theorem bind_bad {α β : Type} {m : Except Int α} {f : α → Except Int β} {n : Int} (h : m.bind f = .error n) :
    m = .error n ∨ ∃ a, f a = .error n := by
  cases m with
  | error n => exact .inl (by cases h; rfl)
  | ok a => exact .inr ⟨a, h⟩

theorem bind_fold_bad {σ ω β : Type} {step : σ → ω → Except Int σ} {f : σ → Except Int β} {n : Int} (hn : n % 256 = 0)
    (hs : ∀ c o n, step c o = .error n → n % 256 ≠ 0) (hf : ∀ c, f c ≠ .error n) (l : List ω) (c : σ) : (l.foldlM step c).bind f ≠ .error n := fun h => by
  rcases bind_bad h with h | ⟨a, h⟩
  · obtain ⟨_, _, h⟩ := fold_bad (P := fun _ => False) (fun c o n e => hs c o n e) l c n h hn
    exact h
  · exact hf a h

theorem opt_bad (page : BitVec 64) (c : Cli.Cfg) (o : Opt) (n : Int) (h : Cli.taskOpt page c o = .error n) (hn : n % 256 = 0) : o = .stop n := by
  cases o with
  | stop n => cases h; rfl
  | dump a =>
    refine absurd h (bind_fold_bad hn (fun c o m e hm => ?_) (fun c e => ?_) _ _)
    · unfold Cli.dumpSub at e
      repeat' split at e
      all_goals first | (cases e; done) | (cases e; exact absurd hm (by decide))
    · unfold Cli.dumpCheck at e
      repeat' split at e
      all_goals first | (cases e; done) | (cases e; exact absurd hn (by decide))
  | jmp a =>
    refine absurd h (bind_fold_bad hn (fun c o m e hm => ?_) (fun c e => ?_) _ _)
    · unfold Cli.jmpSub at e
      repeat' split at e
      all_goals first | (cases e; done) | (cases e; exact absurd hm (by decide))
    · unfold Cli.jmpCheck at e
      repeat' split at e
      all_goals first | (cases e; done) | (cases e; exact absurd hn (by decide))
  | map a =>
    refine absurd h (bind_fold_bad hn (fun c o m e hm => ?_) (fun c e => ?_) _ _)
    · unfold Cli.mapSub at e
      repeat' split at e
      all_goals first | (cases e; done) | (cases e; exact absurd hm (by decide))
    · unfold Cli.mapCheck at e
      repeat' split at e
      all_goals first | (cases e; done) | (cases e; exact absurd hn (by decide))
  | mprotect a =>
    refine absurd h (bind_fold_bad hn (fun c o m e hm => ?_) (fun c e => ?_) _ _)
    · unfold Cli.mprotSub at e
      repeat' split at e
      all_goals first | (cases e; done) | (cases e; exact absurd hm (by decide))
    · unfold Cli.mprotCheck at e
      repeat' split at e
      all_goals first | (cases e; done) | (cases e; exact absurd hn (by decide))
  | _ => first | (cases h; done) | (cases h; exact absurd hn (by decide))

/-- A command line of `ultask` is refused with the exit code 0 only if it asks for the help or the like. -/
theorem refused_status {e : Cli.Env} {opts : List Opt} {n : Int} (h : Cli.taskParse e opts = .error n) (hn : n % 256 = 0) : ∃ n, .stop n ∈ opts := by
  unfold Cli.taskParse at h
  rcases bind_bad h with h | ⟨c, h⟩
  · obtain ⟨o, h1, m, rfl⟩ := fold_bad (P := fun o => ∃ m, o = Opt.stop m) (fun c o n e hn => ⟨n, opt_bad _ c o n e hn⟩) _ _ _ h hn
    exact ⟨m, h1⟩
  · exfalso
    unfold Cli.taskCheck at h
    repeat' split at h
    all_goals first | (cases h; done) | (cases h; exact absurd hn (by decide)) | skip
    all_goals
      rcases bind_bad h with h | ⟨d, h⟩
      · try dsimp only at h
        repeat' split at h
        all_goals first | (cases h; done) | (cases h; exact absurd hn (by decide))
      · repeat' split at h
        all_goals first | (cases h; done) | (cases h; exact absurd hn (by decide))

theorem stop_mem {os : List AOpt} (hi : .info ∉ os ∧ ∀ n, .own (.stop n) ∉ os) (n : Int) : Opt.stop n ∉ os.map plain := fun h => by
  obtain ⟨o, h1, h2⟩ := List.mem_map.1 h
  cases o with
  | info => exact hi.1 h1
  | own x => exact hi.2 n (by rw [← show x = Opt.stop n from h2]; exact h1)
  | verbose n => cases h2
  | level n => cases h2

/-- **C143.**  `ultask` on a process that is not there changes nothing and does not report success (the exit code, which is the
status modulo 256, is not 0), whatever else it is asked for, unless it is asked for the help or the like. -/
theorem C143_absent (M : Machine) {s : System} {posix : Bool} {ws : List Word} {os : List AOpt} (hs : Prog.ultask.Loose posix ws os)
    {p : BitVec 32} (hp : pidOf (os.map plain) = some p) (hw : s.procs p = none) (hi : .info ∉ os ∧ ∀ n, .own (.stop n) ∉ os)
    (k : Ultask.Kern (Proc State)) (st : State) (e : Cli.Env) (c : TaskRun.Circ) (ls : List (Nat × Vma.Line)) (info : Nat → Vma.Vma)
    (out : Option (List Byte)) (cut : Option (Nat × Nat)) :
    ∃ n, type M s (.ultask posix ws k st e c ls info out cut) = some (s, .status n) ∧ n % 256 ≠ 0 := by
  unfold type
  dsimp only
  rw [seen_loose hs, Shell.optsOf_map]
  dsimp only
  unfold ultask
  cases hg : Cli.taskParse e (os.map plain) with
  | error n =>
    refine ⟨n, rfl, fun hn => ?_⟩
    obtain ⟨m, h1⟩ := refused_status hg hn
    exact stop_mem hi m h1
  | ok g =>
    obtain rfl : g.pid = p := by
      have := task_pid hg
      rw [hp] at this
      exact (Option.some.inj this).symm
    dsimp only
    rw [hw]
    exact ⟨1, rfl, by decide⟩

/-- **C143.**  The same for `ulpatch`. -/
theorem C143_ulpatch_absent (M : Machine) {s : System} {posix : Bool} {ws : List Word} {os : List AOpt} (hs : Prog.ulpatch.Loose posix ws os)
    {p : BitVec 32} (hp : pidOf (os.map plain) = some p) (hw : s.procs p = none) (hi : .info ∉ os ∧ ∀ n, .own (.stop n) ∉ os) (c : Sys.Circ) :
    ∃ n, type M s (.shell (.ulpatch posix ws c)) = some (s, .status n) ∧ n % 256 ≠ 0 := by
  unfold type
  dsimp only
  unfold Shell.type
  dsimp only
  rw [seen_loose hs, Shell.optsOf_map]
  dsimp only
  unfold Sys.ulpatch
  cases hg : (os.map plain).foldlM Cli.patchOpt {} with
  | error n =>
    refine ⟨n, rfl, fun hn => ?_⟩
    obtain ⟨o, h1, m, rfl⟩ := fold_bad (P := fun o => ∃ m, o = Opt.stop m) (fun c o n e hn => by
      cases o <;> first | (cases e; done) | (cases e; exact absurd hn (by decide)) | exact ⟨_, rfl⟩) _ _ _ hg hn
    exact stop_mem hi m h1
  | ok g =>
    obtain ⟨-, -, q3⟩ := (Cli.patch_fold (os.map plain) {}).1 g hg
    obtain rfl : g.pid = p := by
      unfold pidOf at hp
      cases hl : Cli.lastPid (os.map plain) with
      | none => rw [hl] at hp; cases hp
      | some x =>
        rw [hl] at hp q3
        cases x <;> first | (cases hp; done) | skip
        cases hp
        exact q3
    dsimp only
    rw [hw]
    refine ⟨1, ?_, by decide⟩
    split
    · rfl
    · split <;> rfl

/-- **C143.**  The same for `ulftrace`. -/
theorem C143_ulftrace_absent (M : Machine) {s : System} {posix : Bool} {ws : List Word} {os : List AOpt} (hs : Prog.ulftrace.Loose posix ws os)
    {p : BitVec 32} (hp : pidOf (os.map plain) = some p) (hw : s.procs p = none) (hi : .info ∉ os ∧ ∀ n, .own (.stop n) ∉ os) (c : Sys.Circ) :
    ∃ n, type M s (.shell (.ulftrace posix ws c)) = some (s, .status n) ∧ n % 256 ≠ 0 := by
  unfold type
  dsimp only
  unfold Shell.type
  dsimp only
  rw [seen_loose hs, Shell.optsOf_map]
  dsimp only
  unfold Sys.ulftrace Cli.traceParse
  cases hg : (os.map plain).foldlM Cli.traceOpt {} with
  | error n =>
    refine ⟨n, rfl, fun hn => ?_⟩
    obtain ⟨o, h1, m, rfl⟩ := fold_bad (P := fun o => ∃ m, o = Opt.stop m) (fun c o n e hn => by
      cases o <;> first | (cases e; done) | (cases e; exact absurd hn (by decide)) | exact ⟨_, rfl⟩) _ _ _ hg hn
    exact stop_mem hi m h1
  | ok g =>
    obtain ⟨-, q2, -⟩ := (Sys.trace_fold (os.map plain) {}).1 g hg
    have hpid : g.pid = p := by
      rw [q2, hp]
      rfl
    have he : ∃ n, Cli.traceCheck (Sys.traceEnv s c) s.objPath g = .error n ∧ n % 256 ≠ 0 := by
      refine ⟨1, ?_, by decide⟩
      unfold Cli.traceCheck
      have hx : (Sys.traceEnv s c).pidExists g.pid = false := by
        show (s.procs g.pid).isSome = false
        rw [hpid, hw]
        rfl
      rw [if_pos hx]
      split
      · rfl
      · split <;> rfl
    obtain ⟨n, e1, e2⟩ := he
    have e1 : (Except.ok g : Except Int Cli.TraceCfg).bind (Cli.traceCheck (Sys.traceEnv s c) s.objPath) = .error n := e1
    refine ⟨n, ?_, e2⟩
    rw [e1]

/-- **C143.**  The same for `ulpinfo`, without `-i`, which goes before `-p`. -/
theorem C143_ulpinfo_absent (M : Machine) {s : System} {posix : Bool} {ws : List Word} {os : List AOpt} (hs : Prog.ulpinfo.Loose posix ws os)
    {p : BitVec 32} (hp : pidOf (os.map plain) = some p) (h0 : p ≠ 0) (hw : s.procs p = none) (hi : .info ∉ os ∧ ∀ n, .own (.stop n) ∉ os)
    (hf : ∀ f, .own (.patch f) ∉ os) (c : InfoShell.Circ) :
    ∃ n, type M s (.ulpinfo posix ws c) = some (s, .status n) ∧ n % 256 ≠ 0 := by
  unfold type
  dsimp only
  obtain ⟨n, h, hn⟩ : ∃ n, InfoShell.ulpinfo s posix ws c = (s, some (n, .nothing)) ∧ n % 256 ≠ 0 := by
    unfold InfoShell.ulpinfo
    rw [seen_loose hs, InfoShell.argsOf_map]
    dsimp only
    cases hg : (os.map plain).foldlM Cli.infoOpt {} with
    | error n =>
      refine ⟨n, rfl, fun hn => ?_⟩
      obtain ⟨o, h1, m, rfl⟩ := fold_bad (P := fun o => ∃ m, o = Opt.stop m) (fun c o n e hn => by
        cases o <;> first | (cases e; done) | (cases e; exact absurd hn (by decide)) | exact ⟨_, rfl⟩) _ _ _ hg hn
      exact stop_mem hi m h1
    | ok g =>
      dsimp only
      cases hc : c.starts with
      | false => exact ⟨1, by rw [if_pos rfl], by decide⟩
      | true =>
        rw [if_neg (by decide)]
        have ho : ∀ o ∈ os.map plain, o.ofInfo = true := by
          intro o h1
          cases h2 : o.ofInfo with
          | true => rfl
          | false =>
            obtain ⟨n, h3⟩ := Cli.info_fold_bad (os.map plain) {} ⟨o, h1, h2⟩
            rw [hg] at h3
            cases h3
        have hl : Cli.lastFile (os.map plain) = none := by
          unfold Cli.lastFile
          rw [List.getLast?_eq_none_iff, List.filter_eq_nil_iff]
          intro x hx hb
          obtain ⟨o, h1, rfl⟩ := List.mem_map.1 hx
          cases o with
          | own y =>
            cases y <;> first | (cases hb; done) | exact hf _ h1
          | _ => cases hb
        obtain ⟨P, b1, b2⟩ := InfoShell.pidOf_last hp
        have hr := ((Cli.C100_shows (InfoShell.infoEnv s) (os.map plain)).2 p).2 ⟨ho, hl, P, b1, b2, h0⟩
        unfold Cli.infoRun at hr
        rw [hg] at hr
        have hr : Cli.infoShow (InfoShell.infoEnv s) g = .ok (.task p) := hr
        rw [hr]
        dsimp only
        rw [hw]
        exact ⟨-2, rfl, by decide⟩
  rw [h]
  exact ⟨n, rfl, hn⟩

/-! ### Mistyped command lines -/

/-- The line begins with the name of the tool, and the words are behind it. -/
inductive Of : Prog → Bool → List Word → Line → Prop
  | ulpatch {posix ws} (c) : Of .ulpatch posix ws (.shell (.ulpatch posix ws c))
  | ulftrace {posix ws} (c) : Of .ulftrace posix ws (.shell (.ulftrace posix ws c))
  | ultask {posix ws} (k st e c ls info out cut) : Of .ultask posix ws (.ultask posix ws k st e c ls info out cut)
  | ulpinfo {posix ws} (c) : Of .ulpinfo posix ws (.ulpinfo posix ws c)

theorem fold_stops {σ : Type} {step : σ → Opt → Except Int σ} (hs : ∀ c, step c (.stop 1) = .error 1) : ∀ (l : List Opt) (c : σ),
    .stop 1 ∈ l → ∃ n, l.foldlM step c = .error n
  | o :: l, c, h => by
    rw [List.foldlM_cons]
    cases e : step c o with
    | error n => exact ⟨n, rfl⟩
    | ok d =>
      rcases List.mem_cons.1 h with rfl | h
      · rw [hs] at e
        cases e
      · exact fold_stops hs l d h

/-- **C144.**  Whatever is typed behind the name of a tool: if it does not write options of the help text, no process and no
file is changed, and the exit code is 0 only if the program has seen the option for the help or the like among the
words.  Missing: anything behind the letter `v` counts as written well (`C132_behind_v`). -/
theorem C144_mistyped_partial (M : Machine) (s : System) {P : Prog} {posix : Bool} {ws : List Word} {l : Line} (hl : Of P posix ws l)
    (h : ¬ ∃ os, P.Loose posix ws os) :
    ∃ n, type M s l = some (s, .status n) ∧
      (n % 256 = 0 → .opt .info ∈ P.cases posix ws ∨ ∃ m, m ≠ 1 ∧ .opt (.own (.stop m)) ∈ P.cases posix ws) := by
  have hm : Getopt.Case.opt (.own (.stop 1)) ∈ P.cases posix ws :=
    Classical.not_not.1 fun hn => h ((Getopt.C132_only_partial P posix ws).2 hn)
  obtain ⟨os, e, -⟩ := Getopt.C132_known P posix ws
  have h1 : Opt.stop 1 ∈ os.map plain := by
    rw [e] at hm
    obtain ⟨o, ho, e1⟩ := List.mem_map.1 hm
    cases e1
    exact List.mem_map.2 ⟨_, ho, rfl⟩
  have back : ∀ m : Int, m % 256 = 0 → Opt.stop m ∈ os.map plain →
      .opt .info ∈ P.cases posix ws ∨ ∃ m, m ≠ 1 ∧ .opt (.own (.stop m)) ∈ P.cases posix ws := by
    intro m hm h2
    rw [e]
    obtain ⟨o, ho, e1⟩ := List.mem_map.1 h2
    cases o with
    | info => exact .inl (List.mem_map_of_mem ho)
    | own x =>
      have e1 : x = Opt.stop m := e1
      subst e1
      refine .inr ⟨m, ?_, List.mem_map_of_mem ho⟩
      rintro rfl
      exact absurd hm (by decide)
    | verbose n => cases e1
    | level n => cases e1
  have bad : ∀ {σ : Type} {step : σ → Opt → Except Int σ} {c : σ} {n : Int},
      (∀ c o n, step c o = .error n → n % 256 = 0 → o = .stop n) → (os.map plain).foldlM step c = .error n → n % 256 = 0 →
      .opt .info ∈ P.cases posix ws ∨ ∃ m, m ≠ 1 ∧ .opt (.own (.stop m)) ∈ P.cases posix ws := by
    intro σ step c n hs hf hn
    obtain ⟨o, h2, m, rfl, hm⟩ := fold_bad (P := fun o => ∃ m : Int, o = Opt.stop m ∧ m % 256 = 0)
      (fun c o n e hn => ⟨n, hs c o n e hn, hn⟩) _ _ _ hf hn
    exact back m hm h2
  cases hl with
  | ulpatch c =>
    obtain ⟨n, hn⟩ := fold_stops (step := Cli.patchOpt) (fun _ => rfl) _ {} h1
    refine ⟨n, ?_, bad (fun c o n e hn => ?_) hn⟩
    · unfold type
      dsimp only
      unfold Shell.type
      dsimp only
      rw [e, Shell.optsOf_map]
      dsimp only
      unfold Sys.ulpatch
      rw [hn]
    · cases o <;> first | (cases e; done) | (cases e; exact absurd hn (by decide)) | (cases e; rfl)
  | ulftrace c =>
    obtain ⟨n, hn⟩ := fold_stops (step := Cli.traceOpt) (fun _ => rfl) _ {} h1
    refine ⟨n, ?_, bad (fun c o n e hn => ?_) hn⟩
    · unfold type
      dsimp only
      unfold Shell.type
      dsimp only
      rw [e, Shell.optsOf_map]
      dsimp only
      unfold Sys.ulftrace Cli.traceParse
      rw [hn]
      rfl
    · cases o <;> first | (cases e; done) | (cases e; exact absurd hn (by decide)) | (cases e; rfl)
  | ultask k st env c ls info out cut =>
    obtain ⟨n, hn⟩ := fold_stops (step := Cli.taskOpt env.page) (fun _ => rfl) _ {} h1
    refine ⟨n, ?_, bad (fun c o n e hn => opt_bad _ c o n e hn) hn⟩
    unfold type
    dsimp only
    rw [e, Shell.optsOf_map]
    dsimp only
    unfold ultask Cli.taskParse
    rw [hn]
    rfl
  | ulpinfo c =>
    obtain ⟨n, hn⟩ := fold_stops (step := Cli.infoOpt) (fun _ => rfl) _ {} h1
    refine ⟨n, ?_, bad (fun c o n e hn => ?_) hn⟩
    · unfold type
      dsimp only
      unfold InfoShell.ulpinfo
      rw [e, InfoShell.argsOf_map]
      dsimp only
      rw [hn]
    · cases o <;> first | (cases e; done) | (cases e; exact absurd hn (by decide)) | (cases e; rfl)

/-! ### The hypotheses are met -/

/-- C144_mistyped_partial: `ulpatch --lo` could be one of several options, `ulpatch -o` is none. -/
example (c : Sys.Circ) : ∃ n, type x86 exSys (.shell (.ulpatch false [lit "--lo"] c)) = some (exSys, .status n) ∧ n % 256 ≠ 0 := by
  obtain ⟨n, h1, h2⟩ := C144_mistyped_partial x86 exSys (.ulpatch c) (ws := [lit "--lo"]) (posix := false)
    (fun h => absurd ((Getopt.C132_only_partial _ _ _).1 h) (by decide +kernel))
  refine ⟨n, h1, fun hn => ?_⟩
  have e : Prog.ulpatch.cases false [lit "--lo"] = [.opt (.own (.stop 1))] := by decide +kernel
  rw [e] at h2
  rcases h2 hn with h | ⟨m, h3, h⟩
  · cases List.mem_singleton.1 h
  · cases List.mem_singleton.1 h
    exact h3 rfl

/-- C143_ulpinfo_absent: `ulpinfo -p7 --verb` after the process has ended. -/
example (c : InfoShell.Circ) : ∃ n, type x86 { exSys with procs := fun _ => none } (.ulpinfo false InfoShell.wsI c) =
    some ({ exSys with procs := fun _ => none }, .status n) ∧ n % 256 ≠ 0 :=
  C143_ulpinfo_absent x86 (p := 7) (Shell.loose _ _ _ _ (Getopt.C132_read _ _ _ _ InfoShell.asksI.1) (by decide +kernel)) InfoShell.asksI.2.2.2.1 (by decide) rfl (by simp) (by simp) c

/-- C143_absent: the same line after the process has ended. -/
example (cut : Option (Nat × Nat)) : ∃ n, type x86 { exSys with procs := fun _ => none }
    (.ultask false wsT TaskRun.exKern mxState Cli.exEnv TaskRun.exCirc mxLines (fun _ => ⟨0, 0, [], 0⟩) none cut) =
      some ({ exSys with procs := fun _ => none }, .status n) ∧ n % 256 ≠ 0 :=
  C143_absent x86 (p := 7) (Shell.loose _ _ _ _ (Getopt.C132_read _ _ _ _ spT) (by decide +kernel)) (by decide +kernel) rfl (by unfold osT; simp) _ _ _ _ _ _ _ _

/-- C143_ulpatch_absent, C143_ulftrace_absent: `ulpatch -p7 --patch p.ulp` and `ulftrace -p7 -f main`. -/
example (c : Sys.Circ) : ∃ n, type x86 { exSys with procs := fun _ => none } (.shell (.ulpatch false Shell.ws1 c)) =
    some ({ exSys with procs := fun _ => none }, .status n) ∧ n % 256 ≠ 0 :=
  C143_ulpatch_absent x86 (p := 7) (Shell.loose _ _ _ _ (Getopt.C132_read _ _ _ _ Shell.sp1) (by decide +kernel)) (by decide +kernel) rfl (by simp) c

theorem spF : Prog.ulftrace.Spelled false [lit "-p7", lit "-f", lit "main"] [.own (.pid (lit "7")), .own (.function (lit "main"))] := by
  refine .opts (xs := [lit "-p7"]) (os := [.own (.pid (lit "7"))])
    (.letterArg (f := fun a => .own (.pid a)) (cs := []) (c := 112) (lit "7") .nil (Getopt.mem_doc 0 rfl) rfl rfl (by decide)) ?_
  refine .opts (xs := [lit "-f", lit "main"]) (os := [.own (.function (lit "main"))])
    (.letterSep (f := fun a => .own (.function a)) (cs := []) (os := []) (c := 102) (lit "main") .nil (Getopt.mem_doc 1 rfl) rfl rfl) ?_
  exact .done

example (c : Sys.Circ) : ∃ n, type x86 { exSys with procs := fun _ => none } (.shell (.ulftrace false [lit "-p7", lit "-f", lit "main"] c)) =
    some ({ exSys with procs := fun _ => none }, .status n) ∧ n % 256 ≠ 0 :=
  C143_ulftrace_absent x86 (p := 7) (Shell.loose _ _ _ _ (Getopt.C132_read _ _ _ _ spF) (by decide +kernel)) (by decide +kernel) rfl (by simp) c

end Ulp.Session
