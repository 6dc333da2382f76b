/-
C126, C127: tools called several times in one program, the start of the work, and `--info`.
-/
import Verif.Model.Again
import Verif.Props.Cli
namespace Ulp.Cli
open Ulp.Load (lit)

/-! ### C126: a call does what it would do in a new program -/

/-- What a user sees of a call, without whether messages have a time and a place in front of
them and without the name of the C library that `--info` shows. -/
def Outcome.plain {R : Type} : Outcome R → Outcome R
  | .works w l v _ => .works w l v false
  | .shows _ v => .shows none v
  | o => o

/-- There is a C library at one of the places that are looked at. -/
def HasLibc (e : Env) : Prop := ∃ p ∈ possibleLibc, e.exist p = true

/-- Two results of options or of the loop that go on in the same way. -/
def Both {α : Type} (S : α → α → Prop) (a b : Except Int α) : Prop :=
  (∃ n, a = .error n ∧ b = .error n) ∨ ∃ x y, a = .ok x ∧ b = .ok y ∧ S x y

theorem loop_alike {C R : Type} (t : Tool C R) (S : C → C → Prop)
    (hopt : ∀ a b o, S a b → Both S (t.opt a o) (t.opt b o)) (opts : List AOpt) (a b : Vars C)
    (hs : a.shared.verbose = b.shared.verbose) (hw : a.want = b.want) (ho : S a.own b.own) :
    (∃ x y, (optLoop t a opts).2 = some x ∧ (optLoop t b opts).2 = some y ∧ x.plain = y.plain) ∨
    ((optLoop t a opts).2 = none ∧ (optLoop t b opts).2 = none ∧
      (optLoop t a opts).1.shared.verbose = (optLoop t b opts).1.shared.verbose ∧
      (optLoop t a opts).1.want = (optLoop t b opts).1.want ∧
      S (optLoop t a opts).1.own (optLoop t b opts).1.own) := by
  induction opts generalizing a b with
  | nil => exact .inr ⟨rfl, rfl, hs, hw, ho⟩
  | cons o os ih =>
    cases o with
    | verbose n => exact ih _ _ rfl hw ho
    | level l => exact ih _ _ hs rfl ho
    | info =>
      refine .inl ⟨_, _, rfl, rfl, ?_⟩
      simp only [Outcome.plain, hs]
    | own o =>
      unfold optLoop
      rcases hopt a.own b.own o ho with ⟨n, h1, h2⟩ | ⟨x, y, h1, h2, h3⟩
      · rw [h1, h2]
        exact .inl ⟨_, _, rfl, rfl, rfl⟩
      · rw [h1, h2]
        exact ih _ _ hs hw h3

theorem libc_found {e : Env} (h : HasLibc e) (s : Shared) :
    ∃ p, possibleLibc.find? e.exist = some p ∧ elfCoreInit e.exist s = { s with libc := some p } := by
  obtain ⟨p, hp, he⟩ := h
  cases hf : possibleLibc.find? e.exist with
  | none => exact absurd he (by simpa using List.find?_eq_none.1 hf p hp)
  | some q => exact ⟨q, rfl, by unfold elfCoreInit; rw [hf]⟩

/-- The end of a call once the loop and the checks are passed. -/
theorem call_ok {C R : Type} (t : Tool C R) (e : Env) (hl : HasLibc e) (env : Bool) (opts : List AOpt) (v : Vars C)
    (hn : (optLoop t (resetVars t v) opts).2 = none) :
    (call t e.exist env opts v).2 =
      match t.check (optLoop t (resetVars t v) opts).1.own with
      | .error n => .returns n
      | .ok r =>
        if env = false then .exits
        else .works r (optLoop t (resetVars t v) opts).1.want (optLoop t (resetVars t v) opts).1.shared.verbose
          (optLoop t (resetVars t v) opts).1.shared.prefixOn := by
  unfold call
  dsimp only
  rw [hn]
  dsimp only
  cases t.check (optLoop t (resetVars t v) opts).1.own with
  | error n => rfl
  | ok r =>
    dsimp only
    by_cases he : env = false
    · rw [if_pos he, if_pos he]
    · rw [if_neg he, if_neg he]
      obtain ⟨p, hp, h⟩ := libc_found hl
        { (optLoop t (resetVars t v) opts).1.shared with level := (optLoop t (resetVars t v) opts).1.want }
      rw [h]
      rw [if_neg (by exact nofun)]

/-- Two calls whose variables cannot be told apart by the tool end in the same way. -/
theorem call_alike {C R : Type} (t : Tool C R) (S : C → C → Prop)
    (hopt : ∀ a b o, S a b → Both S (t.opt a o) (t.opt b o)) (e : Env) (hl : HasLibc e)
    (env : Bool) (opts : List AOpt) (a b : Vars C) (hr : S (t.reset a.own) (t.reset b.own))
    (hcheck : ∀ x y, (optLoop t (resetVars t a) opts).2 = none → (optLoop t (resetVars t b) opts).2 = none →
      (optLoop t (resetVars t a) opts).1.own = x → (optLoop t (resetVars t b) opts).1.own = y →
      S x y → t.check x = t.check y) :
    (call t e.exist env opts a).2.plain = (call t e.exist env opts b).2.plain := by
  rcases loop_alike t S hopt opts (resetVars t a) (resetVars t b) rfl rfl hr with
    ⟨x, y, h1, h2, h3⟩ | ⟨h1, h2, h3, h4, h5⟩
  · unfold call
    dsimp only
    rw [h1, h2]
    exact h3
  · rw [call_ok t e hl env opts a h1, call_ok t e hl env opts b h2,
      hcheck _ _ h1 h2 rfl rfl h5, h3, h4]
    cases t.check (optLoop t (resetVars t b) opts).1.own with
    | error n => rfl
    | ok r => cases env <;> rfl

/-! #### ultask -/

theorem map_ok {α β : Type} {f : α → β} {x : Except Int α} {y : β} (h : x.map f = .ok y) : ∃ a, x = .ok a ∧ f a = y := by
  cases x with
  | error n => cases h
  | ok a => cases h; exact ⟨a, rfl, rfl⟩

theorem both_map {α : Type} {f : α → α} {a b : Except Int α} (h : a.map f = b.map f) :
    Both (fun x y => f x = f y) a b := by
  cases a with
  | error n =>
    cases b with
    | error m => cases h; exact .inl ⟨_, rfl, rfl⟩
    | ok y => cases h
  | ok x =>
    cases b with
    | error m => cases h
    | ok y => exact .inr ⟨x, y, rfl, rfl, by injection h⟩

theorem task_acts (c : Cfg) : (c.pid, opensForWriting c, acts c) =
    ((setDry c).pid, opensForWriting (setDry c), acts (setDry c)) := rfl

theorem task_check (e : Env) (a b : Cfg) (h : setDry a = setDry b) : (taskTool e).check a = (taskTool e).check b := by
  have hb := both_map (f := setDry) (a := taskCheck e a) (b := taskCheck e b)
    (by rw [← check_dry, ← check_dry, h])
  show (taskCheck e a).map _ = (taskCheck e b).map _
  rcases hb with ⟨n, h1, h2⟩ | ⟨x, y, h1, h2, h3⟩
  · rw [h1, h2]
  · rw [h1, h2]
    show Except.ok (x.pid, opensForWriting x, acts x) = Except.ok (y.pid, opensForWriting y, acts y)
    rw [task_acts x, task_acts y, h3]

/-- Whatever the variables of ultask are, a call ends as in a new program. -/
theorem task_any (e : Env) (hl : HasLibc e) (env : Bool) (opts : List AOpt) (v w : Vars Cfg) :
    (call (taskTool e) e.exist env opts v).2.plain = (call (taskTool e) e.exist env opts w).2.plain :=
  call_alike (taskTool e) (fun a b => setDry a = setDry b)
    (fun a b o h => both_map (by
      show (taskOpt e.page a o).map setDry = (taskOpt e.page b o).map setDry
      rw [← opt_dry, ← opt_dry, h]))
    e hl env opts v w rfl
    (fun x y _ _ _ _ h => task_check e x y h)

/-- **C126, ultask.**  Whatever tools were called before in the program, with whatever command
lines and ends, ultask does with the process what it would do as the first: it returns the
same number, or does the same things in the same order, with the same level of messages and
the same verbosity.  Missing: whether messages have a prefix (`C126_prefix`), the C library
shown by `--info` (`C127_info`). -/
theorem C126_task_partial (h : List Call) (e : Env) (hl : HasLibc e) (env : Bool) (opts : List AOpt) :
    (World.callTask e env opts (World.run {} h)).2.plain = (World.callTask e env opts {}).2.plain :=
  task_any e hl env opts _ _

/-! #### ulftrace and ulpinfo -/

theorem trace_any (e : Env) (dflt : List Byte) (hl : HasLibc e) (env : Bool) (opts : List AOpt) (v w : Vars TraceCfg) :
    (call (traceTool e dflt) e.exist env opts v).2.plain = (call (traceTool e dflt) e.exist env opts w).2.plain := by
  refine call_alike (traceTool e dflt) (fun a b => a.pid = b.pid ∧ a.func = b.func ∧ a.obj = b.obj)
    ?_ e hl env opts v w ⟨rfl, rfl, rfl⟩ ?_
  · intro a b o h
    cases o with
    | pid a => exact .inr ⟨_, _, rfl, rfl, rfl, h.2⟩
    | function a => exact .inr ⟨_, _, rfl, rfl, h.1, rfl, h.2.2⟩
    | patchObj a => exact .inr ⟨_, _, rfl, rfl, h.1, h.2.1, rfl⟩
    | dryRun => exact .inr ⟨_, _, rfl, rfl, h⟩
    | force => exact .inr ⟨_, _, rfl, rfl, h⟩
    | other => exact .inr ⟨_, _, rfl, rfl, h⟩
    | _ => exact .inl ⟨_, rfl, rfl⟩
  · intro x y _ _ _ _ h
    obtain ⟨h1, h2, h3⟩ := h
    show (traceCheck e dflt x).map _ = (traceCheck e dflt y).map _
    unfold traceCheck
    dsimp only
    rw [h1, h2, h3]
    by_cases c1 : y.pid = -1
    · rw [if_pos c1, if_pos c1]
    rw [if_neg c1, if_neg c1]
    by_cases c2 : y.func = none
    · rw [if_pos c2, if_pos c2]
    rw [if_neg c2, if_neg c2]
    by_cases c3 : e.pidExists y.pid = false
    · rw [if_pos c3, if_pos c3]
    rw [if_neg c3, if_neg c3]
    by_cases c4 : e.exist (traceObj dflt y.obj) = false
    · rw [if_pos c4, if_pos c4]
    rw [if_neg c4, if_neg c4]
    by_cases c5 : e.relocatable (traceObj dflt y.obj) = false
    · rw [if_pos c5, if_pos c5]
    rw [if_neg c5, if_neg c5]
    rfl

/-- **C126, ulftrace.**  The same for ulftrace. -/
theorem C126_trace_partial (h : List Call) (e : Env) (dflt : List Byte) (hl : HasLibc e) (env : Bool) (opts : List AOpt) :
    (World.callTrace e dflt env opts (World.run {} h)).2.plain = (World.callTrace e dflt env opts {}).2.plain :=
  trace_any e dflt hl env opts _ _

theorem info_any (e : Env) (hl : HasLibc e) (env : Bool) (opts : List AOpt) (v w : Vars InfoCfg) :
    (call (infoTool e) e.exist env opts v).2.plain = (call (infoTool e) e.exist env opts w).2.plain := by
  refine call_alike (infoTool e) Eq ?_ e hl env opts v w rfl (fun x y _ _ _ _ h => by rw [h])
  rintro a _ o rfl
  cases (infoTool e).opt a o with
  | error n => exact .inl ⟨n, rfl, rfl⟩
  | ok x => exact .inr ⟨x, x, rfl, rfl, rfl⟩

/-- **C126, ulpinfo.**  The same for ulpinfo. -/
theorem C126_info_partial (h : List Call) (e : Env) (hl : HasLibc e) (env : Bool) (opts : List AOpt) :
    (World.callInfo e env opts (World.run {} h)).2.plain = (World.callInfo e env opts {}).2.plain :=
  info_any e hl env opts _ _

/-! #### ulpatch -/

/-- The command that is set by an option. -/
def AOpt.cmd : AOpt → Option PatchCmd
  | .own (.patch _) => some .patch
  | .own .unpatch => some .unpatch
  | _ => none

/-- If the loop comes to its end, the command is that of the last option that sets one, or the
one from before. -/
theorem loop_cmd (e : Env) (opts : List AOpt) (v : Vars PatchCfg) (h : (optLoop (patchTool e) v opts).2 = none) :
    (optLoop (patchTool e) v opts).1.own.cmd = opts.foldl (fun c o => match o.cmd with | none => c | some d => d) v.own.cmd := by
  induction opts generalizing v with
  | nil => rfl
  | cons o os ih =>
    cases o with
    | verbose n => exact ih _ h
    | level l => exact ih _ h
    | info => cases h
    | own o =>
      unfold optLoop at h ⊢
      cases o <;> first | exact ih _ h | cases h

/-- An option with a command makes the command before it irrelevant. -/
theorem fold_cmd (opts : List AOpt) (c d : PatchCmd) (h : ∃ o ∈ opts, o.cmd ≠ none) :
    opts.foldl (fun c o => match o.cmd with | none => c | some d => d) c
      = opts.foldl (fun c o => match o.cmd with | none => c | some d => d) d := by
  induction opts generalizing c d with
  | nil => obtain ⟨o, ho, -⟩ := h; cases ho
  | cons o os ih =>
    rw [List.foldl_cons, List.foldl_cons]
    cases hc : o.cmd with
    | some x => rfl
    | none =>
      refine ih _ _ ?_
      obtain ⟨p, hp, hne⟩ := h
      rcases List.mem_cons.1 hp with rfl | hp
      · exact absurd hc hne
      · exact ⟨p, hp, hne⟩

theorem fold_none (opts : List AOpt) (c : PatchCmd) (h : ∀ o ∈ opts, o.cmd = none) :
    opts.foldl (fun c o => match o.cmd with | none => c | some d => d) c = c := by
  induction opts generalizing c with
  | nil => rfl
  | cons o os ih =>
    rw [List.foldl_cons, h o (List.mem_cons_self ..)]
    exact ih _ fun p hp => h p (List.mem_cons_of_mem _ hp)

/-- Without an option that sets a command, no file is set. -/
theorem loop_file (e : Env) (opts : List AOpt) (v : Vars PatchCfg) (h : ∀ o ∈ opts, o.cmd = none)
    (hf : v.own.file = none) : (optLoop (patchTool e) v opts).1.own.file = none := by
  induction opts generalizing v with
  | nil => exact hf
  | cons o os ih =>
    have hos : ∀ o ∈ os, o.cmd = none := fun p hp => h p (List.mem_cons_of_mem _ hp)
    cases o with
    | verbose n => exact ih _ hos hf
    | level l => exact ih _ hos hf
    | info => exact hf
    | own o =>
      have ho := h _ (List.mem_cons_self ..)
      unfold optLoop
      cases o <;> first | exact ih _ hos hf | exact hf | cases ho

def SamePatch (a b : PatchCfg) : Prop := a.pid = b.pid ∧ a.file = b.file

theorem patch_opt (a b : PatchCfg) (o : Opt) (h : SamePatch a b) : Both SamePatch (patchOpt a o) (patchOpt b o) := by
  cases o with
  | pid a => exact .inr ⟨_, _, rfl, rfl, rfl, h.2⟩
  | patch a => exact .inr ⟨_, _, rfl, rfl, h.1, rfl⟩
  | unpatch => exact .inr ⟨_, _, rfl, rfl, h⟩
  | dryRun => exact .inr ⟨_, _, rfl, rfl, h⟩
  | force => exact .inr ⟨_, _, rfl, rfl, h⟩
  | other => exact .inr ⟨_, _, rfl, rfl, h⟩
  | _ => exact .inl ⟨_, rfl, rfl⟩

theorem patch_same (e : Env) (x y : PatchCfg) (h : SamePatch x y) (hc : x.cmd = y.cmd) :
    (patchTool e).check x = (patchTool e).check y := by
  show (patchCheck e x).map _ = (patchCheck e y).map _
  unfold patchCheck
  rw [hc, h.1, h.2]
  have hact : (x.pid, patchAct x) = (y.pid, patchAct y) := by unfold patchAct; rw [hc, h.1, h.2]
  by_cases c1 : y.cmd = .none
  · rw [if_pos c1, if_pos c1]
  rw [if_neg c1, if_neg c1]
  by_cases c2 : y.pid = -1
  · rw [if_pos c2, if_pos c2]
  rw [if_neg c2, if_neg c2]
  by_cases c3 : e.pidExists y.pid = false
  · rw [if_pos c3, if_pos c3]
  rw [if_neg c3, if_neg c3]
  by_cases c4 : y.cmd = .patch
  · rw [if_pos c4, if_pos c4]
    cases y.file with
    | none => rfl
    | some f =>
      dsimp only
      by_cases c5 : e.exist f = true ∧ e.patchOk f = true
      · rw [if_pos c5, if_pos c5]
        exact congrArg Except.ok hact
      · rw [if_neg c5, if_neg c5]
  · rw [if_neg c4, if_neg c4]
    exact congrArg Except.ok hact

/-- Without a command to run, or with one to apply no file, ulpatch returns 1. -/
theorem patch_idle (e : Env) (x : PatchCfg) (hf : x.file = none) (hc : x.cmd ≠ .unpatch) :
    (patchTool e).check x = .error 1 := by
  show (patchCheck e x).map _ = _
  unfold patchCheck
  rw [hf]
  by_cases c1 : x.cmd = .none
  · rw [if_pos c1]; rfl
  rw [if_neg c1]
  by_cases c2 : x.pid = -1
  · rw [if_pos c2]; rfl
  rw [if_neg c2]
  by_cases c3 : e.pidExists x.pid = false
  · rw [if_pos c3]; rfl
  rw [if_neg c3]
  cases hx : x.cmd with
  | none => exact absurd hx c1
  | unpatch => exact absurd hx hc
  | patch => rfl

theorem patch_any (e : Env) (hl : HasLibc e) (env : Bool) (opts : List AOpt) (v w : Vars PatchCfg)
    (h : (∃ o ∈ opts, o.cmd ≠ none) ∨ (v.own.cmd ≠ .unpatch ∧ w.own.cmd ≠ .unpatch)) :
    (call (patchTool e) e.exist env opts v).2.plain = (call (patchTool e) e.exist env opts w).2.plain := by
  refine call_alike (patchTool e) SamePatch patch_opt e hl env opts v w ⟨rfl, rfl⟩ ?_
  rintro _ _ h1 h2 rfl rfl hs
  by_cases hex : ∃ o ∈ opts, o.cmd ≠ none
  · refine patch_same e _ _ hs ?_
    rw [loop_cmd e opts _ h1, loop_cmd e opts _ h2]
    exact fold_cmd opts _ _ hex
  · have hno : ∀ o ∈ opts, o.cmd = none := fun o ho => Classical.byContradiction fun hn => hex ⟨o, ho, hn⟩
    obtain ⟨hv, hw⟩ := h.resolve_left hex
    rw [patch_idle e _ (loop_file e opts _ hno rfl) (by rw [loop_cmd e opts _ h1, fold_none opts _ hno]; exact hv),
      patch_idle e _ (loop_file e opts _ hno rfl) (by rw [loop_cmd e opts _ h2, fold_none opts _ hno]; exact hw)]

/-- A command line of ulpatch with `--unpatch` on it. -/
def Call.unpatches : Call → Prop
  | .patch _ _ opts => .own .unpatch ∈ opts
  | _ => False

theorem loop_unpatch (e : Env) (opts : List AOpt) (v : Vars PatchCfg) (h : .own .unpatch ∉ opts)
    (hv : v.own.cmd ≠ .unpatch) : (optLoop (patchTool e) v opts).1.own.cmd ≠ .unpatch := by
  induction opts generalizing v with
  | nil => exact hv
  | cons o os ih =>
    have hos : AOpt.own .unpatch ∉ os := fun hm => h (List.mem_cons_of_mem _ hm)
    cases o with
    | verbose n => exact ih _ hos hv
    | level l => exact ih _ hos hv
    | info => exact hv
    | own o =>
      unfold optLoop
      cases o <;> first
        | exact ih _ hos hv
        | exact hv
        | exact ih _ hos (fun h => PatchCmd.noConfusion h)
        | exact absurd (List.mem_cons_self ..) h

theorem call_own {C R : Type} (t : Tool C R) (exist : List Byte → Bool) (env : Bool) (opts : List AOpt) (v : Vars C) :
    (call t exist env opts v).1.own = (optLoop t (resetVars t v) opts).1.own := by
  unfold call
  dsimp only
  cases (optLoop t (resetVars t v) opts).2 with
  | some o => rfl
  | none =>
    dsimp only
    cases t.check (optLoop t (resetVars t v) opts).1.own with
    | error n => rfl
    | ok r =>
      dsimp only
      by_cases he : env = false
      · rw [if_pos he]
      · rw [if_neg he]
        by_cases hn : (elfCoreInit exist { (optLoop t (resetVars t v) opts).1.shared with level := (optLoop t (resetVars t v) opts).1.want }).libc = none
        · rw [if_pos hn]
        · rw [if_neg hn]

theorem run_unpatch (h : List Call) (w : World) (hn : ∀ c ∈ h, ¬ c.unpatches) (hw : w.patch.2.cmd ≠ .unpatch) :
    (World.run w h).patch.2.cmd ≠ .unpatch := by
  induction h generalizing w with
  | nil => exact hw
  | cons c cs ih =>
    refine ih _ (fun d hd => hn d (List.mem_cons_of_mem _ hd)) ?_
    cases c with
    | task e env opts => exact hw
    | trace e d env opts => exact hw
    | info e env opts => exact hw
    | patch e env opts =>
      show (World.callPatch e env opts w).1.own.cmd ≠ .unpatch
      unfold World.callPatch
      rw [call_own]
      exact loop_unpatch e opts _ (hn _ (List.mem_cons_self ..)) hw

/-- **C126, ulpatch.**  Whatever tools were called before in the program, ulpatch does what it
would do as the first, if its command line has `--patch` or `--unpatch`, or if no command line
of ulpatch before it had `--unpatch`.  Missing: a call without a command after one with
`--unpatch` (`C126_patch_violated`). -/
theorem C126_patch_partial (h : List Call) (e : Env) (hl : HasLibc e) (env : Bool) (opts : List AOpt)
    (hc : (∃ f, .own (.patch f) ∈ opts) ∨ .own .unpatch ∈ opts ∨ ∀ c ∈ h, ¬ c.unpatches) :
    (World.callPatch e env opts (World.run {} h)).2.plain = (World.callPatch e env opts {}).2.plain := by
  refine patch_any e hl env opts _ _ ?_
  rcases hc with ⟨f, hf⟩ | hu | hn
  · exact .inl ⟨_, hf, by exact nofun⟩
  · exact .inl ⟨_, hu, by exact nofun⟩
  · exact .inr ⟨run_unpatch h {} hn (by exact nofun), by exact nofun⟩

/-- **Finding.**  After a call of ulpatch that took a patch out, a call with nothing but the
number of a process takes a patch out of that process.  In a new program such a call is
refused. -/
theorem C126_patch_again (e : Env) (hl : HasLibc e) (w : World) (hw : w.patch.2.cmd = .unpatch) (p : List Byte)
    (h1 : atoi p ≠ -1) (h2 : e.pidExists (atoi p) = true) :
    (World.callPatch e true [.own (.pid p)] w).2.plain = .works (atoi p, some .unpatch) 3 0 false ∧
    (World.callPatch e true [.own (.pid p)] {}).2 = .returns 1 := by
  constructor
  · unfold World.callPatch
    rw [call_ok (patchTool e) e hl true _ _ rfl]
    have hck : (patchTool e).check (optLoop (patchTool e) (resetVars (patchTool e) ⟨w.shared, w.patch.1, w.patch.2⟩)
        [.own (.pid p)]).1.own = .ok (atoi p, some .unpatch) := by
      show (patchCheck e { (patchReset w.patch.2) with pid := atoi p }).map _ = _
      unfold patchCheck patchReset
      dsimp only
      rw [hw, if_neg (by exact nofun), if_neg h1, if_neg (by rw [h2]; exact nofun), if_neg (by exact nofun)]
      show Except.ok (atoi p, patchAct _) = _
      rfl
    rw [hck]
    rfl
  · rfl

/-- The system in the examples: the C library and the process 42 are there. -/
def againEnv : Env where
  page := 4096
  pidExists := fun p => p == 42
  exist := fun f => f == lit "/lib64/libc.so.6"
  regular := fun _ => true
  size := fun _ => 1
  cwd := []
  relocatable := fun _ => true
  patchOk := fun _ => true

theorem againEnv_libc : HasLibc againEnv := ⟨lit "/lib64/libc.so.6", by decide, by decide⟩

/-- **Finding.**  C126 is violated: `ulpatch -p 42 --unpatch` and then `ulpatch -p 42`. -/
theorem C126_patch_violated :
    (World.callPatch againEnv true [.own (.pid (lit "42"))]
      (World.run {} [.patch againEnv true [.own (.pid (lit "42")), .own .unpatch]])).2.plain
        ≠ (World.callPatch againEnv true [.own (.pid (lit "42"))] {}).2.plain := by
  decide +kernel

/-! #### Messages -/

def AOpt.isVerbose : AOpt → Bool
  | .verbose _ => true
  | _ => false

theorem loop_prefix {C R : Type} (t : Tool C R) (opts : List AOpt) (v : Vars C) (h : (optLoop t v opts).2 = none) :
    (optLoop t v opts).1.shared.prefixOn = (v.shared.prefixOn || opts.any AOpt.isVerbose) := by
  induction opts generalizing v with
  | nil => simp [optLoop]
  | cons o os ih =>
    cases o with
    | verbose n =>
      have := ih { v with shared := { v.shared with verbose := n + 1, prefixOn := true } } h
      simpa [optLoop, AOpt.isVerbose] using this
    | level l => simpa [optLoop, AOpt.isVerbose] using ih { v with want := l } h
    | info => cases h
    | own o =>
      unfold optLoop at h ⊢
      cases hx : t.opt v.own o with
      | error n => rw [hx] at h; cases h
      | ok c =>
        rw [hx] at h
        simpa [AOpt.isVerbose] using ih { v with own := c } h

/-- The loop ends a call only by returning a number or by showing what `--info` shows. -/
theorem loop_ends {C R : Type} (t : Tool C R) (opts : List AOpt) (v : Vars C) (o : Outcome R) (h : (optLoop t v opts).2 = some o) :
    (∃ n, o = .returns n) ∨ (.info ∈ opts ∧ ∃ l n, o = .shows l n) := by
  induction opts generalizing v with
  | nil => cases h
  | cons x os ih =>
    have up : ((∃ n, o = .returns n) ∨ (.info ∈ os ∧ ∃ l n, o = .shows l n)) →
        (∃ n, o = .returns n) ∨ (.info ∈ x :: os ∧ ∃ l n, o = .shows l n) :=
      fun hx => hx.imp_right fun ⟨h1, h2⟩ => ⟨List.mem_cons_of_mem _ h1, h2⟩
    cases x with
    | verbose n => exact up (ih _ h)
    | level l => exact up (ih _ h)
    | info => cases h; exact .inr ⟨List.mem_cons_self .., _, _, rfl⟩
    | own x =>
      unfold optLoop at h
      cases hx : t.opt v.own x with
      | error n => rw [hx] at h; cases h; exact .inl ⟨n, rfl⟩
      | ok c => rw [hx] at h; exact up (ih _ h)

/-- Where the outcome of a call comes from. -/
theorem call_cases {C R : Type} (t : Tool C R) (exist : List Byte → Bool) (env : Bool) (opts : List AOpt) (v : Vars C) :
    (∃ n, (call t exist env opts v).2 = .returns n) ∨ (call t exist env opts v).2 = .exits ∨
    (.info ∈ opts ∧ ∃ l n, (call t exist env opts v).2 = .shows l n) ∨
    ((optLoop t (resetVars t v) opts).2 = none ∧ ∃ r l n, (call t exist env opts v).2
      = .works r l n (optLoop t (resetVars t v) opts).1.shared.prefixOn) := by
  unfold call
  dsimp only
  cases hl : (optLoop t (resetVars t v) opts).2 with
  | some o =>
    rcases loop_ends t opts _ o hl with ⟨n, h⟩ | ⟨h1, l, n, h⟩
    · exact .inl ⟨n, h⟩
    · exact .inr (.inr (.inl ⟨h1, l, n, h⟩))
  | none =>
    dsimp only
    cases t.check (optLoop t (resetVars t v) opts).1.own with
    | error n => exact .inl ⟨n, rfl⟩
    | ok r =>
      dsimp only
      by_cases he : env = false
      · rw [if_pos he]
        exact .inr (.inl rfl)
      · rw [if_neg he]
        by_cases hn : (elfCoreInit exist { (optLoop t (resetVars t v) opts).1.shared with level := (optLoop t (resetVars t v) opts).1.want }).libc = none
        · rw [if_pos hn]
          exact .inr (.inl rfl)
        · rw [if_neg hn]
          refine .inr (.inr (.inr ⟨rfl, r, (optLoop t (resetVars t v) opts).1.want,
            (optLoop t (resetVars t v) opts).1.shared.verbose, ?_⟩))
          dsimp only
          unfold elfCoreInit
          cases possibleLibc.find? exist <;> rfl

/-- **C126.**  Messages have a time and a place in front of them exactly if there is a `-v` on
the command line of this call, or the variable was set by one before. -/
theorem C126_prefix {C R : Type} (t : Tool C R) (exist : List Byte → Bool) (env : Bool) (opts : List AOpt) (v : Vars C)
    (r : R) (l : Int) (n : BitVec 32) (p : Bool) (h : (call t exist env opts v).2 = .works r l n p) :
    p = (v.shared.prefixOn || opts.any AOpt.isVerbose) := by
  rcases call_cases t exist env opts v with ⟨m, hc⟩ | hc | ⟨-, l', m, hc⟩ | ⟨hn, r', l', m, hc⟩
  · rw [hc] at h; cases h
  · rw [hc] at h; cases h
  · rw [hc] at h; cases h
  · rw [hc] at h
    injection h with _ _ _ h
    rw [← h, loop_prefix t opts _ hn]
    rfl

theorem loop_quiet {C R : Type} (t : Tool C R) (opts : List AOpt) (v : Vars C) (hq : ∀ o ∈ opts, o.isVerbose = false) :
    (optLoop t v opts).1.shared.prefixOn = v.shared.prefixOn := by
  induction opts generalizing v with
  | nil => rfl
  | cons o os ih =>
    have hos : ∀ o ∈ os, o.isVerbose = false := fun p hp => hq p (List.mem_cons_of_mem _ hp)
    cases o with
    | verbose n => cases hq _ (List.mem_cons_self ..)
    | level l => exact ih _ hos
    | info => rfl
    | own o =>
      unfold optLoop
      cases t.opt v.own o with
      | error n => rfl
      | ok c => exact ih { v with own := c } hos

theorem call_quiet {C R : Type} (t : Tool C R) (exist : List Byte → Bool) (env : Bool) (opts : List AOpt) (v : Vars C)
    (hq : ∀ o ∈ opts, o.isVerbose = false) : (call t exist env opts v).1.shared.prefixOn = v.shared.prefixOn := by
  have hl := loop_quiet t opts (resetVars t v) hq
  unfold call
  dsimp only
  cases (optLoop t (resetVars t v) opts).2 with
  | some o => exact hl
  | none =>
    dsimp only
    cases t.check (optLoop t (resetVars t v) opts).1.own with
    | error n => exact hl
    | ok r =>
      dsimp only
      by_cases he : env = false
      · rw [if_pos he]; exact hl
      · rw [if_neg he]
        have hs : (elfCoreInit exist { (optLoop t (resetVars t v) opts).1.shared with level := (optLoop t (resetVars t v) opts).1.want }).prefixOn
            = v.shared.prefixOn := by
          refine Eq.trans ?_ hl
          unfold elfCoreInit
          cases possibleLibc.find? exist <;> rfl
        by_cases hn : (elfCoreInit exist { (optLoop t (resetVars t v) opts).1.shared with level := (optLoop t (resetVars t v) opts).1.want }).libc = none
        · rw [if_pos hn]; exact hs
        · rw [if_neg hn]; exact hs

/-- The options of a call. -/
def Call.opts : Call → List AOpt
  | .task _ _ o => o
  | .patch _ _ o => o
  | .trace _ _ _ o => o
  | .info _ _ o => o

theorem run_quiet (h : List Call) (w : World) (hq : ∀ c ∈ h, ∀ o ∈ c.opts, o.isVerbose = false) :
    (World.run w h).shared.prefixOn = w.shared.prefixOn := by
  induction h generalizing w with
  | nil => rfl
  | cons c cs ih =>
    refine (ih _ fun d hd => hq d (List.mem_cons_of_mem _ hd)).trans ?_
    have hc := hq _ (List.mem_cons_self ..)
    cases c with
    | task e env opts => exact call_quiet _ _ _ _ _ hc
    | patch e env opts => exact call_quiet _ _ _ _ _ hc
    | trace e d env opts => exact call_quiet _ _ _ _ _ hc
    | info e env opts => exact call_quiet _ _ _ _ _ hc

/-- Without `--info`, outcomes that differ at most in the prefix are equal if the prefix was
the same before. -/
theorem exact_of_plain {C R : Type} (t : Tool C R) (exist : List Byte → Bool) (env : Bool) (opts : List AOpt) (v w : Vars C)
    (hp : v.shared.prefixOn = w.shared.prefixOn) (hi : .info ∉ opts)
    (h : (call t exist env opts v).2.plain = (call t exist env opts w).2.plain) :
    (call t exist env opts v).2 = (call t exist env opts w).2 := by
  cases hv : (call t exist env opts v).2 with
  | shows l n =>
    rcases call_cases t exist env opts v with ⟨m, hc⟩ | hc | ⟨hc, -⟩ | ⟨-, r', l', m, hc⟩
    · rw [hv] at hc; cases hc
    · rw [hv] at hc; cases hc
    · exact absurd hc hi
    · rw [hv] at hc; cases hc
  | returns n =>
    rw [hv] at h
    cases hw : (call t exist env opts w).2 <;> rw [hw] at h <;> cases h
    rfl
  | exits =>
    rw [hv] at h
    cases hw : (call t exist env opts w).2 <;> rw [hw] at h <;> cases h
  | works r l n p =>
    rw [hv] at h
    cases hw : (call t exist env opts w).2 with
    | works r' l' n' p' =>
      rw [hw] at h
      cases h
      rw [C126_prefix t exist env opts v r l n p hv, C126_prefix t exist env opts w r l n p' hw, hp]
    | _ => rw [hw] at h; cases h

/-- **C126.**  If no command line before had a `-v`, and this one has no `--info`, every call of
ultask, ulftrace and ulpinfo ends exactly as in a new program, and so does one of ulpatch that
has a command on its command line. -/
theorem C126_same_partial (h : List Call) (hq : ∀ c ∈ h, ∀ o ∈ c.opts, o.isVerbose = false) (e : Env) (hl : HasLibc e)
    (env : Bool) (opts : List AOpt) (hi : .info ∉ opts) :
    (World.callTask e env opts (World.run {} h)).2 = (World.callTask e env opts {}).2 ∧
    (∀ dflt, (World.callTrace e dflt env opts (World.run {} h)).2 = (World.callTrace e dflt env opts {}).2) ∧
    (World.callInfo e env opts (World.run {} h)).2 = (World.callInfo e env opts {}).2 ∧
    ((∃ f, .own (.patch f) ∈ opts) ∨ .own .unpatch ∈ opts →
      (World.callPatch e env opts (World.run {} h)).2 = (World.callPatch e env opts {}).2) := by
  have hp := run_quiet h {} hq
  refine ⟨exact_of_plain _ _ _ _ _ _ hp hi (C126_task_partial h e hl env opts),
    fun dflt => exact_of_plain _ _ _ _ _ _ hp hi (C126_trace_partial h e dflt hl env opts),
    exact_of_plain _ _ _ _ _ _ hp hi (C126_info_partial h e hl env opts), fun hc => ?_⟩
  refine exact_of_plain _ _ _ _ _ _ hp hi (C126_patch_partial h e hl env opts ?_)
  rcases hc with hc | hc
  · exact .inl hc
  · exact .inr (.inl hc)

/-- **Finding.**  After a call with `-v`, the messages of a later call without it still have the
time and the place in front of them. -/
theorem C126_prefix_violated :
    (World.callTask againEnv true [.own (.pid (lit "42")), .own .vmas]
      (World.run {} [.task againEnv true [.own (.pid (lit "42")), .verbose 0]])).2
        = .works (42, false, [.vmas]) 3 0 true ∧
    (World.callTask againEnv true [.own (.pid (lit "42")), .own .vmas] {}).2
        = .works (42, false, [.vmas]) 3 0 false := by
  decide +kernel

/-- A call in a new program is what the other theorems on command lines are about. -/
theorem fresh_own {C R : Type} (t : Tool C R) (opts : List Opt) (v : Vars C) :
    optLoop t v (opts.map .own) =
      match opts.foldlM t.opt v.own with
      | .ok c => ({ v with own := c }, none)
      | .error n => ((optLoop t v (opts.map .own)).1, some (.returns n)) := by
  induction opts generalizing v with
  | nil => rfl
  | cons o os ih =>
    rw [List.map_cons, List.foldlM_cons]
    unfold optLoop
    cases hx : t.opt v.own o with
    | error n => rfl
    | ok c => exact ih { v with own := c }

theorem C126_fresh_task (e : Env) (hl : HasLibc e) (opts : List Opt) :
    (World.callTask e true (opts.map .own) {}).2 =
      match taskParse e opts with
      | .error n => .returns n
      | .ok c => .works (c.pid, opensForWriting c, acts c) 3 0 false := by
  have hf := fresh_own (taskTool e) opts (resetVars (taskTool e) ⟨{}, 3, {}⟩)
  have hd : opts.foldlM (taskTool e).opt (resetVars (taskTool e) ⟨{}, 3, {}⟩).own = opts.foldlM (taskOpt e.page) {} := rfl
  unfold taskParse
  cases hx : opts.foldlM (taskOpt e.page) {} with
  | error n =>
    rw [hd, hx] at hf
    unfold World.callTask call
    dsimp only
    rw [hf]
    rfl
  | ok c =>
    rw [hd, hx] at hf
    have hn : (optLoop (taskTool e) (resetVars (taskTool e) ⟨{}, 3, {}⟩) (opts.map .own)).2 = none := by rw [hf]
    unfold World.callTask
    rw [call_ok (taskTool e) e hl true _ _ hn, hf]
    dsimp only
    have hck : (taskTool e).check c = (taskCheck e c).map fun c => (c.pid, opensForWriting c, acts c) := rfl
    rw [hck]
    cases hy : taskCheck e c with
    | error n => simp [Except.bind, hy, Except.map]
    | ok d => simp [Except.bind, hy, Except.map, resetVars]

theorem C126_fresh_patch (e : Env) (hl : HasLibc e) (opts : List Opt) :
    (World.callPatch e true (opts.map .own) {}).2 =
      match patchParse e opts with
      | .error n => .returns n
      | .ok c => .works (c.pid, patchAct c) 3 0 false := by
  have hf := fresh_own (patchTool e) opts (resetVars (patchTool e) ⟨{}, 3, {}⟩)
  have hd : opts.foldlM (patchTool e).opt (resetVars (patchTool e) ⟨{}, 3, {}⟩).own = opts.foldlM patchOpt {} := rfl
  unfold patchParse
  cases hx : opts.foldlM patchOpt {} with
  | error n =>
    rw [hd, hx] at hf
    unfold World.callPatch call
    dsimp only
    rw [hf]
    rfl
  | ok c =>
    rw [hd, hx] at hf
    have hn : (optLoop (patchTool e) (resetVars (patchTool e) ⟨{}, 3, {}⟩) (opts.map .own)).2 = none := by rw [hf]
    unfold World.callPatch
    rw [call_ok (patchTool e) e hl true _ _ hn, hf]
    dsimp only
    have hck : (patchTool e).check c = (patchCheck e c).map fun c => (c.pid, patchAct c) := rfl
    rw [hck]
    cases hy : patchCheck e c with
    | error n => simp [Except.bind, hy, Except.map]
    | ok d => simp [Except.bind, hy, Except.map, resetVars]

/-- `ulpatch -p 42 --unpatch` after `ultask -p 42 --jmp from=..,to=..` and
`ulpatch -p 42 --patch a.ulp` that fails: it takes out a patch and does nothing else. -/
example : (World.callPatch againEnv true [.own (.pid (lit "42")), .own .unpatch]
    (World.run {} [.task againEnv true [.own (.pid (lit "42")), .own (.jmp (lit "from=0x1000,to=0x2000"))],
      .patch againEnv true [.own (.pid (lit "42")), .own (.patch (lit "a.ulp"))]])).2
    = .works (42, some .unpatch) 3 0 false := by
  decide +kernel

/-! ### C127: the start of the work and `--info` -/

theorem libc_missing {e : Env} (h : ¬ HasLibc e) : possibleLibc.find? e.exist = none := by
  rw [List.find?_eq_none]
  intro p hp he
  exact h ⟨p, hp, he⟩

/-- **C127.**  In a new program, with the options in order, the work begins exactly if the
directory for the patched processes can be used (C103) and there is a C library at one of the
places looked at; otherwise the program exits. -/
theorem C127_start {C R : Type} (t : Tool C R) (e : Env) (env : Bool) (opts : List AOpt) (v : Vars C)
    (hs : (optLoop t (resetVars t v) opts).1.shared.libc = none) (r : R)
    (hn : (optLoop t (resetVars t v) opts).2 = none)
    (hc : t.check (optLoop t (resetVars t v) opts).1.own = .ok r) :
    ((∃ l n p, (call t e.exist env opts v).2 = .works r l n p) ↔ env = true ∧ HasLibc e) ∧
    (¬ (env = true ∧ HasLibc e) → (call t e.exist env opts v).2 = .exits) := by
  cases env with
  | false =>
    have : (call t e.exist false opts v).2 = .exits := by
      unfold call
      dsimp only
      rw [hn]
      dsimp only
      rw [hc]
      rfl
    refine ⟨⟨fun ⟨l, n, p, h⟩ => ?_, fun h => nomatch h.1⟩, fun _ => this⟩
    rw [this] at h
    cases h
  | true =>
    by_cases hl : HasLibc e
    · refine ⟨⟨fun _ => ⟨rfl, hl⟩, fun _ => ?_⟩, fun h => absurd ⟨rfl, hl⟩ h⟩
      rw [call_ok t e hl true opts v hn, hc]
      exact ⟨_, _, _, rfl⟩
    · have : (call t e.exist true opts v).2 = .exits := by
        unfold call
        dsimp only
        rw [hn]
        dsimp only
        rw [hc]
        dsimp only
        rw [if_neg (by exact nofun)]
        have he : elfCoreInit e.exist { (optLoop t (resetVars t v) opts).1.shared with level := (optLoop t (resetVars t v) opts).1.want }
            = { (optLoop t (resetVars t v) opts).1.shared with level := (optLoop t (resetVars t v) opts).1.want } := by
          unfold elfCoreInit
          rw [libc_missing hl]
        rw [he, if_pos hs]
      refine ⟨⟨fun ⟨l, n, p, h⟩ => ?_, fun h => absurd h.2 hl⟩, fun _ => this⟩
      rw [this] at h
      cases h

theorem loop_libc {C R : Type} (t : Tool C R) (opts : List AOpt) (v : Vars C) :
    (optLoop t v opts).1.shared.libc = v.shared.libc := by
  induction opts generalizing v with
  | nil => rfl
  | cons o os ih =>
    cases o with
    | verbose n => exact ih _
    | level l => exact ih _
    | info => rfl
    | own o =>
      unfold optLoop
      cases t.opt v.own o with
      | error n => rfl
      | ok c => exact ih { v with own := c }

/-- **C127.**  A call of ultask, ulpatch, ulftrace or ulpinfo in a new program that works has
found a C library in the file system: the first of the places at which there is one. -/
theorem C127_libc {C R : Type} (t : Tool C R) (e : Env) (env : Bool) (opts : List AOpt) (v : Vars C)
    (hv : v.shared.libc = none) (r : R) (l : Int) (n : BitVec 32) (p : Bool) (h : (call t e.exist env opts v).2 = .works r l n p) :
    ∃ a q b, possibleLibc = a ++ q :: b ∧ (∀ x ∈ a, e.exist x = false) ∧ e.exist q = true ∧
      (call t e.exist env opts v).1.shared.libc = some q := by
  unfold call at h ⊢
  dsimp only at h ⊢
  cases hl : (optLoop t (resetVars t v) opts).2 with
  | some o =>
    rw [hl] at h
    dsimp only at h
    rcases loop_ends t opts _ o hl with ⟨m, ho⟩ | ⟨-, l', m, ho⟩ <;> rw [ho] at h <;> cases h
  | none =>
    rw [hl] at h
    dsimp only at h ⊢
    cases hc : t.check (optLoop t (resetVars t v) opts).1.own with
    | error m => rw [hc] at h; cases h
    | ok r' =>
      rw [hc] at h
      dsimp only at h ⊢
      by_cases he : env = false
      · rw [if_pos he] at h; cases h
      rw [if_neg he] at h ⊢
      have hlib := loop_libc t opts (resetVars t v)
      generalize optLoop t (resetVars t v) opts = lo at h hlib ⊢
      have hnone : lo.1.shared.libc = none := hlib.trans hv
      by_cases hn : (elfCoreInit e.exist { lo.1.shared with level := lo.1.want }).libc = none
      · rw [if_pos hn] at h; cases h
      rw [if_neg hn]
      unfold elfCoreInit at hn ⊢
      cases hf : possibleLibc.find? e.exist with
      | none => rw [hf] at hn; exact absurd hnone hn
      | some q =>
        obtain ⟨hq, a, b, hab, ha⟩ := List.find?_eq_some_iff_append.1 hf
        exact ⟨a, q, b, hab, fun x hx => by simpa using ha x hx, hq, rfl⟩

/-- The verbosity that the options before `--info` ask for. -/
def askedVerbose (opts : List AOpt) (n : BitVec 32) : BitVec 32 :=
  opts.foldl (fun n o => match o with | .verbose v => v + 1 | _ => n) n

theorem loop_info {C R : Type} (t : Tool C R) (opts : List AOpt) (v : Vars C) (l : Option (List Byte)) (n : BitVec 32)
    (h : (optLoop t v opts).2 = some (.shows l n)) :
    l = v.shared.libc ∧ ∃ a b, opts = a ++ .info :: b ∧ n = askedVerbose a v.shared.verbose := by
  induction opts generalizing v with
  | nil => cases h
  | cons o os ih =>
    cases o with
    | verbose m =>
      obtain ⟨h1, a, b, h2, h3⟩ := ih _ h
      exact ⟨h1, .verbose m :: a, b, by rw [h2]; rfl, h3⟩
    | level m =>
      obtain ⟨h1, a, b, h2, h3⟩ := ih _ h
      exact ⟨h1, .level m :: a, b, by rw [h2]; rfl, h3⟩
    | info => cases h; exact ⟨rfl, [], os, rfl, rfl⟩
    | own o =>
      unfold optLoop at h
      cases hx : t.opt v.own o with
      | error m => rw [hx] at h; cases h
      | ok c =>
        rw [hx] at h
        obtain ⟨h1, a, b, h2, h3⟩ := ih _ h
        exact ⟨h1, .own o :: a, b, by rw [h2]; rfl, h3⟩

theorem call_shows {C R : Type} (t : Tool C R) (exist : List Byte → Bool) (env : Bool) (opts : List AOpt) (v : Vars C)
    (l : Option (List Byte)) (n : BitVec 32) (h : (call t exist env opts v).2 = .shows l n) :
    (optLoop t (resetVars t v) opts).2 = some (.shows l n) := by
  unfold call at h
  dsimp only at h
  cases hl : (optLoop t (resetVars t v) opts).2 with
  | some o => rw [hl] at h; exact congrArg some h
  | none =>
    rw [hl] at h
    dsimp only at h
    cases hc : t.check (optLoop t (resetVars t v) opts).1.own with
    | error m => rw [hc] at h; cases h
    | ok r =>
      rw [hc] at h
      dsimp only at h
      by_cases he : env = false
      · rw [if_pos he] at h; cases h
      rw [if_neg he] at h
      by_cases hn : (elfCoreInit exist { (optLoop t (resetVars t v) opts).1.shared with level := (optLoop t (resetVars t v) opts).1.want }).libc = none
      · rw [if_pos hn] at h; cases h
      · rw [if_neg hn] at h; cases h

/-- **C127.**  What `--info` shows as the verbosity is what the options before it on the command
line ask for. -/
theorem C127_verbose {C R : Type} (t : Tool C R) (exist : List Byte → Bool) (env : Bool) (opts : List AOpt) (v : Vars C)
    (l : Option (List Byte)) (n : BitVec 32) (h : (call t exist env opts v).2 = .shows l n) :
    ∃ a b, opts = a ++ .info :: b ∧ n = askedVerbose a 0 :=
  (loop_info t opts _ l n (call_shows t exist env opts v l n h)).2

/-- **Finding.**  C127 is violated: in a new program `--info` never shows a C library, whatever
the command line and whatever is installed, because the library is looked for only afterwards. -/
theorem C127_info_violated (e : Env) (env : Bool) (opts : List AOpt) (l : Option (List Byte)) (n : BitVec 32) :
    ((World.callTask e env opts {}).2 = .shows l n → l = none) ∧
    ((World.callPatch e env opts {}).2 = .shows l n → l = none) ∧
    (∀ d, (World.callTrace e d env opts {}).2 = .shows l n → l = none) ∧
    ((World.callInfo e env opts {}).2 = .shows l n → l = none) :=
  ⟨fun h => (loop_info _ opts _ l n (call_shows _ _ _ _ _ l n h)).1,
    fun h => (loop_info _ opts _ l n (call_shows _ _ _ _ _ l n h)).1,
    fun _ h => (loop_info _ opts _ l n (call_shows _ _ _ _ _ l n h)).1,
    fun h => (loop_info _ opts _ l n (call_shows _ _ _ _ _ l n h)).1⟩

/-- `ultask -vv --info` in a system with the library, in a new program and after another call. -/
example : (World.callTask againEnv true [.verbose 1, .info] {}).2 = .shows none 2 ∧
    (World.callTask againEnv true [.verbose 1, .info]
      (World.run {} [.task againEnv true [.own (.pid (lit "42"))]])).2 = .shows (some (lit "/lib64/libc.so.6")) 2 := by
  decide +kernel

/-- ulpatch without any C library. -/
example : (World.callPatch { againEnv with exist := fun _ => false } true [.own (.pid (lit "42")), .own .unpatch] {}).2
    = .exits := by
  decide +kernel

end Ulp.Cli
