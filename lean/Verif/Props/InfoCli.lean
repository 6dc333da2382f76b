/-
C100: the command line of ulpinfo.
-/
import Verif.Model.InfoCli
import Verif.Spec.Cli
namespace Ulp.Cli
open Ulp.Load (lit)

/-- The options that ulpinfo has. -/
def Opt.ofInfo : Opt → Bool
  | .pid _ => true
  | .patch _ => true
  | .dryRun => true
  | .force => true
  | .other => true
  | _ => false

/-- `-i` -/
def Opt.isFile : Opt → Bool
  | .patch _ => true
  | _ => false

/-- The last `-i` on a command line. -/
def lastFile (opts : List Opt) : Option Opt := (opts.filter Opt.isFile).getLast?

theorem info_fold (opts : List Opt) : ∀ c : InfoCfg,
    (∀ o ∈ opts, o.ofInfo = true) →
      ∃ d, opts.foldlM infoOpt c = .ok d ∧
        (match lastFile opts with | some (.patch f) => d.file = some f | _ => d.file = c.file) ∧
        (match lastPid opts with | some (.pid P) => d.pid = atoi P | _ => d.pid = c.pid) := by
  induction opts with
  | nil => intro c _; exact ⟨c, rfl, rfl, rfl⟩
  | cons o os ih =>
    intro c h
    have ho := h o (by simp)
    have hos : ∀ x ∈ os, x.ofInfo = true := fun x hx => h x (by simp [hx])
    rw [List.foldlM_cons]
    have hkeepF : ∀ o : Opt, o.isFile = false → lastFile (o :: os) = lastFile os := by
      intro o q; unfold lastFile; rw [List.filter_cons_of_neg (by simp [q])]
    have hkeepP : ∀ o : Opt, o.isPid = false → lastPid (o :: os) = lastPid os := by
      intro o q; unfold lastPid; rw [List.filter_cons_of_neg (by simp [q])]
    have hF : ∀ a, (lastFile (.patch a :: os) = lastFile os ∧ ∃ f, lastFile os = some (.patch f)) ∨
        (lastFile os = none ∧ lastFile (.patch a :: os) = some (.patch a)) := by
      intro a
      unfold lastFile
      rw [List.filter_cons_of_pos rfl, List.getLast?_cons]
      cases hl : (os.filter Opt.isFile).getLast? with
      | none => exact .inr ⟨rfl, rfl⟩
      | some x =>
        have hx : x.isFile = true := (List.mem_filter.1 (List.mem_of_getLast? hl)).2
        cases x <;> first | (cases hx; done) | exact .inl ⟨rfl, _, rfl⟩
    have hP : ∀ a, (lastPid (.pid a :: os) = lastPid os ∧ ∃ f, lastPid os = some (.pid f)) ∨
        (lastPid os = none ∧ lastPid (.pid a :: os) = some (.pid a)) := by
      intro a
      unfold lastPid
      rw [List.filter_cons_of_pos rfl, List.getLast?_cons]
      cases hl : (os.filter Opt.isPid).getLast? with
      | none => exact .inr ⟨rfl, rfl⟩
      | some x =>
        have hx : x.isPid = true := (List.mem_filter.1 (List.mem_of_getLast? hl)).2
        cases x <;> first | (cases hx; done) | exact .inl ⟨rfl, _, rfl⟩
    cases o with
    | patch a =>
      obtain ⟨d, e, h1, h2⟩ := ih { c with file := some a } hos
      refine ⟨d, e, ?_, by rw [hkeepP _ rfl]; exact h2⟩
      rcases hF a with ⟨q, f, qf⟩ | ⟨q1, q2⟩
      · rw [q]; rw [qf] at h1 ⊢; exact h1
      · rw [q2]; rw [q1] at h1; exact h1
    | pid a =>
      obtain ⟨d, e, h1, h2⟩ := ih { c with pid := atoi a } hos
      refine ⟨d, e, by rw [hkeepF _ rfl]; exact h1, ?_⟩
      rcases hP a with ⟨q, f, qf⟩ | ⟨q1, q2⟩
      · rw [q]; rw [qf] at h2 ⊢; exact h2
      · rw [q2]; rw [q1] at h2; exact h2
    | dryRun =>
      obtain ⟨d, e, h1, h2⟩ := ih c hos
      exact ⟨d, e, by rw [hkeepF _ rfl]; exact h1, by rw [hkeepP _ rfl]; exact h2⟩
    | force =>
      obtain ⟨d, e, h1, h2⟩ := ih c hos
      exact ⟨d, e, by rw [hkeepF _ rfl]; exact h1, by rw [hkeepP _ rfl]; exact h2⟩
    | other =>
      obtain ⟨d, e, h1, h2⟩ := ih c hos
      exact ⟨d, e, by rw [hkeepF _ rfl]; exact h1, by rw [hkeepP _ rfl]; exact h2⟩
    | _ => cases ho

theorem info_fold_bad (opts : List Opt) : ∀ c : InfoCfg,
    (∃ o ∈ opts, o.ofInfo = false) → ∃ n, opts.foldlM infoOpt c = .error n := by
  induction opts with
  | nil => rintro c ⟨o, ho, _⟩; simp at ho
  | cons o os ih =>
    rintro c ⟨x, hx, hb⟩
    rw [List.foldlM_cons]
    cases ho : infoOpt c o with
    | error n => exact ⟨n, rfl⟩
    | ok d =>
      rcases List.mem_cons.1 hx with rfl | hx
      · exfalso
        cases x <;> first | (cases hb; done) | (cases ho; done)
      · exact ih d ⟨x, hx, hb⟩

/-- **C100.**  For every command line of ulpinfo and every file system: the patch file `f` is
shown exactly if all options are known, the last `-i` names `f`, and there is such a file;
the patches of process `p` are shown exactly if all options are known, there is no `-i`, and
the last `-p` has the number `p`, which is not 0; otherwise it ends with an error or, for
options like `--help`, at once. -/
theorem C100_shows (e : Env) (opts : List Opt) :
    (∀ f, infoRun e opts = .ok (.file f) ↔
      (∀ o ∈ opts, o.ofInfo = true) ∧ lastFile opts = some (.patch f) ∧ e.exist f = true) ∧
    (∀ p, infoRun e opts = .ok (.task p) ↔
      (∀ o ∈ opts, o.ofInfo = true) ∧ lastFile opts = none ∧
        ∃ P, lastPid opts = some (.pid P) ∧ atoi P = p ∧ p ≠ 0) := by
  by_cases hall : ∀ o ∈ opts, o.ofInfo = true
  · obtain ⟨d, hd, h1, h2⟩ := info_fold opts {} hall
    have hrun : infoRun e opts = infoShow e d := by unfold infoRun; rw [hd]; rfl
    have hF : lastFile opts = none ∨ ∃ f, lastFile opts = some (.patch f) := by
      cases hl : lastFile opts with
      | none => exact .inl rfl
      | some x =>
        have hx : x.isFile = true := (List.mem_filter.1 (List.mem_of_getLast? hl)).2
        cases x <;> first | (cases hx; done) | exact .inr ⟨_, rfl⟩
    have hP : lastPid opts = none ∨ ∃ f, lastPid opts = some (.pid f) := by
      cases hl : lastPid opts with
      | none => exact .inl rfl
      | some x =>
        have hx : x.isPid = true := (List.mem_filter.1 (List.mem_of_getLast? hl)).2
        cases x <;> first | (cases hx; done) | exact .inr ⟨_, rfl⟩
    rw [hrun]
    unfold infoShow
    rcases hF with hF | ⟨g, hF⟩
    · rw [hF] at h1 ⊢
      have h1 : d.file = none := h1
      rw [h1]
      rcases hP with hP | ⟨P, hP⟩
      · rw [hP] at h2 ⊢
        have h2 : d.pid = 0 := h2
        rw [if_pos ⟨rfl, h2⟩]
        exact ⟨fun f => ⟨fun q => by (cases q), fun q => by (cases q.2.1)⟩,
          fun p => ⟨fun q => by (cases q), fun q => by obtain ⟨_, _, P, q, _⟩ := q; cases q⟩⟩
      · rw [hP] at h2 ⊢
        have h2 : d.pid = atoi P := h2
        refine ⟨fun f => ⟨fun q => ?_, fun q => by (cases q.2.1)⟩, fun p => ⟨fun q => ?_, fun q => ?_⟩⟩
        · split at q <;> cases q
        · split at q
          · cases q
          · rename_i hn
            injection q with q
            injection q with q
            exact ⟨hall, rfl, P, rfl, by rw [← h2, q], fun z => hn ⟨rfl, by rw [q, z]⟩⟩
        · obtain ⟨_, _, P', q1, q2, q3⟩ := q
          injection q1 with q1
          injection q1 with q1
          subst q1
          rw [if_neg (fun z => q3 (by rw [← q2, ← h2]; exact z.2)), h2, q2]
    · rw [hF] at h1 ⊢
      have h1 : d.file = some g := h1
      rw [h1, if_neg (by simp)]
      dsimp only
      refine ⟨fun f => ⟨fun q => ?_, fun q => ?_⟩, fun p => ⟨fun q => ?_, fun q => by (cases q.2.1)⟩⟩
      · split at q
        · cases q
        · rename_i hn
          injection q with q
          injection q with q
          subst q
          exact ⟨hall, rfl, by simpa using hn⟩
      · obtain ⟨_, q1, q2⟩ := q
        injection q1 with q1
        injection q1 with q1
        subst q1
        rw [if_neg (by simp [q2])]
      · split at q <;> cases q
  · have hex : ∃ o ∈ opts, o.ofInfo = false := by
      simp only [Classical.not_forall] at hall
      obtain ⟨o, ho, q⟩ := hall
      exact ⟨o, ho, by simpa using q⟩
    obtain ⟨n, hn⟩ := info_fold_bad opts {} hex
    have hrun : infoRun e opts = .error n := by unfold infoRun; rw [hn]; rfl
    rw [hrun]
    exact ⟨fun f => ⟨fun q => by (cases q), fun q => absurd q.1 hall⟩,
      fun p => ⟨fun q => by (cases q), fun q => absurd q.1 hall⟩⟩

/-- **C100.**  Neither a file nor a process: the result is −22, and nothing is shown. -/
theorem C100_nothing (e : Env) (opts : List Opt) (h : ∀ o ∈ opts, o.ofInfo = true)
    (hf : lastFile opts = none) (hp : ∀ P, lastPid opts = some (.pid P) → atoi P = 0) :
    infoRun e opts = .error (-22) := by
  obtain ⟨d, hd, h1, h2⟩ := info_fold opts {} h
  rw [hf] at h1
  have h1 : d.file = none := h1
  have h2 : d.pid = 0 := by
    cases hl : lastPid opts with
    | none => rw [hl] at h2; exact h2
    | some x =>
      have hx : x.isPid = true := (List.mem_filter.1 (List.mem_of_getLast? hl)).2
      cases x <;> first | (cases hx; done) | skip
      rw [hl] at h2
      exact h2.trans (hp _ hl)
  unfold infoRun
  rw [hd]
  show infoShow e d = _
  unfold infoShow
  rw [if_pos ⟨h1, h2⟩]

/-- A file system with the file `p.ulp`. -/
def infoEnv : Env :=
  ⟨4096, fun _ => false, fun f => f == lit "p.ulp", fun _ => true, fun _ => 0, [], fun _ => false, fun _ => false⟩

example : infoRun infoEnv [.pid (lit "42"), .patch (lit "x"), .other, .patch (lit "p.ulp")] =
    .ok (.file (lit "p.ulp")) :=
  ((C100_shows _ _).1 _).2 ⟨by decide, by decide, by decide⟩

example : infoRun infoEnv [.pid (lit "1"), .pid (lit "42"), .dryRun] = .ok (.task 42) :=
  ((C100_shows _ _).2 _).2 ⟨by decide, by decide, lit "42", by decide, by decide +kernel, by decide⟩

example : infoRun infoEnv [.pid (lit "abc")] = .error (-22) :=
  C100_nothing _ _ (by decide) (by decide) (by
    intro P h
    have : P = lit "abc" := by
      have e : lastPid [.pid (lit "abc")] = some (.pid (lit "abc")) := by decide
      rw [e] at h
      injection h with h
      injection h with h
      exact h.symm
    rw [this]
    decide +kernel)

end Ulp.Cli
