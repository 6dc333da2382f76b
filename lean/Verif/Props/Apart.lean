/-
C148: what is done for other processes makes no difference to a process, in every session.
-/
import Verif.Props.Looking
namespace Ulp.Session
open LoadBytes
open Sys (System Out Ev pidOf setProc Same exSys exCirc)
open Getopt (Word Prog)
open Cli (Opt AOpt)
open Shell (plain)
open Load (lit)

/-- The second session, with how its commands end, is the first one without the lines that are not for `p`. -/
inductive Without (p : BitVec 32) : List Line → List Out → List Line → List Out → Prop
  | nil : Without p [] [] [] []
  | drop {l o ls os ks qs} : ¬ l.for p → Without p ls os ks qs → Without p (l :: ls) (o :: os) ks qs
  | keep {l o ls os ks qs} : l.for p → Without p ls os ks qs → Without p (l :: ls) (o :: os) (l :: ks) (o :: qs)

theorem seen_of {P : Prog} {posix : Bool} {ws : List Word} {os : List AOpt} (h : P.Loose posix ws os) :
    Shell.optsOf (P.cases posix ws) = some (os.map plain) := by
  have e : P.cases posix ws = os.map .opt := Getopt.read_spelled (Getopt.fits P) h
  rw [e, Shell.optsOf_map]

theorem type_own (M : Machine) {s t s' : System} {l : Line} {o : Out} {p : BitVec 32} (h : Same s t) (hp : t.procs p = s.procs p)
    (hv : l.avoids) (hl : l.for p) (he : type M s l = some (s', o)) :
    ∃ t', type M t l = some (t', o) ∧ Same s' t' ∧ t'.procs p = s'.procs p := by
  cases l with
  | shell l =>
    have he : Shell.type M s l = some (s', o) := he
    show ∃ t', Shell.type M t l = some (t', o) ∧ _
    cases l with
    | begins q w => exact Sys.step_rel M (v := .begins q w) h hp rfl (decide_eq_true hl) s' o he
    | ends q => exact Sys.step_rel M (v := .ends q) h hp rfl (decide_eq_true hl) s' o he
    | ulpatch posix ws c =>
      obtain ⟨os, h1, h2⟩ := hl
      unfold Shell.type at he ⊢
      dsimp only at he ⊢
      rw [seen_of h1] at he ⊢
      exact Sys.step_rel M (v := .ulpatch (os.map plain) c) h hp (decide_eq_true (hv os h1)) (decide_eq_true h2) s' o he
    | ulftrace posix ws c =>
      obtain ⟨os, h1, h2⟩ := hl
      unfold Shell.type at he ⊢
      dsimp only at he ⊢
      rw [seen_of h1] at he ⊢
      exact Sys.step_rel M (v := .ulftrace (os.map plain) c) h hp (decide_eq_true (hv os h1)) (decide_eq_true h2) s' o he
  | ulpinfo posix ws c => exact absurd hl id
  | ultask posix ws k st e c ls info out cut =>
    obtain ⟨os, h1, h2⟩ := hl
    unfold type at he ⊢
    dsimp only at he ⊢
    rw [seen_of h1] at he ⊢
    dsimp only at he ⊢
    unfold ultask at he ⊢
    cases hg : Cli.taskParse e (os.map plain) with
    | error n => rw [hg] at he; cases he; exact ⟨t, rfl, h, hp⟩
    | ok g =>
      rw [hg] at he
      dsimp only at he ⊢
      have hpid : g.pid = p := Option.some.inj ((task_pid hg).symm.trans h2)
      rw [hpid] at he ⊢
      rw [hp]
      split at he
      · cases he; exact ⟨t, rfl, h, hp⟩
      split at he
      · cases he
      split at he
      · cases he
      · cases he
        refine ⟨_, rfl, ⟨h.files, h.objPath, h.object⟩, ?_⟩
        show (if p = p then _ else _) = if p = p then _ else _
        rw [if_pos rfl, if_pos rfl]

theorem apart (M : Machine) {p : BitVec 32} {ls ks : List Line} {outs qs : List Out} (hw : Without p ls outs ks qs) : ∀ {s r t : System}, Same s r →
    r.procs p = s.procs p → types M s ls = some (t, outs) → (∀ l ∈ ls, l.avoids) →
    ∃ t', types M r ks = some (t', qs) ∧ t'.procs p = t.procs p := by
  induction hw with
  | nil =>
    intro s r t h hp he _
    cases he
    exact ⟨r, rfl, hp⟩
  | @drop l o ls os ks qs hl _ ih =>
    intro s r t h hp he ha
    unfold types at he
    cases h1 : type M s l with
    | none => rw [h1] at he; cases he
    | some x =>
      obtain ⟨u, o'⟩ := x
      rw [h1] at he
      dsimp only at he
      cases h2 : types M u ls with
      | none => rw [h2] at he; cases he
      | some y =>
        obtain ⟨t', os'⟩ := y
        rw [h2] at he
        cases he
        exact ih ((type_files M h1).symm.trans h) (hp.trans (type_alone M h1 hl).symm) h2 fun k hk => ha k (List.mem_cons_of_mem _ hk)
  | @keep l o ls os ks qs hl _ ih =>
    intro s r t h hp he ha
    unfold types at he
    cases h1 : type M s l with
    | none => rw [h1] at he; cases he
    | some x =>
      obtain ⟨u, o'⟩ := x
      rw [h1] at he
      dsimp only at he
      cases h2 : types M u ls with
      | none => rw [h2] at he; cases he
      | some y =>
        obtain ⟨t', os'⟩ := y
        rw [h2] at he
        cases he
        obtain ⟨r', e1, e2, e3⟩ := type_own M h hp (ha l List.mem_cons_self) hl h1
        obtain ⟨z, f1, f2⟩ := ih e2 e3 h2 fun k hk => ha k (List.mem_cons_of_mem _ hk)
        refine ⟨z, ?_, f2⟩
        unfold types
        rw [e1]
        dsimp only
        rw [f1]

/-- **C148.**  In any session, leave out every line that is not for the process `p`: the others end as they did, and `p` is as it
was.  Nothing is asked of the processes and the patch files.  Missing: commands that are given `temp.ulp` as their file, for which
it is false (`C128_temp`, `C147_violated`). -/
theorem C148_apart_partial (M : Machine) {p : BitVec 32} {ls ks : List Line} {s t : System} {outs qs : List Out}
    (h : types M s ls = some (t, outs)) (hl : ∀ l ∈ ls, l.avoids) (hw : Without p ls outs ks qs) :
    ∃ t', types M s ks = some (t', qs) ∧ t'.procs p = t.procs p :=
  apart M hw (Same.refl s) rfl h hl

theorem types_len (M : Machine) : ∀ {ls : List Line} {s t : System} {outs : List Out}, types M s ls = some (t, outs) → outs.length = ls.length
  | [], s, t, outs, h => by cases h; rfl
  | l :: ls, s, t, outs, h => by
    unfold types at h
    cases h1 : type M s l with
    | none => rw [h1] at h; cases h
    | some x =>
      obtain ⟨u, o⟩ := x
      rw [h1] at h
      dsimp only at h
      cases h2 : types M u ls with
      | none => rw [h2] at h; cases h
      | some y =>
        obtain ⟨t', os⟩ := y
        rw [h2] at h
        cases h
        exact congrArg (· + 1) (types_len M h2)

/-- There is always such a session, and only one. -/
theorem C148_without (p : BitVec 32) : ∀ (ls : List Line) (os : List Out), ls.length = os.length →
    ∃ ks qs, Without p ls os ks qs ∧ ∀ ks' qs', Without p ls os ks' qs' → ks' = ks ∧ qs' = qs
  | [], [], _ => ⟨[], [], .nil, fun _ _ h => by cases h; exact ⟨rfl, rfl⟩⟩
  | l :: ls, o :: os, hn => by
    obtain ⟨ks, qs, h1, h2⟩ := C148_without p ls os (Nat.succ.inj hn)
    rcases Classical.em (l.for p) with hl | hl
    · refine ⟨_, _, .keep hl h1, fun ks' qs' h => ?_⟩
      cases h with
      | drop h _ => exact absurd hl h
      | keep _ h =>
        obtain ⟨e1, e2⟩ := h2 _ _ h
        rw [e1, e2]
        exact ⟨rfl, rfl⟩
    · refine ⟨_, _, .drop hl h1, fun ks' qs' h => ?_⟩
      cases h with
      | drop _ h => exact h2 _ _ h
      | keep h _ => exact absurd h hl

/-! ### The hypotheses are met -/

/-- The session of C142, and what of it is for 7. -/
example : ∃ t outs t' qs, types x86 exSys exLs = some (t, outs) ∧
    types x86 exSys [.shell (.ulpatch false Shell.ws1 exCirc), lineT] = some (t', qs) ∧ t'.procs 7 = t.procs 7 := by
  obtain ⟨t, outs, e, -⟩ := C142_x86_partial 4096 (fun _ _ => fhR) exSys ex_mean ex_good
  have hone : ∀ {P : Prog} {posix ws} {os ps : List AOpt}, P.Loose posix ws os → P.Spelled posix ws ps → os = ps := fun h k =>
    Getopt.opt_inj ((Getopt.read_spelled (Getopt.fits _) h).symm.trans (Getopt.C132_read _ _ _ _ k))
  have hsp : ∀ {P : Prog} {posix ws} {ps : List AOpt}, P.Spelled posix ws ps → Opt.stop 1 ∉ ps.map plain → P.Loose posix ws ps := fun k hs =>
    Shell.loose _ _ _ _ (Getopt.C132_read _ _ _ _ k) hs
  have ha : ∀ l ∈ exLs, l.avoids := by
    intro l hl
    unfold exLs at hl
    simp only [List.mem_cons, List.not_mem_nil, or_false] at hl
    rcases hl with rfl | rfl | rfl | rfl
    · intro os h
      rw [hone h Shell.sp1]
      decide +kernel
    · trivial
    · trivial
    · intro os h
      rw [hone h Shell.sp2]
      decide +kernel
  have hlen : ∃ o1 o2 o3 o4, outs = [o1, o2, o3, o4] := by
    have hn : outs.length = 4 := types_len x86 e
    match outs, hn with
    | [o1, o2, o3, o4], _ => exact ⟨o1, o2, o3, o4, rfl⟩
  obtain ⟨o1, o2, o3, o4, rfl⟩ := hlen
  obtain ⟨t', k1, k2⟩ := C148_apart_partial x86 (p := 7) e ha
    (.keep ⟨_, hsp Shell.sp1 (by decide +kernel), by decide +kernel⟩ (.keep ⟨_, hsp spT (by decide +kernel), by decide +kernel⟩
      (.drop id (.drop (by
        rintro ⟨os, h1, h2⟩
        rw [hone h1 Shell.sp2] at h2
        exact absurd h2 (by decide +kernel)) .nil))))
  exact ⟨t, _, t', _, e, k1, k2⟩

end Ulp.Session
