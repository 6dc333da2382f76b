/-
C146: a process that no command line names is left alone, in every session.
-/
import Verif.Props.Session
namespace Ulp.Session
open LoadBytes
open Sys (System Out Ev pidOf setProc Same exSys exCirc)
open Getopt (Word Prog)
open Cli (Opt AOpt)
open Shell (plain)
open Load (lit)

/-- The line is for the process `p`: it writes options of the help text, the last `-p` of which names it; or the process
begins or ends.  `ulpinfo` only looks. -/
def Line.for (p : BitVec 32) : Line → Prop
  | .shell (.ulpatch posix ws _) => ∃ os, Prog.ulpatch.Loose posix ws os ∧ pidOf (os.map plain) = some p
  | .shell (.ulftrace posix ws _) => ∃ os, Prog.ulftrace.Loose posix ws os ∧ pidOf (os.map plain) = some p
  | .shell (.begins q _) => q = p
  | .shell (.ends q) => q = p
  | .ultask posix ws _ _ _ _ _ _ _ _ => ∃ os, Prog.ultask.Loose posix ws os ∧ pidOf (os.map plain) = some p
  | .ulpinfo _ _ _ => False

theorem info_procs (s : System) (posix : Bool) (ws : List Word) (c : InfoShell.Circ) : (InfoShell.ulpinfo s posix ws c).1.procs = s.procs := by
  unfold InfoShell.ulpinfo
  repeat' split
  all_goals rfl

theorem info_files (s : System) (posix : Bool) (ws : List Word) (c : InfoShell.Circ) : Same s (InfoShell.ulpinfo s posix ws c).1 := by
  unfold InfoShell.ulpinfo
  repeat' split
  all_goals first
    | exact Same.refl s
    | exact ⟨fun q hq => InfoShell.keeps_show _ _ _ q hq, rfl, rfl⟩

theorem type_alone (M : Machine) {s t : System} {l : Line} {o : Out} (h : type M s l = some (t, o)) {p : BitVec 32} (hp : ¬ l.for p) :
    t.procs p = s.procs p := by
  by_cases hc : t.procs p = s.procs p
  · exact hc
  exfalso
  apply hp
  cases l with
  | shell l =>
    have h : Shell.type M s l = some (t, o) := h
    cases l with
    | ulpatch posix ws c =>
      obtain ⟨os, h1, -, h2, -⟩ := Shell.C139_ulpatch_asked M h hc
      exact ⟨os, h1, h2⟩
    | ulftrace posix ws c =>
      obtain ⟨os, h1, -, h2, -⟩ := Shell.C139_ulftrace_asked M h hc
      exact ⟨os, h1, h2⟩
    | begins q w =>
      by_cases hq : q = p
      · exact hq
      · exact absurd ((Sys.step_off M (v := .begins q w) h).2 p (decide_eq_false hq)) hc
    | ends q =>
      by_cases hq : q = p
      · exact hq
      · exact absurd ((Sys.step_off M (v := .ends q) h).2 p (decide_eq_false hq)) hc
  | ultask posix ws k st e c ls info out cut =>
    obtain ⟨os, h1, h2, -⟩ := (C142_ultask_asked M h).2.2.2 p hc
    exact ⟨os, h1, h2⟩
  | ulpinfo posix ws c =>
    have e : t = (InfoShell.ulpinfo s posix ws c).1 := by
      unfold type at h
      dsimp only at h
      cases hx : InfoShell.ulpinfo s posix ws c with
      | mk x y =>
        rw [hx] at h
        cases y with
        | none => cases h; rfl
        | some y => cases h; rfl
    rw [e, info_procs] at hc
    exact absurd rfl hc

theorem type_files (M : Machine) {s t : System} {l : Line} {o : Out} (h : type M s l = some (t, o)) : Same s t := by
  cases l with
  | shell l =>
    have h : Shell.type M s l = some (t, o) := h
    cases l with
    | ulpatch posix ws c =>
      unfold Shell.type at h
      obtain ⟨os, -, e2⟩ := Shell.seen .ulpatch posix ws
      dsimp only at h
      rw [e2] at h
      exact (Sys.step_off M (v := .ulpatch (os.map plain) c) h).1
    | ulftrace posix ws c =>
      unfold Shell.type at h
      obtain ⟨os, -, e2⟩ := Shell.seen .ulftrace posix ws
      dsimp only at h
      rw [e2] at h
      exact (Sys.step_off M (v := .ulftrace (os.map plain) c) h).1
    | begins q w => exact (Sys.step_off M (v := .begins q w) h).1
    | ends q => exact (Sys.step_off M (v := .ends q) h).1
  | ultask posix ws k st e c ls info out cut =>
    obtain ⟨h1, h2, h3, -⟩ := C142_ultask_asked M h
    exact ⟨fun q _ => by rw [h1], h2, h3⟩
  | ulpinfo posix ws c =>
    have e : t = (InfoShell.ulpinfo s posix ws c).1 := by
      unfold type at h
      dsimp only at h
      cases hx : InfoShell.ulpinfo s posix ws c with
      | mk x y =>
        rw [hx] at h
        cases y with
        | none => cases h; rfl
        | some y => cases h; rfl
    rw [e]
    exact info_files s posix ws c

/-- **C146.**  Whatever is typed in a session, in whatever order, and however the commands end: a process for which none of
the lines is, is at the end as it was. -/
theorem C146_process (M : Machine) {p : BitVec 32} : ∀ {ls : List Line} {s t : System} {outs : List Out},
    types M s ls = some (t, outs) → (∀ l ∈ ls, ¬ l.for p) → t.procs p = s.procs p
  | [], s, t, outs, h, _ => by cases h; rfl
  | l :: ls, s, t, outs, h, hl => by
    unfold types at h
    cases h1 : type M s l with
    | none => rw [h1] at h; cases h
    | some x =>
      obtain ⟨u, o⟩ := x
      rw [h1] at h
      dsimp only at h
      cases h2 : types M u ls with
      | none => rw [h2] at h; cases h
      | some y =>
        obtain ⟨t', os⟩ := y
        rw [h2] at h
        cases h
        rw [C146_process M h2 fun k hk => hl k (List.mem_cons_of_mem _ hk), type_alone M h1 (hl l List.mem_cons_self)]

theorem files_all (M : Machine) : ∀ {ls : List Line} {s t : System} {outs : List Out}, types M s ls = some (t, outs) → Same s t
  | [], s, t, outs, h => by cases h; exact Same.refl _
  | l :: ls, s, t, outs, h => by
    unfold types at h
    cases h1 : type M s l with
    | none => rw [h1] at h; cases h
    | some x =>
      obtain ⟨u, o⟩ := x
      rw [h1] at h
      dsimp only at h
      cases h2 : types M u ls with
      | none => rw [h2] at h; cases h
      | some y =>
        obtain ⟨t', os⟩ := y
        rw [h2] at h
        cases h
        exact (type_files M h1).trans (files_all M h2)

/-- **C146.**  Every file but `temp.ulp`, the output file of `ultask` apart, is at the end as it was.  Missing: `temp.ulp`
itself, see `C79_destroys`. -/
theorem C146_files_partial (M : Machine) {ls : List Line} {s t : System} {outs : List Out} (h : types M s ls = some (t, outs)) :
    (∀ f, f ≠ lit "temp.ulp" → t.files f = s.files f) ∧ t.objPath = s.objPath ∧ t.object = s.object :=
  have e := files_all M h
  ⟨e.files, e.objPath, e.object⟩

/-- The line has `ulpatch` load, or `ulpinfo` show, a patch file. -/
def Line.opens : Line → Prop
  | .shell (.ulpatch posix ws _) => ∃ os f, Prog.ulpatch.Loose posix ws os ∧ Cli.lastCmd (os.map plain) = some (.patch f)
  | .ulpinfo posix ws _ => ∃ os f, Prog.ulpinfo.Loose posix ws os ∧ Cli.lastFile (os.map plain) = some (.patch f)
  | _ => False

theorem onProc_files (M : Machine) {s t : System} {c : Sys.Circ} {p : BitVec 32} {w : Patch.World} {n : Int} {x : FileCmd} {o : Out}
    (h : Sys.onProc M s c p w n x = some (t, o)) : t.files = s.files := by
  unfold Sys.onProc at h
  split at h
  · cases h; rfl
  split at h
  · cases h; rfl
  split at h
  · cases h
  · cases h; rfl

theorem type_temp (M : Machine) {s t : System} {l : Line} {o : Out} (h : type M s l = some (t, o)) (hl : ¬ l.opens) : t.files = s.files := by
  by_cases hc : t.files = s.files
  · exact hc
  exfalso
  apply hl
  cases l with
  | shell l =>
    have h : Shell.type M s l = some (t, o) := h
    cases l with
    | ulpatch posix ws c =>
      obtain ⟨os, e1, e2⟩ := Shell.seen .ulpatch posix ws
      unfold Shell.type at h
      dsimp only at h
      rw [e2] at h
      dsimp only at h
      unfold Sys.ulpatch at h
      cases hf : (os.map plain).foldlM Cli.patchOpt {} with
      | error n => rw [hf] at h; cases h; exact absurd rfl hc
      | ok g =>
        rw [hf] at h
        dsimp only at h
        obtain ⟨k1, k2, -⟩ := (Cli.patch_fold _ _).1 g hf
        split at h
        · cases h; exact absurd rfl hc
        next hn =>
        split at h
        · cases h; exact absurd rfl hc
        split at h
        · cases h; exact absurd rfl hc
        split at h
        · exact absurd (onProc_files M h) hc
        next hu =>
        cases hx : Cli.lastCmd (os.map plain) with
        | none => rw [hx] at k2; exact absurd k2.1 hn
        | some x =>
          rw [hx] at k2
          have hy : x.isCmd = true := (List.mem_filter.1 (List.mem_of_getLast? hx)).2
          cases x <;> first | (cases hy; done) | exact absurd k2 hu | skip
          exact ⟨os, _, Shell.loose _ _ _ _ e1 fun hm => absurd (k1 _ hm) (by decide), hx⟩
    | ulftrace posix ws c =>
      obtain ⟨os, -, e2⟩ := Shell.seen .ulftrace posix ws
      unfold Shell.type at h
      dsimp only at h
      rw [e2] at h
      dsimp only at h
      unfold Sys.ulftrace at h
      split at h
      · cases h; exact absurd rfl hc
      split at h
      · exact absurd (onProc_files M h) hc
      · cases h; exact absurd rfl hc
    | begins q w => cases h; exact absurd rfl hc
    | ends q => cases h; exact absurd rfl hc
  | ultask posix ws k st e c ls info out cut => exact absurd (C142_ultask_asked M h).1 hc
  | ulpinfo posix ws c =>
    have e : t = (InfoShell.ulpinfo s posix ws c).1 := by
      unfold type at h
      dsimp only at h
      cases hx : InfoShell.ulpinfo s posix ws c with
      | mk x y =>
        rw [hx] at h
        cases y with
        | none => cases h; rfl
        | some y => cases h; rfl
    rw [e] at hc
    obtain ⟨os, e1, -⟩ := Shell.seen .ulpinfo posix ws
    unfold InfoShell.ulpinfo at hc
    rw [e1, InfoShell.argsOf_map] at hc
    dsimp only at hc
    cases hf : (os.map plain).foldlM Cli.infoOpt {} with
    | error n => rw [hf] at hc; exact absurd rfl hc
    | ok g =>
      rw [hf] at hc
      dsimp only at hc
      split at hc
      · exact absurd rfl hc
      split at hc
      · exact absurd rfl hc
      · next f hi =>
        have hrun : Cli.infoRun (InfoShell.infoEnv s) (os.map plain) = .ok (.file f) := by
          unfold Cli.infoRun
          rw [hf]
          exact hi
        obtain ⟨ho, hlf, -⟩ := ((Cli.C100_shows _ _).1 f).1 hrun
        exact ⟨os, f, Shell.loose _ _ _ _ e1 fun hm => absurd (ho _ hm) (by decide), hlf⟩
      · split at hc <;> exact absurd rfl hc

/-- **C146.**  As long as no line has `ulpatch` load or `ulpinfo` show a patch file, `temp.ulp` is at the end as it was too. -/
theorem C146_temp (M : Machine) : ∀ {ls : List Line} {s t : System} {outs : List Out}, types M s ls = some (t, outs) →
    (∀ l ∈ ls, ¬ l.opens) → t.files = s.files
  | [], s, t, outs, h, _ => by cases h; rfl
  | l :: ls, s, t, outs, h, hl => by
    unfold types at h
    cases h1 : type M s l with
    | none => rw [h1] at h; cases h
    | some x =>
      obtain ⟨u, o⟩ := x
      rw [h1] at h
      dsimp only at h
      cases h2 : types M u ls with
      | none => rw [h2] at h; cases h
      | some y =>
        obtain ⟨t', os⟩ := y
        rw [h2] at h
        cases h
        rw [C146_temp M h2 fun k hk => hl k (List.mem_cons_of_mem _ hk), type_temp M h1 (hl l List.mem_cons_self)]

/-! ### The hypotheses are met -/

/-- The session of C142 is for 7 and 8; it leaves alone every other process and every file but one. -/
example {p : BitVec 32} (h7 : p ≠ 7) (h8 : p ≠ 8) : ∃ t outs, types x86 exSys exLs = some (t, outs) ∧ t.procs p = exSys.procs p ∧
    t.files (lit "p.ulp") = exSys.files (lit "p.ulp") := by
  obtain ⟨t, outs, e, -⟩ := C142_x86_partial 4096 (fun _ _ => fhR) exSys ex_mean ex_good
  have hone : ∀ {P : Prog} {posix ws} {os ps : List AOpt}, P.Loose posix ws os → P.Spelled posix ws ps → os = ps := fun h k =>
    Getopt.opt_inj ((Getopt.read_spelled (Getopt.fits _) h).symm.trans (Getopt.C132_read _ _ _ _ k))
  refine ⟨t, outs, e, C146_process x86 e ?_, (C146_files_partial x86 e).1 _ (by decide)⟩
  · intro l hl
    unfold exLs at hl
    simp only [List.mem_cons, List.not_mem_nil, or_false] at hl
    rcases hl with rfl | rfl | rfl | rfl
    · rintro ⟨os, h1, h2⟩
      rw [hone h1 Shell.sp1] at h2
      exact h7 (Option.some.inj h2).symm
    · rintro ⟨os, h1, h2⟩
      rw [hone h1 spT] at h2
      exact h7 (Option.some.inj h2).symm
    · exact id
    · rintro ⟨os, h1, h2⟩
      rw [hone h1 Shell.sp2] at h2
      exact h8 (Option.some.inj h2).symm

theorem types_head (M : Machine) {l : Line} {ls : List Line} {s t : System} {outs : List Out} (h : types M s (l :: ls) = some (t, outs)) :
    ∃ u o, type M s l = some (u, o) ∧ ∃ os, types M u ls = some (t, os) := by
  unfold types at h
  cases h1 : type M s l with
  | none => rw [h1] at h; cases h
  | some x =>
    obtain ⟨u, o⟩ := x
    rw [h1] at h
    dsimp only at h
    cases h2 : types M u ls with
    | none => rw [h2] at h; cases h
    | some y =>
      obtain ⟨t', os⟩ := y
      rw [h2] at h
      cases h
      exact ⟨u, o, rfl, os, h2⟩

/-- A session that opens no patch file, on the system as the first line of the session of C142 left it: `ultask` is typed, and
a process ends. -/
example : ∃ s t outs, types x86 s [lineT, .shell (.ends 8)] = some (t, outs) ∧ t.files = s.files := by
  obtain ⟨t, outs, e, -⟩ := C142_x86_partial 4096 (fun _ _ => fhR) exSys ex_mean ex_good
  obtain ⟨s, _, -, _, e2⟩ := types_head x86 e
  obtain ⟨u, o, h, -⟩ := types_head x86 e2
  have ht : types x86 s [lineT, .shell (.ends 8)] = some ({ u with procs := fun q => if q = 8 then none else u.procs q }, [o, .status 0]) := by
    unfold types
    rw [h]
    rfl
  refine ⟨s, _, _, ht, C146_temp x86 ht ?_⟩
  intro l hl
  simp only [List.mem_cons, List.not_mem_nil, or_false] at hl
  rcases hl with rfl | rfl <;> exact id

end Ulp.Session
