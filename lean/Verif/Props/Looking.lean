/-
C147: looking at processes and patch files disturbs nothing.
-/
import Verif.Props.Alone
namespace Ulp.Session
open LoadBytes
open Sys (System Out Ev pidOf setProc Same exSys exCirc)
open Getopt (Word Prog)
open Cli (Opt AOpt)
open Shell (plain)
open Load (lit)

/-- The line only looks. -/
def Line.looks : Line → Bool
  | .ulpinfo _ _ _ => true
  | _ => false

/-- The line does not have `ulpatch` load, or `ulftrace` use, the file `temp.ulp`. -/
def Line.avoids : Line → Prop
  | .shell (.ulpatch posix ws _) => ∀ os, Prog.ulpatch.Loose posix ws os → Cli.lastCmd (os.map plain) ≠ some (.patch (lit "temp.ulp"))
  | .shell (.ulftrace posix ws _) => ∀ os, Prog.ulftrace.Loose posix ws os → Sys.objOf (os.map plain) ≠ some (lit "temp.ulp")
  | _ => True

theorem on_one {v : Ev} {p q : BitVec 32} (h : v.on p = true) (hq : q ≠ p) : v.on q = false := by
  cases v <;> simp [Ev.on] at h ⊢ <;> first | (rw [h]; intro e; exact hq (by simpa using e.symm)) | (subst h; exact fun e => hq e.symm)

/-- A command line that names no process, and its end. -/
theorem step_none (M : Machine) {v : Ev} (h : ∀ p, v.on p = false) : ∃ n, ∀ s, Sys.step M s v = some (s, .status n) := by
  cases v with
  | begins q w => exact absurd (h q) (by simp [Ev.on])
  | ends q => exact absurd (h q) (by simp [Ev.on])
  | ulpatch opts c =>
    have hn : pidOf opts = none := by
      cases hp : pidOf opts with
      | none => rfl
      | some p => exact absurd (h p) (by simp [Ev.on, hp])
    cases hf : opts.foldlM Cli.patchOpt {} with
    | error n =>
      refine ⟨n, fun s => ?_⟩
      show Sys.ulpatch M s opts c = _
      unfold Sys.ulpatch
      rw [hf]
    | ok g =>
      refine ⟨1, fun s => ?_⟩
      show Sys.ulpatch M s opts c = _
      unfold Sys.ulpatch
      rw [hf]
      dsimp only
      obtain ⟨-, -, q3⟩ := (Cli.patch_fold opts {}).1 g hf
      have hm : g.pid = -1 := by
        unfold pidOf at hn
        cases hl : Cli.lastPid opts with
        | none => rw [hl] at q3; exact q3
        | some x =>
          rw [hl] at hn
          have hx : x.isPid = true := (List.mem_filter.1 (List.mem_of_getLast? hl)).2
          cases x <;> first | (cases hx; done) | (cases hn; done)
      rw [if_pos hm]
      exact ite_self _
  | ulftrace opts c =>
    have hn : pidOf opts = none := by
      cases hp : pidOf opts with
      | none => rfl
      | some p => exact absurd (h p) (by simp [Ev.on, hp])
    cases hf : opts.foldlM Cli.traceOpt {} with
    | error n =>
      refine ⟨n, fun s => ?_⟩
      show Sys.ulftrace M s opts c = _
      unfold Sys.ulftrace Cli.traceParse
      rw [hf]
      rfl
    | ok g =>
      refine ⟨1, fun s => ?_⟩
      show Sys.ulftrace M s opts c = _
      unfold Sys.ulftrace Cli.traceParse
      rw [hf]
      obtain ⟨-, q2, -⟩ := (Sys.trace_fold opts {}).1 g hf
      have hm : g.pid = -1 := by rw [q2, hn]; rfl
      have he : Cli.traceCheck (Sys.traceEnv s c) s.objPath g = .error 1 := by
        unfold Cli.traceCheck
        rw [if_pos hm]
      show (match Cli.traceCheck (Sys.traceEnv s c) s.objPath g with | .error n => _ | .ok g => _) = _
      rw [he]

/-- An event does the same with the same processes and the same files but for `temp.ulp`. -/
theorem step_any (M : Machine) {s t s' : System} {v : Ev} {o : Out} (h : Same s t) (hp : t.procs = s.procs) (hv : v.plain = true)
    (he : Sys.step M s v = some (s', o)) : ∃ t', Sys.step M t v = some (t', o) ∧ Same s' t' ∧ t'.procs = s'.procs := by
  by_cases hon : ∃ p, v.on p = true
  · obtain ⟨p, hon⟩ := hon
    obtain ⟨t', h1, h2, h3⟩ := Sys.step_rel M h (congrFun hp p) hv hon s' o he
    refine ⟨t', h1, h2, funext fun q => ?_⟩
    by_cases hq : q = p
    · rw [hq]; exact h3
    · rw [(Sys.step_off M h1).2 q (on_one hon hq), (Sys.step_off M he).2 q (on_one hon hq), hp]
  · obtain ⟨n, hn⟩ := step_none M (v := v) fun p => by
      cases hx : v.on p with
      | false => rfl
      | true => exact absurd ⟨p, hx⟩ hon
    rw [hn] at he
    cases he
    exact ⟨t, hn t, h, hp⟩

theorem type_any (M : Machine) {s t s' : System} {l : Line} {o : Out} (h : Same s t) (hp : t.procs = s.procs) (hv : l.avoids)
    (hk : l.looks = false) (he : type M s l = some (s', o)) : ∃ t', type M t l = some (t', o) ∧ Same s' t' ∧ t'.procs = s'.procs := by
  cases l with
  | shell l =>
    have he : Shell.type M s l = some (s', o) := he
    show ∃ t', Shell.type M t l = some (t', o) ∧ _
    cases l with
    | begins q w => exact step_any M (v := .begins q w) h hp rfl he
    | ends q => exact step_any M (v := .ends q) h hp rfl he
    | ulpatch posix ws c =>
      obtain ⟨os, e1, e2⟩ := Shell.seen .ulpatch posix ws
      unfold Shell.type at he ⊢
      dsimp only at he ⊢
      rw [e2] at he ⊢
      dsimp only at he ⊢
      by_cases hm : Opt.stop 1 ∈ os.map plain
      · unfold Sys.ulpatch at he ⊢
        cases hf : (os.map plain).foldlM Cli.patchOpt {} with
        | error n => rw [hf] at he; cases he; exact ⟨t, rfl, h, hp⟩
        | ok g => exact absurd (((Cli.patch_fold _ _).1 g hf).1 _ hm) (by decide)
      · refine step_any M (v := .ulpatch (os.map plain) c) h hp ?_ he
        exact decide_eq_true (hv os (Shell.loose _ _ _ _ e1 hm))
    | ulftrace posix ws c =>
      obtain ⟨os, e1, e2⟩ := Shell.seen .ulftrace posix ws
      unfold Shell.type at he ⊢
      dsimp only at he ⊢
      rw [e2] at he ⊢
      dsimp only at he ⊢
      by_cases hm : Opt.stop 1 ∈ os.map plain
      · unfold Sys.ulftrace Cli.traceParse at he ⊢
        cases hf : (os.map plain).foldlM Cli.traceOpt {} with
        | error n => rw [hf] at he; cases he; exact ⟨t, rfl, h, hp⟩
        | ok g => exact absurd (((Sys.trace_fold _ _).1 g hf).1 _ hm) (by decide)
      · refine step_any M (v := .ulftrace (os.map plain) c) h hp ?_ he
        exact decide_eq_true (hv os (Shell.loose _ _ _ _ e1 hm))
  | ulpinfo posix ws c => cases hk
  | ultask posix ws k st e c ls info out cut =>
    unfold type at he ⊢
    dsimp only at he ⊢
    split at he
    · cases he; exact ⟨t, rfl, h, hp⟩
    · unfold ultask at he ⊢
      rw [hp]
      split at he
      · cases he; exact ⟨t, rfl, h, hp⟩
      split at he
      · cases he; exact ⟨t, rfl, h, hp⟩
      split at he
      · cases he
      split at he
      · cases he
      · cases he
        refine ⟨_, rfl, ⟨h.files, h.objPath, h.object⟩, ?_⟩
        unfold setProc
        dsimp only
        rw [hp]

theorem looks_same (M : Machine) {s s' : System} {l : Line} {o : Out} (hk : l.looks = true) (he : type M s l = some (s', o)) :
    Same s s' ∧ s'.procs = s.procs := by
  refine ⟨type_files M he, funext fun p => type_alone M he ?_⟩
  cases l <;> first | (cases hk; done) | exact id

theorem skip (M : Machine) : ∀ {ls : List Line} {s r t : System} {outs : List Out}, Same s r → r.procs = s.procs →
    types M s ls = some (t, outs) → (∀ l ∈ ls, l.avoids) →
    ∃ t', types M r (ls.filter fun l => !l.looks) = some (t', ((ls.zip outs).filter fun x => !x.1.looks).map (·.2)) ∧
      Same t t' ∧ t'.procs = t.procs
  | [], s, r, t, outs, h, hp, he, _ => by cases he; exact ⟨r, rfl, h, hp⟩
  | l :: ls, s, r, t, outs, h, hp, he, hl => by
    unfold types at he
    cases h1 : type M s l with
    | none => rw [h1] at he; cases he
    | some x =>
      obtain ⟨u, o⟩ := x
      rw [h1] at he
      dsimp only at he
      cases h2 : types M u ls with
      | none => rw [h2] at he; cases he
      | some y =>
        obtain ⟨t', os⟩ := y
        rw [h2] at he
        cases he
        have hl' : ∀ k ∈ ls, k.avoids := fun k hk => hl k (List.mem_cons_of_mem _ hk)
        rw [List.zip_cons_cons]
        cases hk : l.looks with
        | true =>
          obtain ⟨a, b⟩ := looks_same M hk h1
          rw [List.filter_cons_of_neg (by simp [hk]), List.filter_cons_of_neg (by simp [hk])]
          exact skip M (a.symm.trans h) (hp.trans b.symm) h2 hl'
        | false =>
          obtain ⟨r', e1, e2, e3⟩ := type_any M h hp (hl l List.mem_cons_self) hk h1
          obtain ⟨z, f1, f2, f3⟩ := skip M e2 e3 h2 hl'
          rw [List.filter_cons_of_pos (by simp [hk]), List.filter_cons_of_pos (by simp [hk])]
          refine ⟨z, ?_, f2, f3⟩
          unfold types
          rw [e1]
          dsimp only
          rw [f1]
          rfl

/-- **C147.**  In any session, leave out every `ulpinfo`: the other commands end as they did, all processes are as they were, and
so is every file but `temp.ulp`.  Missing: commands that are given `temp.ulp` as their file, for which it is false
(`C147_violated`). -/
theorem C147_looking_partial (M : Machine) {ls : List Line} {s t : System} {outs : List Out} (h : types M s ls = some (t, outs))
    (hl : ∀ l ∈ ls, l.avoids) :
    ∃ t', types M s (ls.filter fun l => !l.looks) = some (t', ((ls.zip outs).filter fun x => !x.1.looks).map (·.2)) ∧
      t'.procs = t.procs ∧ ∀ f, f ≠ lit "temp.ulp" → t'.files f = t.files f := by
  obtain ⟨t', h1, h2, h3⟩ := skip M (Same.refl s) rfl h hl
  exact ⟨t', h1, h3, h2.files⟩

/-! ### temp.ulp -/

/-- The system of the examples, with a file `temp.ulp`. -/
def tempSys : System := { exSys with files := fun f => if f = lit "temp.ulp" then some [] else exSys.files f }

/-- `ulpinfo notes -ip.ulp` -/
def lookF : Line := .ulpinfo false InfoShell.wsF InfoShell.circI

/-- `ulftrace -p7 -f old_f -j temp.ulp` -/
def mineT : Line := .shell (.ulftrace false [lit "-p7", lit "-f", lit "old_f", lit "-j", lit "temp.ulp"] exCirc)

theorem mineT_type (s : System) : type x86 s mineT =
    Sys.ulftrace x86 s [.pid (lit "7"), .function (lit "old_f"), .patchObj (lit "temp.ulp")] exCirc := by
  unfold mineT type
  dsimp only
  unfold Shell.type
  dsimp only
  rw [show Shell.optsOf (Prog.ulftrace.cases false [lit "-p7", lit "-f", lit "old_f", lit "-j", lit "temp.ulp"]) =
    some [.pid (lit "7"), .function (lit "old_f"), .patchObj (lit "temp.ulp")] by decide +kernel]

/-- **Finding.**  A look at a patch file removes the user's `temp.ulp`, and a command that is given this file then ends with 1;
without the look it goes to work. -/
theorem C147_violated : ∃ t o t', types x86 tempSys [lookF, mineT] = some (t, [o, .status 1]) ∧
    types x86 tempSys [mineT] = some (t', [.status (-2)]) := by
  obtain ⟨w, rs, st, w', r, k1, k2, -, k4, k5⟩ := C120_takes_out_x86 fhR fhWorld [] Patch.allOk 0x7f0000000000 lkEnv.find 77
    (lit "old_f") trFile pfEnv ⟨.ok, some 16, .done⟩ rfl (by decide) trivial
    (show lkEnv.find (lit "old_f") = some 0x401000 by decide +kernel)
    (fun w rs h => by
      cases h
      refine ⟨fun _ => rfl, rfl, .inr (.inr ⟨16, by decide, rfl⟩), ⟨rfl, by exact nofun⟩, ⟨?_, nofun⟩, trParts, tr_made, tr_bid, ?_⟩
      · intro i hi
        rw [tr_len] at hi
        unfold fhR
        rw [BitVec.toNat_add, BitVec.toNat_ofNat, show (0x10000000 : BitVec 64).toNat = 0x10000000 from rfl]
        omega
      · intro t ht
        change lkEnv.find (lit "_ftrace_mcount") = some t at ht
        rw [show lkEnv.find (lit "_ftrace_mcount") = none by decide +kernel] at ht
        cases ht)
    tr_made rfl (show lkEnv.find (lit "_ftrace_mcount") = none by decide +kernel) rfl rfl rfl
  cases k1
  cases k2
  have hr : r = -2 := by
    rcases k5 with ⟨-, h, -⟩ | ⟨v, rest, h, -⟩
    · exact h
    · cases h
  subst hr
  have h2 : type x86 tempSys mineT = some (setProc tempSys 7 w', .status (-2)) := by
    rw [mineT_type]
    unfold Sys.ulftrace
    rw [show Cli.traceParse (Sys.traceEnv tempSys exCirc) tempSys.objPath
        [.pid (lit "7"), .function (lit "old_f"), .patchObj (lit "temp.ulp")] =
        .ok { pid := 7, func := some (lit "old_f"), obj := some (lit "temp.ulp") } by decide +kernel]
    dsimp only
    rw [show tempSys.procs 7 = some fhWorld from rfl]
    dsimp only
    rw [Sys.onProc_eq x86 tempSys exCirc _ _ _ _ rfl rfl]
    have : runFile x86 fhWorld (.trace exCirc.rd exCirc.hdr exCirc.find exCirc.now (lit "old_f") tempSys.object exCirc.e exCirc.d) =
      some (w', -2) := k4
    rw [this]
    rfl
  have h3 : type x86 (InfoShell.ulpinfo tempSys false InfoShell.wsF InfoShell.circI).1 mineT =
      some ((InfoShell.ulpinfo tempSys false InfoShell.wsF InfoShell.circI).1, .status 1) := by
    rw [mineT_type]
    unfold Sys.ulftrace
    rw [show Cli.traceParse (Sys.traceEnv (InfoShell.ulpinfo tempSys false InfoShell.wsF InfoShell.circI).1 exCirc)
        (InfoShell.ulpinfo tempSys false InfoShell.wsF InfoShell.circI).1.objPath
        [.pid (lit "7"), .function (lit "old_f"), .patchObj (lit "temp.ulp")] = .error 1 by decide +kernel]
  have h4 : ∃ o, type x86 tempSys lookF = some ((InfoShell.ulpinfo tempSys false InfoShell.wsF InfoShell.circI).1, o) := by
    unfold lookF type
    dsimp only
    cases InfoShell.ulpinfo tempSys false InfoShell.wsF InfoShell.circI with
    | mk x y => cases y <;> exact ⟨_, rfl⟩
  obtain ⟨o, h4⟩ := h4
  refine ⟨(InfoShell.ulpinfo tempSys false InfoShell.wsF InfoShell.circI).1, o, setProc tempSys 7 w', ?_, ?_⟩
  · unfold types
    rw [h4]
    dsimp only
    unfold types
    rw [h3]
    rfl
  · unfold types
    rw [h2]
    rfl

/-! ### The hypotheses are met -/

/-- The session of C142. -/
example : ∃ t outs t' os, types x86 exSys exLs = some (t, outs) ∧
    types x86 exSys [.shell (.ulpatch false Shell.ws1 exCirc), lineT, .shell (.ulpatch false Shell.ws2 exCirc)] = some (t', os) ∧
    t'.procs = t.procs := by
  obtain ⟨t, outs, e, -⟩ := C142_x86_partial 4096 (fun _ _ => fhR) exSys ex_mean ex_good
  have hone : ∀ {P : Prog} {posix ws} {os ps : List AOpt}, P.Loose posix ws os → P.Spelled posix ws ps → os = ps := fun h k =>
    Getopt.opt_inj ((Getopt.read_spelled (Getopt.fits _) h).symm.trans (Getopt.C132_read _ _ _ _ k))
  obtain ⟨t', h1, h2, -⟩ := C147_looking_partial x86 e (by
    intro l hl
    unfold exLs at hl
    simp only [List.mem_cons, List.not_mem_nil, or_false] at hl
    rcases hl with rfl | rfl | rfl | rfl
    · intro os h
      rw [hone h Shell.sp1]
      decide +kernel
    · trivial
    · trivial
    · intro os h
      rw [hone h Shell.sp2]
      decide +kernel)
  exact ⟨t, outs, t', _, e, h1, h2⟩

end Ulp.Session
