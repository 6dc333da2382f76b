/-
C139: from the words that are typed to the memory of the processes.
-/
import Verif.Spec.Shell
import Verif.Props.System
import Verif.Props.Getopt
import Verif.Props.JumpHist
namespace Ulp.Shell
open LoadBytes
open Sys
open Cli (Opt AOpt lastCmd)
open Getopt (Case Word Prog)
open Load (lit)

theorem optsOf_map : ∀ os : List AOpt, optsOf (os.map .opt) = some (os.map plain)
  | [] => rfl
  | o :: os => by
    rw [List.map_cons, List.map_cons]
    unfold optsOf
    rw [optsOf_map os]
    rfl

theorem means_type (M : Machine) (s : System) {l : Line} {v : Ev} (h : Means l v) : type M s l = step M s v := by
  cases h with
  | ulpatch c h =>
    unfold type step
    dsimp only
    rw [Getopt.C132_read _ _ _ _ h, optsOf_map]
  | ulftrace c h =>
    unfold type step
    dsimp only
    rw [Getopt.C132_read _ _ _ _ h, optsOf_map]
  | begins p w => rfl
  | ends p => rfl

/-- **C139.**  Command lines do what they mean: however the options are written, what happens to the
files and to every process, and how each command ends, is what the options say. -/
theorem C139_means (M : Machine) {ls : List Line} {vs : List Ev} (h : AllMean ls vs) (s : System) :
    types M s ls = run M s vs := by
  induction h generalizing s with
  | nil => rfl
  | cons h _ ih =>
    unfold types run
    rw [means_type M s h]
    cases step M s _ with
    | none => rfl
    | some r =>
      dsimp only
      rw [ih]
      cases run M r.1 _ <;> rfl

/-- **C139.**  Two ways to write the same do the same. -/
theorem C139_spelling (M : Machine) {ls ks : List Line} {vs : List Ev} (h : AllMean ls vs) (k : AllMean ks vs) (s : System) :
    types M s ls = types M s ks := by
  rw [C139_means M h, C139_means M k]

theorem seen (p : Prog) (posix : Bool) (ws : List Word) :
    ∃ os : List AOpt, p.cases posix ws = os.map .opt ∧ optsOf (p.cases posix ws) = some (os.map plain) := by
  obtain ⟨os, e, -⟩ := Getopt.C132_known p posix ws
  exact ⟨os, e, by rw [e, optsOf_map]⟩

theorem loose (p : Prog) (posix : Bool) (ws : List Word) (os : List AOpt) (h : p.cases posix ws = os.map .opt)
    (hs : Opt.stop 1 ∉ os.map plain) : p.Loose posix ws os := by
  obtain ⟨ps, hp⟩ := (Getopt.C132_only_partial p posix ws).2 (by
    rw [h]
    intro hm
    obtain ⟨o, ho, e⟩ := List.mem_map.1 hm
    cases e
    exact hs (List.mem_map.2 ⟨_, ho, rfl⟩))
  have e := Getopt.read_spelled (Getopt.fits p) hp
  have e2 : os = ps := Getopt.opt_inj (h.symm.trans e)
  rw [e2]
  exact hp

/-- **C139.**  Whatever words are typed: `ulpatch` touches a process only if the words write options of
its help text (with anything behind the letter `v`) and no others, the last `-p` names this process, and there is a
`--patch` or an `--unpatch`. -/
theorem C139_ulpatch_asked (M : Machine) {s t : System} {posix : Bool} {ws : List Word} {c : Circ} {o : Out}
    (h : type M s (.ulpatch posix ws c) = some (t, o)) {p : BitVec 32} (hp : t.procs p ≠ s.procs p) :
    ∃ os, Prog.ulpatch.Loose posix ws os ∧ (∀ o ∈ os.map plain, o.ofPatch = true) ∧ pidOf (os.map plain) = some p ∧
      (lastCmd (os.map plain) = some .unpatch ∨ ∃ f, lastCmd (os.map plain) = some (.patch f)) := by
  obtain ⟨os, e1, e2⟩ := seen .ulpatch posix ws
  unfold type at h
  dsimp only at h
  rw [e2] at h
  dsimp only at h
  have hon : pidOf (os.map plain) = some p := by
    by_cases hc : pidOf (os.map plain) = some p
    · exact hc
    · exact absurd ((C128_others M (v := .ulpatch (os.map plain) c) h).1 p (by
        unfold Ev.on
        exact decide_eq_false hc)) hp
  unfold Sys.ulpatch at h
  cases hf : (os.map plain).foldlM Cli.patchOpt {} with
  | error n =>
    rw [hf] at h
    cases h
    exact absurd rfl hp
  | ok g =>
    rw [hf] at h
    dsimp only at h
    obtain ⟨k1, k2, -⟩ := (Cli.patch_fold _ _).1 g hf
    refine ⟨os, loose _ _ _ _ e1 fun hm => ?_, k1, hon, ?_⟩
    · exact absurd (k1 _ hm) (by decide)
    · by_cases hg : g.cmd = .none
      · rw [if_pos hg] at h
        cases h
        exact absurd rfl hp
      · cases hl : lastCmd (os.map plain) with
        | none =>
          rw [hl] at k2
          exact absurd k2.1 hg
        | some x =>
          have hx : x.isCmd = true := (List.mem_filter.1 (List.mem_of_getLast? hl)).2
          cases x <;> first | (cases hx; done) | exact .inl rfl | exact .inr ⟨_, rfl⟩

/-- **C139.**  The same for `ulftrace`: there is a `-f`. -/
theorem C139_ulftrace_asked (M : Machine) {s t : System} {posix : Bool} {ws : List Word} {c : Circ} {o : Out}
    (h : type M s (.ulftrace posix ws c) = some (t, o)) {p : BitVec 32} (hp : t.procs p ≠ s.procs p) :
    ∃ os, Prog.ulftrace.Loose posix ws os ∧ (∀ o ∈ os.map plain, ofTrace o = true) ∧ pidOf (os.map plain) = some p ∧
      ∃ f, funcOf (os.map plain) = some f := by
  obtain ⟨os, e1, e2⟩ := seen .ulftrace posix ws
  unfold type at h
  dsimp only at h
  rw [e2] at h
  dsimp only at h
  have hon : pidOf (os.map plain) = some p := by
    by_cases hc : pidOf (os.map plain) = some p
    · exact hc
    · exact absurd ((C128_others M (v := .ulftrace (os.map plain) c) h).1 p (by
        unfold Ev.on
        exact decide_eq_false hc)) hp
  unfold Sys.ulftrace Cli.traceParse at h
  cases hf : (os.map plain).foldlM Cli.traceOpt {} with
  | error n =>
    rw [hf] at h
    cases h
    exact absurd rfl hp
  | ok g =>
    rw [hf] at h
    obtain ⟨k1, -, k2, -⟩ := (trace_fold _ _).1 g hf
    refine ⟨os, loose _ _ _ _ e1 fun hm => ?_, k1, hon, ?_⟩
    · exact absurd (k1 _ hm) (by decide)
    · cases hl : funcOf (os.map plain) with
      | some f => exact ⟨f, rfl⟩
      | none =>
        exfalso
        rw [hl] at k2
        have k3 : g.func = none := k2
        have hck : ∃ n, Cli.traceCheck (traceEnv s c) s.objPath g = .error n := by
          unfold Cli.traceCheck
          by_cases h1 : g.pid = -1
          · exact ⟨1, by rw [if_pos h1]⟩
          · exact ⟨1, by rw [if_neg h1, if_pos k3]⟩
        obtain ⟨n, hn⟩ := hck
        change (match Cli.traceCheck (traceEnv s c) s.objPath g with
          | .error n => some (s, Out.status n)
          | .ok g => _) = _ at h
        rw [hn] at h
        cases h
        exact hp rfl

/-- The fold does not get past an option that ends the program. -/
theorem fold_stop {σ : Type} {step : σ → Opt → Except Int σ} (hs : ∀ c, step c (.stop 0) = .error 0) : ∀ (l : List Opt) (c : σ),
    .stop 0 ∈ l → ∃ n, l.foldlM step c = .error n
  | [], _, h => nomatch h
  | o :: l, c, h => by
    rw [List.foldlM_cons]
    cases e : step c o with
    | error n => exact ⟨n, rfl⟩
    | ok c' =>
      refine fold_stop hs l c' ?_
      rcases List.mem_cons.1 h with rfl | h
      · rw [hs] at e
        cases e
      · exact h

/-- **C139.**  A command line of `ulpatch` with `--info`, `-h`, `-V` or `--map-pfx` somewhere among its options
does nothing at all, whatever else it asks for. -/
theorem C139_ulpatch_info (M : Machine) (s : System) {posix : Bool} {ws : List Word} {os : List AOpt} (c : Circ)
    (h : Prog.ulpatch.Spelled posix ws os) (hi : .info ∈ os ∨ .own (.stop 0) ∈ os) :
    ∃ n, type M s (.ulpatch posix ws c) = some (s, .status n) := by
  rw [means_type M s (.ulpatch c h)]
  have hm : Opt.stop 0 ∈ os.map plain := by
    rcases hi with hi | hi
    · exact List.mem_map.2 ⟨_, hi, rfl⟩
    · exact List.mem_map.2 ⟨_, hi, rfl⟩
  obtain ⟨n, e⟩ := fold_stop (step := Cli.patchOpt) (fun _ => rfl) (os.map plain) {} hm
  refine ⟨n, ?_⟩
  unfold step Sys.ulpatch
  dsimp only
  rw [e]

/-- **C139.**  The same for `ulftrace`. -/
theorem C139_ulftrace_info (M : Machine) (s : System) {posix : Bool} {ws : List Word} {os : List AOpt} (c : Circ)
    (h : Prog.ulftrace.Spelled posix ws os) (hi : .info ∈ os ∨ .own (.stop 0) ∈ os) :
    ∃ n, type M s (.ulftrace posix ws c) = some (s, .status n) := by
  rw [means_type M s (.ulftrace c h)]
  have hm : Opt.stop 0 ∈ os.map plain := by
    rcases hi with hi | hi
    · exact List.mem_map.2 ⟨_, hi, rfl⟩
    · exact List.mem_map.2 ⟨_, hi, rfl⟩
  obtain ⟨n, e⟩ := fold_stop (step := Cli.traceOpt) (fun _ => rfl) (os.map plain) {} hm
  refine ⟨n, ?_⟩
  unfold step Sys.ulftrace Cli.traceParse
  dsimp only
  rw [e]
  rfl

/-- **C139**, all sessions: at the end there are the processes that have begun and have not ended; each is as the
command lines that mean this process make it, since it began, and they ended as told. -/
theorem C139_processes (M : Machine) {s t : System} {ls : List Line} {vs : List Ev} {os : List Out} (hm : AllMean ls vs)
    (hv : ∀ v ∈ vs, v.plain = true) (h : types M s ls = some (t, os)) (p : BitVec 32) :
    (life s p vs = none → t.procs p = none) ∧
    ∀ w cs, life s p vs = some (w, cs) → ∃ w' rs, t.procs p = some w' ∧ runFiles M w cs = some (w', rs) ∧
      told s p (vs.zip os) = rs.map .status :=
  C128_processes M hv (C139_means M hm s ▸ h) p

/-! ### Patched, and taken out again -/

theorem onProc_zero {M : Machine} {s t : System} {c : Circ} {p : BitVec 32} {w : Patch.World} {fail : Int} {x : FileCmd}
    (hf : fail ≠ 0) (h : onProc M s c p w fail x = some (t, .status 0)) :
    c.starts = true ∧ c.opens = true ∧ ∃ w', runFile M w x = some (w', 0) ∧ t = setProc s p w' := by
  unfold onProc at h
  by_cases h1 : c.starts = false
  · rw [if_pos h1] at h
    cases h
  · rw [if_neg h1] at h
    by_cases h2 : c.opens = false
    · rw [if_pos h2] at h
      injection h with h
      injection h with _ h
      injection h with h
      exact absurd h hf
    · rw [if_neg h2] at h
      refine ⟨by simpa using h1, by simpa using h2, ?_⟩
      cases hr : runFile M w x with
      | none => rw [hr] at h; cases h
      | some y =>
        rw [hr] at h
        injection h with h
        injection h with e h
        injection h with h
        exact ⟨y.1, by rw [← h], e.symm⟩

/-- The command that a command line of `ulpatch` is on its process. -/
def IsCmd (s : System) (c : Circ) : Opt → FileCmd → Prop
  | .unpatch, x => x = .unpatch c.rd c.d
  | .patch f, x => ∃ b, s.files f = some b ∧ x = .patch c.rd c.hdr c.find c.now (b.take (b.length % 2 ^ 32)) c.e
  | _, _ => False

theorem setProc_self (s : System) (p : BitVec 32) (w : Patch.World) : (setProc s p w).procs p = some w := by
  unfold setProc
  exact if_pos rfl

/-- Status 0 tells that the command was carried out. -/
theorem zero {M : Machine} {s t : System} {opts : List Opt} {c : Circ} {p : BitVec 32} {x : Opt}
    (hall : ∀ o ∈ opts, o.ofPatch = true) (hpid : pidOf opts = some p) (hcmd : lastCmd opts = some x)
    (hpl : Ev.plain (.ulpatch opts c) = true) (h : Sys.ulpatch M s opts c = some (t, .status 0)) :
    ∃ cmd w w', Ev.own s p (.ulpatch opts c) = some cmd ∧ s.procs p = some w ∧ runFile M w cmd = some (w', 0) ∧
      t.procs p = some w' ∧ IsCmd s c x cmd := by
  unfold Sys.ulpatch at h
  obtain ⟨g, hg⟩ := (Cli.patch_fold opts {}).2 hall
  obtain ⟨-, k1, k2⟩ := (Cli.patch_fold opts {}).1 g hg
  rw [hg] at h
  dsimp only at h
  have hgp : g.pid = p := by
    unfold pidOf at hpid
    cases hl : Cli.lastPid opts with
    | none => rw [hl] at hpid; cases hpid
    | some y =>
      rw [hl] at hpid k2
      cases y <;> first | (cases hpid; done) | skip
      injection hpid with hpid
      exact k2.trans hpid
  by_cases h1 : g.cmd = .none
  · rw [if_pos h1] at h; cases h
  rw [if_neg h1] at h
  by_cases h2 : g.pid = -1
  · rw [if_pos h2] at h; cases h
  rw [if_neg h2] at h
  rw [hgp] at h h2
  cases hw : s.procs p with
  | none => rw [hw] at h; cases h
  | some w =>
    rw [hw] at h
    dsimp only at h
    have hx : x.isCmd = true := (List.mem_filter.1 (List.mem_of_getLast? hcmd)).2
    rw [hcmd] at k1
    cases x <;> first | (cases hx; done) | skip
    case unpatch =>
      have k : g.cmd = .unpatch := k1
      rw [if_pos k] at h
      obtain ⟨s1, s2, w', e1, e2⟩ := onProc_zero (by decide) h
      refine ⟨_, w, w', ?_, rfl, e1, by rw [e2, setProc_self], rfl⟩
      unfold Ev.own
      dsimp only
      rw [if_pos ⟨hall, hpid, h2, s1, s2⟩, hcmd]
    case patch f =>
      obtain ⟨ka, kb⟩ : g.cmd = .patch ∧ g.file = some f := k1
      rw [if_neg (by rw [ka]; exact nofun), kb] at h
      have hne : f ≠ PFile.tempUlp := by
        intro he
        unfold Ev.plain at hpl
        dsimp only at hpl
        rw [hcmd, he] at hpl
        simp at hpl
      cases hck : (check s c (some f)).1 with
      | error z => rw [hck] at h; cases h
      | ok n =>
        rw [hck] at h
        dsimp only at h
        by_cases hn : n ≠ 0
        · rw [if_pos hn] at h; cases h
        rw [if_neg hn] at h
        have hfile : (check s c (some f)).2.files f = s.files f := (check_same s c (some f)).1.files f hne
        have hcon : contents (check s c (some f)).2 (some f) = (s.files f).map fun b => b.take (b.length % 2 ^ 32) := by
          unfold contents
          dsimp only
          rw [hfile]
        rw [hcon] at h
        cases hb : s.files f with
        | none => rw [hb] at h; cases h
        | some b =>
          rw [hb] at h
          obtain ⟨s1, s2, w', e1, e2⟩ := onProc_zero (by decide) h
          refine ⟨_, w, w', ?_, rfl, e1, by rw [e2, setProc_self], b, hb, rfl⟩
          have hpass : passes s c f = true := by
            unfold passes
            rw [hck]
            exact decide_eq_true (Decidable.not_not.1 hn)
          unfold Ev.own
          dsimp only
          rw [if_pos ⟨hall, hpid, h2, s1, s2⟩, hcmd]
          dsimp only
          rw [if_pos hpass, hb]
          rfl

section
variable {M : Machine} {width : Nat → Nat} {value : Nat → BitVec 64 → BitVec 64 → BitVec 64 → Option (Nat × BitVec 64)}

theorem good_snoc {R : Addr → Prop} {x : FileCmd} : ∀ {cs : List FileCmd} {w : Patch.World}, GoodFiles M width R w (cs ++ [x]) →
    GoodFiles M width R w cs ∧ ∀ w1 rs, runFiles M w cs = some (w1, rs) → GoodFile width R w1 x := by
  intro cs
  induction cs with
  | nil =>
    intro w h
    refine ⟨trivial, fun w1 rs hr => ?_⟩
    cases hr
    exact h.1
  | cons c cs ih =>
    intro w h
    refine ⟨⟨h.1, fun w' r hr => (ih (h.2 w' r hr)).1⟩, fun w1 rs hr => ?_⟩
    unfold runFiles at hr
    cases h1 : runFile M w c with
    | none => rw [h1] at hr; cases hr
    | some y =>
      rw [h1] at hr
      dsimp only at hr
      cases h2 : runFiles M y.1 cs with
      | none => rw [h2] at hr; cases hr
      | some z =>
        rw [h2] at hr
        cases hr
        exact (ih (h.2 y.1 y.2 h1)).2 _ _ h2

/-- A process in a session, before and after one more command line of `ulpatch` that ends with 0. -/
theorem one_more {R : BitVec 32 → Patch.World → Addr → Prop} {s t1 t2 : System} {vs : List Ev}
    {os1 : List Out} {opts : List Opt} {c : Circ} {p : BitVec 32} {x : Opt}
    (hall : ∀ o ∈ opts, o.ofPatch = true) (hpid : pidOf opts = some p) (hcmd : lastCmd opts = some x)
    (hg : GoodLives M width R s (vs ++ [.ulpatch opts c]))
    (h1 : run M s vs = some (t1, os1)) (h2 : Sys.ulpatch M t1 opts c = some (t2, .status 0)) :
    ∃ w cs cmd w1 w2 n, life s p vs = some (w, cs) ∧ life s p (vs ++ [.ulpatch opts c]) = some (w, cs ++ [cmd]) ∧
      t1.procs p = some w1 ∧ t2.procs p = some w2 ∧ IsCmd s c x cmd ∧
      runFiles M w cs = some (w1, n) ∧ runFile M w1 cmd = some (w2, 0) ∧ w.maps = [] ∧ cs.length + 1 < 2 ^ 32 ∧
      GoodFiles M width (R p w) w cs ∧ GoodFile width (R p w) w1 cmd := by
  obtain ⟨hv, hg⟩ := hg
  have hv1 : ∀ v ∈ vs, v.plain = true := fun v h => hv v (List.mem_append_left _ h)
  have hpl := hv (.ulpatch opts c) (List.mem_append_right _ (List.mem_singleton.2 rfl))
  obtain ⟨cmd, w1, w2, e1, e2, e3, e4, e5⟩ := zero hall hpid hcmd hpl h2
  obtain ⟨hs, ha⟩ := run_agree vs.length vs rfl hv1 t1 os1 h1
  have e1' : Ev.own s p (.ulpatch opts c) = some cmd := (own_congr hs p hpl).symm.trans e1
  have hx : x.isCmd = true := (List.mem_filter.1 (List.mem_of_getLast? hcmd)).2
  have e5' : IsCmd s c x cmd := by
    cases x <;> first | (cases hx; done) | skip
    case unpatch => exact e5
    case patch f =>
      obtain ⟨b, hb, e⟩ := e5
      refine ⟨b, ?_, e⟩
      rw [← hs.files f ?_]
      · exact hb
      · intro he
        unfold Ev.plain at hpl
        dsimp only at hpl
        rw [hcmd, he] at hpl
        simp [PFile.tempUlp] at hpl
  have ha := ha p
  rw [e2] at ha
  cases hl : life s p vs with
  | none =>
    rw [hl] at ha
    cases ha
  | some y =>
    obtain ⟨w, cs⟩ := y
    rw [hl] at ha
    obtain ⟨w1', n, q1, q2, -⟩ := ha
    cases q1
    have hl2 : life s p (vs ++ [.ulpatch opts c]) = some (w, cs ++ [cmd]) := by
      rw [life_snoc, hl, ex_life, e1']
      rfl
    obtain ⟨g1, g2, g3⟩ := hg _ (List.prefix_refl _) p _ _ hl2
    obtain ⟨g4, g5⟩ := good_snoc g3
    rw [List.length_append, List.length_singleton] at g2
    exact ⟨w, cs, cmd, w1, w2, n, rfl, hl2, e2, e4, e5', q2, e3, g1, g2, g4, g5 _ _ q2⟩

/-- One good command, from the patches before it to those after it. -/
theorem one_cmd (hM : Links M width value) {R : Addr → Prop} {base : Mem} {n : Nat} {w1 w2 : Patch.World} {r : Int} {st : List LiveFile} {x : FileCmd}
    (h : FInv width value R base n w1 st) (hn : n + 1 < 2 ^ 32) (hg : GoodFile width R w1 x) (hr : runFile M w1 x = some (w2, r)) :
    ∃ st', Does st x r st' ∧ w2.arch = w1.arch ∧ FInv width value R base (n + 1) w2 st' := by
  obtain ⟨w, rs, st', f1, f2, f3, f4⟩ := files_inv hM [x] h (by rw [List.length_singleton]; omega)
    (show GoodFiles M width R w1 [x] from ⟨hg, fun _ _ _ => trivial⟩)
  unfold runFiles at f1
  rw [hr] at f1
  cases f1
  cases f3 with
  | cons d k =>
    cases k
    exact ⟨_, d, f2, f4⟩

theorem patched (hM : Links M width value) {R : BitVec 32 → Patch.World → Addr → Prop} {s t1 t2 : System} {ls : List Line} {vs : List Ev}
    {os1 : List Out} {posix : Bool} {ws : List Word} {os : List AOpt} {c : Circ} {p : BitVec 32} {f : PFile.Path}
    (hm : AllMean ls vs) (ho : Orders posix ws os p (.patch f)) (hg : GoodLives M width R s (vs ++ [.ulpatch (os.map plain) c]))
    (h1 : types M s ls = some (t1, os1)) (h2 : type M t1 (.ulpatch posix ws c) = some (t2, .status 0)) :
    ∃ w cs w2 b v st, life s p vs = some (w, cs) ∧ t2.procs p = some w2 ∧ w2.arch = w.arch ∧ s.files f = some b ∧
      v.file = b.take (b.length % 2 ^ 32) ∧ v.find = c.find ∧ v.active = true ∧ Holds width value (R p w) w.mem w2 (v :: st) := by
  obtain ⟨o1, o2, o3, o4⟩ := ho
  rw [C139_means M hm] at h1
  rw [means_type M t1 (.ulpatch c o1)] at h2
  obtain ⟨w, cs, cmd, w1, w2, n, e1, -, -, e3, ⟨b, hb, rfl⟩, e5, e6, e7, e8, e9, e10⟩ := one_more o2 o3 o4 hg h1 h2
  obtain ⟨w1', n', st1, f1, f2, -, f4⟩ := files_inv hM cs (FInv.init (R p w) w e7) (by omega) e9
  rw [e5] at f1
  cases f1
  obtain ⟨st2, k1, k2, k3⟩ := one_cmd hM f4 (by omega) e10 e6
  cases k1 with
  | patched hgv =>
    rename_i v
    obtain ⟨_, _, _, e, -, -, ea⟩ := hgv
    injection e with _ _ q1 _ q2
    exact ⟨w, cs, w2, b, v, st1, e1, e3, k2.trans f2, hb, q2.symm, q1.symm, ea, k3.holds⟩
  | refused hr => exact absurd rfl hr
end

/-- **C139**, x86_64.  In any session of command lines, on any processes, in which files and system calls are good:
when a command line with the process `p` and `--patch f`, however it is written, ends with status 0, the
process `p` has the contents of `f` as a whole, linked patch, and a thread of `p` that comes to the function
the patch replaces goes on in the function of the patch.

Missing, as in `C119_x86_partial`: partial transfers, failing clean-up and unreadable live patches, where the
program violates it. -/
theorem C139_x86_patched_partial {R : BitVec 32 → Patch.World → Addr → Prop} {s t1 t2 : System} {ls : List Line} {vs : List Ev}
    {os1 : List Out} {posix : Bool} {ws : List Word} {os : List AOpt} {c : Circ} {p : BitVec 32} {f : PFile.Path}
    (hm : AllMean ls vs) (ho : Orders posix ws os p (.patch f))
    (hg : GoodLives x86 Psabi.x86Width R s (vs ++ [.ulpatch (os.map plain) c]))
    (h1 : types x86 s ls = some (t1, os1)) (h2 : type x86 t1 (.ulpatch posix ws c) = some (t2, .status 0)) :
    ∃ w2 b v, t2.procs p = some w2 ∧ s.files f = some b ∧ v.file = b.take (b.length % 2 ^ 32) ∧ v.find = c.find ∧
      LiveFile.In Psabi.x86Width Psabi.x86 w2.mem v ∧
      (w2.arch = .x86_64 → ∀ cpu : X86.Cpu, cpu.rip = v.target → cpu.mem = w2.mem → X86.step cpu = some { cpu with rip := v.entry }) := by
  obtain ⟨w, cs, w2, b, v, st, -, e2, e3, e4, e5, e6, e7, e8⟩ := patched links_x86 hm ho hg h1 h2
  refine ⟨w2, b, v, e2, e4, e5, e6, e8.whole v List.mem_cons_self, fun ha cpu hc hmem => ?_⟩
  exact C119_x86_runs e8 ha (newer := []) rfl e7 (fun u hu => by cases hu) cpu hc hmem

/-- C139, aarch64. -/
theorem C139_a64_patched_partial (junk : Bool) {R : BitVec 32 → Patch.World → Addr → Prop} {s t1 t2 : System} {ls : List Line} {vs : List Ev}
    {os1 : List Out} {posix : Bool} {ws : List Word} {os : List AOpt} {c : Circ} {p : BitVec 32} {f : PFile.Path}
    (hm : AllMean ls vs) (ho : Orders posix ws os p (.patch f))
    (hg : GoodLives (a64 junk) Psabi.a64Width R s (vs ++ [.ulpatch (os.map plain) c]))
    (h1 : types (a64 junk) s ls = some (t1, os1)) (h2 : type (a64 junk) t1 (.ulpatch posix ws c) = some (t2, .status 0)) :
    ∃ w2 b v, t2.procs p = some w2 ∧ s.files f = some b ∧ v.file = b.take (b.length % 2 ^ 32) ∧ v.find = c.find ∧
      LiveFile.In Psabi.a64Width Psabi.a64Data w2.mem v ∧
      (w2.arch = .aarch64 → ∀ cpu : A64.Cpu, cpu.pc = v.target → cpu.mem = w2.mem →
        A64.steps 2 cpu = some { pc := v.entry, x := fun i => if i = 17 then v.entry else cpu.x i, mem := cpu.mem }) := by
  obtain ⟨w, cs, w2, b, v, st, -, e2, e3, e4, e5, e6, e7, e8⟩ := patched (links_a64 junk) hm ho hg h1 h2
  refine ⟨w2, b, v, e2, e4, e5, e6, e8.whole v List.mem_cons_self, fun ha cpu hc hmem => ?_⟩
  exact C119_a64_runs e8 ha (newer := []) rfl e7 (fun u hu => by cases hu) cpu hc hmem

theorem back {M : Machine} {width : Nat → Nat} {value : Nat → BitVec 64 → BitVec 64 → BitVec 64 → Option (Nat × BitVec 64)}
    (hM : Links M width value) {R : BitVec 32 → Patch.World → Addr → Prop} {s t1 t2 t3 : System} {ls : List Line} {vs : List Ev}
    {os1 : List Out} {posix posix' : Bool} {ws ws' : List Word} {os os' : List AOpt} {c c' : Circ} {p : BitVec 32} {f : PFile.Path}
    (hm : AllMean ls vs) (ho : Orders posix ws os p (.patch f)) (ho' : Orders posix' ws' os' p .unpatch)
    (hg : GoodLives M width R s (vs ++ [.ulpatch (os.map plain) c] ++ [.ulpatch (os'.map plain) c']))
    (h1 : types M s ls = some (t1, os1)) (h2 : type M t1 (.ulpatch posix ws c) = some (t2, .status 0))
    (h3 : type M t2 (.ulpatch posix' ws' c') = some (t3, .status 0)) :
    ∃ w cs w1 w3, life s p vs = some (w, cs) ∧ t1.procs p = some w1 ∧ t3.procs p = some w3 ∧
      ∀ x, ¬ R p w x → w3.mem x = w1.mem x := by
  obtain ⟨o1, o2, o3, o4⟩ := ho
  obtain ⟨u1, u2, u3, u4⟩ := ho'
  rw [C139_means M hm] at h1
  rw [means_type M t1 (.ulpatch c o1)] at h2
  rw [means_type M t2 (.ulpatch c' u1)] at h3
  have hg1 : GoodLives M width R s (vs ++ [.ulpatch (os.map plain) c]) :=
    ⟨fun v h => hg.1 v (List.mem_append_left _ h), fun us h => hg.2 us (h.trans (List.prefix_append _ _))⟩
  have hr2 : run M s (vs ++ [.ulpatch (os.map plain) c]) = some (t2, os1 ++ [.status 0]) := by
    rw [run_snoc, h1]
    show (step M t1 _).map _ = _
    rw [h2]
    rfl
  obtain ⟨w, cs, cmd, w1, w2, n, e1, el, ep, e3, ⟨b, hb, rfl⟩, e5, e6, e7, e8, e9, e10⟩ := one_more o2 o3 o4 hg1 h1 h2
  obtain ⟨w', cs', cmd', w2', w3, n', a1, -, a3, a4, rfl, a5, a6, -, a8, -, a10⟩ := one_more u2 u3 u4 hg hr2 h3
  rw [el] at a1
  cases a1
  rw [e3] at a3
  cases a3
  obtain ⟨w1', n1, st1, f1, f2, -, f4⟩ := files_inv hM cs (FInv.init (R p w) w e7) (by omega) e9
  rw [e5] at f1
  cases f1
  obtain ⟨st2, k1, k2, k3⟩ := one_cmd hM f4 (by omega) e10 e6
  rw [List.length_append, List.length_singleton] at a8
  obtain ⟨st3, j1, j2, j3⟩ := one_cmd hM k3 (by omega) a10 a6
  have hst : st3 = st1 := by
    cases k1 with
    | patched hgv =>
      cases j1 with
      | unpatched => rfl
      | failed hr => exact absurd rfl hr
      | gone hr => exact absurd rfl hr
      | stays hr => exact absurd rfl hr
      | patched hgv => obtain ⟨_, _, _, e, -⟩ := hgv; cases e
    | refused hr => exact absurd rfl hr
  subst hst
  refine ⟨w, cs, w1, w3, e1, ep, a4, fun x hx => ?_⟩
  rw [f4.holds.code x hx, j3.holds.code x hx, j2, k2]

/-- **C139**, x86_64.  A command line with `--patch` and one with `--unpatch` for the same process, however they
are written, that both end with status 0, in any good session: outside of the memory for patches the process has
again the contents that it had before the two. -/
theorem C139_x86_back_partial {R : BitVec 32 → Patch.World → Addr → Prop} {s t1 t2 t3 : System} {ls : List Line} {vs : List Ev}
    {os1 : List Out} {posix posix' : Bool} {ws ws' : List Word} {os os' : List AOpt} {c c' : Circ} {p : BitVec 32} {f : PFile.Path}
    (hm : AllMean ls vs) (ho : Orders posix ws os p (.patch f)) (ho' : Orders posix' ws' os' p .unpatch)
    (hg : GoodLives x86 Psabi.x86Width R s (vs ++ [.ulpatch (os.map plain) c] ++ [.ulpatch (os'.map plain) c']))
    (h1 : types x86 s ls = some (t1, os1)) (h2 : type x86 t1 (.ulpatch posix ws c) = some (t2, .status 0))
    (h3 : type x86 t2 (.ulpatch posix' ws' c') = some (t3, .status 0)) :
    ∃ w cs w1 w3, life s p vs = some (w, cs) ∧ t1.procs p = some w1 ∧ t3.procs p = some w3 ∧
      ∀ x, ¬ R p w x → w3.mem x = w1.mem x :=
  back links_x86 hm ho ho' hg h1 h2 h3

/-- C139, aarch64. -/
theorem C139_a64_back_partial (junk : Bool) {R : BitVec 32 → Patch.World → Addr → Prop} {s t1 t2 t3 : System} {ls : List Line} {vs : List Ev}
    {os1 : List Out} {posix posix' : Bool} {ws ws' : List Word} {os os' : List AOpt} {c c' : Circ} {p : BitVec 32} {f : PFile.Path}
    (hm : AllMean ls vs) (ho : Orders posix ws os p (.patch f)) (ho' : Orders posix' ws' os' p .unpatch)
    (hg : GoodLives (a64 junk) Psabi.a64Width R s (vs ++ [.ulpatch (os.map plain) c] ++ [.ulpatch (os'.map plain) c']))
    (h1 : types (a64 junk) s ls = some (t1, os1)) (h2 : type (a64 junk) t1 (.ulpatch posix ws c) = some (t2, .status 0))
    (h3 : type (a64 junk) t2 (.ulpatch posix' ws' c') = some (t3, .status 0)) :
    ∃ w cs w1 w3, life s p vs = some (w, cs) ∧ t1.procs p = some w1 ∧ t3.procs p = some w3 ∧
      ∀ x, ¬ R p w x → w3.mem x = w1.mem x :=
  back (links_a64 junk) hm ho ho' hg h1 h2 h3

/-- **C139**, x86_64: the end of any good session of command lines, in every process. -/
theorem C139_x86_partial (R : BitVec 32 → Patch.World → Addr → Prop) (s : System) {ls : List Line} {vs : List Ev} (hm : AllMean ls vs)
    (hg : GoodLives x86 Psabi.x86Width R s vs) :
    ∃ t os, types x86 s ls = some (t, os) ∧ ∀ p,
      (life s p vs = none → t.procs p = none) ∧
      ∀ w cs, life s p vs = some (w, cs) → ∃ w' rs st, t.procs p = some w' ∧ told s p (vs.zip os) = rs.map .status ∧
        w'.arch = w.arch ∧ AllDo [] cs rs st ∧ Holds Psabi.x86Width Psabi.x86 (R p w) w.mem w' st := by
  rw [C139_means x86 hm]
  exact C128_x86_partial R s vs hg

/-- C139, aarch64. -/
theorem C139_a64_partial (junk : Bool) (R : BitVec 32 → Patch.World → Addr → Prop) (s : System) {ls : List Line} {vs : List Ev} (hm : AllMean ls vs)
    (hg : GoodLives (a64 junk) Psabi.a64Width R s vs) :
    ∃ t os, types (a64 junk) s ls = some (t, os) ∧ ∀ p,
      (life s p vs = none → t.procs p = none) ∧
      ∀ w cs, life s p vs = some (w, cs) → ∃ w' rs st, t.procs p = some w' ∧ told s p (vs.zip os) = rs.map .status ∧
        w'.arch = w.arch ∧ AllDo [] cs rs st ∧ Holds Psabi.a64Width Psabi.a64Data (R p w) w.mem w' st := by
  rw [C139_means (a64 junk) hm]
  exact C128_a64_partial junk R s vs hg

/-! ### The hypotheses are met -/

/-- `ulpatch -p7 --patch p.ulp` -/
def ws1 : List Word := [lit "-p7", lit "--patch", lit "p.ulp"]
/-- `ulpatch --pat=p.ulp notes.txt --pid 8` -/
def ws2 : List Word := [lit "--pat=p.ulp", lit "notes.txt", lit "--pid", lit "8"]
/-- `ulpatch --unpatch -p 8 -- x` -/
def ws4 : List Word := [lit "--unpatch", lit "-p", lit "8", lit "--", lit "x"]

theorem sp1 : Prog.ulpatch.Spelled false ws1 [.own (.pid (lit "7")), .own (.patch (lit "p.ulp"))] := by
  refine .opts (xs := [lit "-p7"]) (os := [.own (.pid (lit "7"))])
    (.letterArg (f := fun a => .own (.pid a)) (cs := []) (c := 112) (lit "7") .nil (Getopt.mem_doc 0 rfl) rfl rfl (by decide)) ?_
  refine .opts (xs := [lit "--patch", lit "p.ulp"]) (os := [.own (.patch (lit "p.ulp"))])
    (.nameArg (f := fun a => .own (.patch a)) (lit "p.ulp") (Getopt.mem_doc 1 rfl) (.inl (List.mem_singleton.mpr rfl)) rfl) ?_
  exact .done

theorem me1 : Means (.ulpatch false ws1 exCirc) ex1 := .ulpatch exCirc sp1

theorem sp2 : Prog.ulpatch.Spelled false ws2 [.own (.patch (lit "p.ulp")), .own (.pid (lit "8"))] := by
  refine .opts (xs := [lit "--pat=p.ulp"]) (os := [.own (.patch (lit "p.ulp"))])
    (.nameEq (f := fun a => .own (.patch a)) (n := lit "pat") (lit "p.ulp") (Getopt.mem_doc 1 rfl)
      (.inr ⟨⟨lit "patch", List.mem_singleton.mpr rfl, by decide⟩, by decide +kernel⟩) rfl) ?_
  refine .word rfl (.inr (by decide)) ?_
  refine .opts (xs := [lit "--pid", lit "8"]) (os := [.own (.pid (lit "8"))])
    (.nameArg (f := fun a => .own (.pid a)) (lit "8") (Getopt.mem_doc 0 rfl) (.inl (List.mem_singleton.mpr rfl)) rfl) ?_
  exact .done

theorem me2 : Means (.ulpatch false ws2 exCirc) ex2 := .ulpatch exCirc sp2

theorem sp4 : Prog.ulpatch.Spelled false ws4 [.own .unpatch, .own (.pid (lit "8"))] := by
  refine .opts (xs := [lit "--unpatch"]) (os := [.own .unpatch])
    (.name (n := lit "unpatch") (Getopt.mem_doc 2 rfl) (.inl (List.mem_singleton.mpr rfl)) rfl) ?_
  refine .opts (xs := [lit "-p", lit "8"]) (os := [.own (.pid (lit "8"))])
    (.letterSep (f := fun a => .own (.pid a)) (cs := []) (os := []) (c := 112) (lit "8") .nil (Getopt.mem_doc 0 rfl) rfl rfl) ?_
  exact .dashes _

theorem me4 : Means (.ulpatch false ws4 exCirc) ex4 := .ulpatch exCirc sp4

def off : FileCmd := .unpatch Patch.allOk ⟨.ok, some 16, .done⟩

theorem sh_step1 (p : BitVec 32) (l : Option (Patch.World × List FileCmd)) :
    lifeStep exSys p l ex1 = if p = 7 then l.map fun y => (y.1, y.2 ++ [fhPatch pfEnv]) else l := by
  have := ex_own1 p
  unfold ex1 at this ⊢
  rw [ex_life, this]
  by_cases hp : p = 7
  · rw [if_pos hp, if_pos hp]
  · rw [if_neg hp, if_neg hp]

theorem sh_step2 (p : BitVec 32) (l : Option (Patch.World × List FileCmd)) :
    lifeStep exSys p l ex2 = if p = 8 then l.map fun y => (y.1, y.2 ++ [fhPatch pfEnv]) else l := by
  have := ex_own2 p
  unfold ex2 at this ⊢
  rw [ex_life, this]
  by_cases hp : p = 8
  · rw [if_pos hp, if_pos hp]
  · rw [if_neg hp, if_neg hp]

theorem sh_step4 (p : BitVec 32) (l : Option (Patch.World × List FileCmd)) :
    lifeStep exSys p l ex4 = if p = 8 then l.map fun y => (y.1, y.2 ++ [off]) else l := by
  have := ex_own4 p
  unfold ex4 at this ⊢
  rw [ex_life, this]
  by_cases hp : p = 8
  · rw [if_pos hp, if_pos hp]
    rfl
  · rw [if_neg hp, if_neg hp]

theorem sh_procs (p : BitVec 32) :
    (exSys.procs p).map (fun w => (w, ([] : List FileCmd))) = if p = 7 ∨ p = 8 then some (fhWorld, []) else none := by
  show (if p = 7 ∨ p = 8 then some fhWorld else none).map _ = _
  by_cases hp : p = 7 ∨ p = 8
  · rw [if_pos hp, if_pos hp]
    rfl
  · rw [if_neg hp, if_neg hp]
    rfl

theorem sh_good : GoodLives x86 Psabi.x86Width (fun _ _ => fhR) exSys ([ex1] ++ [ex2] ++ [ex4]) := by
  refine ⟨?_, ?_⟩
  · intro v hv
    unfold ex1 ex2 ex4 at hv
    simp only [List.mem_append, List.mem_cons, List.not_mem_nil, or_false] at hv
    rcases hv with (rfl | rfl) | rfl
    all_goals
      unfold Ev.plain
      decide +kernel
  · intro us hus p w cs h
    have key : w = fhWorld ∧ (cs = [] ∨ cs = [fhPatch pfEnv] ∨ cs = [fhPatch pfEnv, off]) := by
      unfold life at h
      rw [sh_procs] at h
      have hlen : us.length ≤ 3 := hus.length_le
      rw [List.prefix_iff_eq_take.1 hus] at h
      generalize us.length = k at h hlen
      match k, hlen with
      | 0, _ | 1, _ | 2, _ | 3, _ =>
        simp only [List.cons_append, List.nil_append, List.take, List.foldl, sh_step1, sh_step2, sh_step4] at h
        by_cases h7 : p = 7
        · subst h7
          simp at h
          simp [← h.1, ← h.2]
        by_cases h8 : p = 8
        · subst h8
          simp at h
          simp [← h.1, ← h.2]
        · have hn : ¬ (p = 7 ∨ p = 8) := by
            rintro (h | h) <;> contradiction
          simp only [if_neg hn, if_neg h7, if_neg h8] at h
          cases h
    obtain ⟨hw, hc⟩ := key
    clear h
    subst hw
    refine ⟨rfl, ?_⟩
    rcases hc with rfl | rfl | rfl
    · exact ⟨by decide, trivial⟩
    · exact ⟨by show 1 < _; decide, fh_first⟩
    · exact ⟨by show 2 < _; decide, fh_first.1, fun w r _ => ⟨⟨fun _ => rfl, .inr (.inr ⟨16, by decide, rfl⟩)⟩, fun _ _ _ => trivial⟩⟩

theorem sh_told (p : BitVec 32) (o1 o2 o3 : Out) : told exSys p (([ex1] ++ [ex2] ++ [ex4]).zip ([o1] ++ [o2] ++ [o3])) =
    (if p = 7 then [o1] else []) ++ (if p = 8 then [o2, o3] else []) := by
  show told exSys p ([] ++ [(ex1, o1)] ++ [(ex2, o2)] ++ [(ex4, o3)]) = _
  have q1 := ex_own1 p
  have q2 := ex_own2 p
  have q4 := ex_own4 p
  unfold ex1 at q1 ⊢
  unfold ex2 at q2 ⊢
  unfold ex4 at q4 ⊢
  rw [told_snoc, told_snoc, told_snoc]
  dsimp only
  rw [q1, q2, q4]
  by_cases h7 : p = 7
  · subst h7
    rfl
  · by_cases h8 : p = 8
    · subst h8
      rfl
    · simp only [if_neg h7, if_neg h8]
      rfl

theorem sh_life7 : life exSys 7 ([ex1] ++ [ex2] ++ [ex4]) = some (fhWorld, [fhPatch pfEnv]) := by
  unfold life
  rw [sh_procs]
  simp only [List.cons_append, List.nil_append, List.foldl, sh_step1, sh_step2, sh_step4]
  rfl

theorem sh_life8 : life exSys 8 ([ex1] ++ [ex2] ++ [ex4]) = some (fhWorld, [fhPatch pfEnv, off]) := by
  unfold life
  rw [sh_procs]
  simp only [List.cons_append, List.nil_append, List.foldl, sh_step1, sh_step2, sh_step4]
  rfl

theorem three {M : Machine} {s t : System} {a b c : Ev} {os : List Out} (h : run M s ([a] ++ [b] ++ [c]) = some (t, os)) :
    ∃ t1 o1 t2 o2 o3, run M s [a] = some (t1, [o1]) ∧ step M t1 b = some (t2, o2) ∧ step M t2 c = some (t, o3) ∧
      os = [o1] ++ [o2] ++ [o3] := by
  rw [run_snoc, run_snoc] at h
  have hr : run M s [a] = (step M s a).map fun z => (z.1, [z.2]) := by
    unfold run
    cases step M s a <;> rfl
  rw [hr] at h ⊢
  cases k1 : step M s a with
  | none => rw [k1] at h; cases h
  | some y1 =>
    rw [k1] at h
    change ((step M y1.1 b).map fun z => (z.1, [y1.2] ++ [z.2])).bind _ = _ at h
    cases k2 : step M y1.1 b with
    | none => rw [k2] at h; cases h
    | some y2 =>
      rw [k2] at h
      change ((step M y2.1 c).map fun z => (z.1, [y1.2] ++ [y2.2] ++ [z.2])) = _ at h
      cases k3 : step M y2.1 c with
      | none => rw [k3] at h; cases h
      | some y3 =>
        rw [k3] at h
        cases h
        exact ⟨_, _, _, _, _, rfl, k2, k3, rfl⟩

/-- The three command lines end with status 0. -/
theorem sh_runs : ∃ t1 t2 t3, types x86 exSys [.ulpatch false ws1 exCirc] = some (t1, [.status 0]) ∧
    type x86 t1 (.ulpatch false ws2 exCirc) = some (t2, .status 0) ∧
    type x86 t2 (.ulpatch false ws4 exCirc) = some (t3, .status 0) := by
  obtain ⟨w, v, e1, -, e2, -⟩ := jh_first
  obtain ⟨w3, r, e3, e4, -⟩ := unpatch_other e2 (w1 := w) rfl (rd := Patch.allOk) (fun _ => rfl) ⟨.ok, some 16, .done⟩ (M := x86)
  rw [e4 rfl] at e3
  unfold runStep at e1 e3
  dsimp only at e1 e3
  obtain ⟨t, os, hrun, -⟩ := C128_x86_partial (fun _ _ => fhR) exSys _ sh_good
  obtain ⟨t1, o1, t2, o2, o3, k1, k2, k3, rfl⟩ := three hrun
  obtain ⟨w7, r7, -, c7, d7⟩ := (C128_processes x86 sh_good.1 hrun 7).2 _ _ sh_life7
  obtain ⟨w8, r8, -, c8, d8⟩ := (C128_processes x86 sh_good.1 hrun 8).2 _ _ sh_life8
  have f7 : runFiles x86 fhWorld [fhPatch pfEnv] = some (w, [0]) := by
    unfold runFiles
    rw [e1]
    rfl
  have f8 : runFiles x86 fhWorld [fhPatch pfEnv, off] = some (w3, [0, 0]) := by
    unfold runFiles
    rw [e1]
    dsimp only
    unfold runFiles off
    rw [e3]
    rfl
  rw [f7] at c7
  rw [f8] at c8
  injection c7 with c7
  injection c7 with _ c7
  injection c8 with c8
  injection c8 with _ c8
  rw [sh_told 7, ← c7] at d7
  rw [sh_told 8, ← c8] at d8
  obtain rfl : o1 = .status 0 := by simpa using d7
  obtain ⟨rfl, rfl⟩ : o2 = .status 0 ∧ o3 = .status 0 := by simpa using d8
  refine ⟨t1, t2, t, ?_, ?_, ?_⟩
  · rw [C139_means x86 (.cons me1 .nil), k1]
  · rw [means_type x86 t1 me2, k2]
  · rw [means_type x86 t2 me4, k3]

/-- `-p7 --patch p.ulp` has been typed; then `--pat=p.ulp notes.txt --pid 8` redirects the function in process 8. -/
example : ∃ t1 t2 w2 v, types x86 exSys [.ulpatch false ws1 exCirc] = some (t1, [.status 0]) ∧
    type x86 t1 (.ulpatch false ws2 exCirc) = some (t2, .status 0) ∧ t2.procs 8 = some w2 ∧
    LiveFile.In Psabi.x86Width Psabi.x86 w2.mem v := by
  obtain ⟨t1, t2, t3, h1, h2, -⟩ := sh_runs
  have hg : GoodLives x86 Psabi.x86Width (fun _ _ => fhR) exSys ([ex1] ++ [ex2]) :=
    ⟨fun v h => sh_good.1 v (List.mem_append_left _ h), fun us h => sh_good.2 us (h.trans (List.prefix_append _ _))⟩
  obtain ⟨w2, b, v, k1, -, -, -, k2, -⟩ := C139_x86_patched_partial (p := 8) (f := lit "p.ulp") (.cons me1 .nil)
    ⟨sp2, by decide +kernel, by decide +kernel, by decide +kernel⟩ hg h1 h2
  exact ⟨t1, t2, w2, v, h1, h2, k1, k2⟩

/-- `--unpatch -p 8 -- x` then puts its code back. -/
example : ∃ t1 t2 t3 w1 w3, types x86 exSys [.ulpatch false ws1 exCirc] = some (t1, [.status 0]) ∧
    type x86 t1 (.ulpatch false ws2 exCirc) = some (t2, .status 0) ∧ type x86 t2 (.ulpatch false ws4 exCirc) = some (t3, .status 0) ∧
    t1.procs 8 = some w1 ∧ t3.procs 8 = some w3 ∧ ∀ x, ¬ fhR x → w3.mem x = w1.mem x := by
  obtain ⟨t1, t2, t3, h1, h2, h3⟩ := sh_runs
  obtain ⟨w, cs, w1, w3, -, k1, k2, k3⟩ := C139_x86_back_partial (p := 8) (f := lit "p.ulp") (.cons me1 .nil)
    ⟨sp2, by decide +kernel, by decide +kernel, by decide +kernel⟩ ⟨sp4, by decide +kernel, by decide +kernel, by decide +kernel⟩ sh_good h1 h2 h3
  exact ⟨t1, t2, t3, w1, w3, h1, h2, h3, k1, k2, k3⟩

theorem types_one {M : Machine} {s t : System} {l : Line} {o : Out} (h : types M s [l] = some (t, [o])) : type M s l = some (t, o) := by
  unfold types at h
  cases hh : type M s l with
  | none => rw [hh] at h; cases h
  | some y =>
    rw [hh] at h
    cases h
    rfl

/-- Process 7 has been changed by a command line that named it. -/
example : ∃ t1 o, type x86 exSys (.ulpatch false ws1 exCirc) = some (t1, o) ∧ t1.procs 7 ≠ exSys.procs 7 := by
  obtain ⟨t1, -, -, h1, -, -⟩ := sh_runs
  have h2 : type x86 exSys (.ulpatch false ws1 exCirc) = some (t1, .status 0) := types_one h1
  have hg : GoodLives x86 Psabi.x86Width (fun _ _ => fhR) exSys ([] ++ [ex1]) :=
    ⟨fun v h => sh_good.1 v (List.mem_append_left _ (List.mem_append_left _ h)), fun us h => sh_good.2 us (h.trans ((List.prefix_append _ _).trans (List.prefix_append _ _)))⟩
  obtain ⟨w, cs, w2, b, v, st, -, k2, -, -, -, -, -, k3⟩ := patched links_x86 (p := 7) (f := lit "p.ulp") .nil
    ⟨sp1, by decide +kernel, by decide +kernel, by decide +kernel⟩ hg rfl h2
  refine ⟨t1, _, h2, ?_⟩
  rw [k2]
  intro he
  have hw : w2 = fhWorld := Option.some.inj he
  have hm : v.mapping ∈ w2.maps := k3.maps.mem_iff.1 List.mem_cons_self
  rw [hw] at hm
  cases hm

/-- The object that is installed is the patch file of the other examples. -/
def trSys : System := ⟨fun _ => none, fun p => if p = 7 then some pfWorld else none, exSys.objPath, lkFile⟩

theorem tr_proc : trSys.procs 7 = some pfWorld := by
  show (if (7 : BitVec 32) = 7 then some pfWorld else none) = _
  exact if_pos rfl

/-- `ulftrace -p7 -f printf`, where the object that is installed has a replacement for a function of the process. -/
example : ∃ (s t : System) (o : Out), type x86 s (.ulftrace false [lit "-p7", lit "-f", lit "printf"] exCirc) = some (t, o) ∧
    t.procs 7 ≠ s.procs 7 := by
  obtain ⟨w1, h, hcpu⟩ := tr_installed
  have ho : optsOf (Prog.ulftrace.cases false [lit "-p7", lit "-f", lit "printf"]) = some [.pid (lit "7"), .function (lit "printf")] := by
    decide +kernel
  refine ⟨trSys, setProc trSys 7 w1, .status (-2), ?_, ?_⟩
  · unfold type
    dsimp only
    rw [ho]
    dsimp only
    unfold Sys.ulftrace
    rw [show Cli.traceParse (traceEnv trSys exCirc) trSys.objPath [.pid (lit "7"), .function (lit "printf")] = .ok ⟨7, some (lit "printf"), some trSys.objPath, false⟩ by decide +kernel]
    dsimp only
    rw [tr_proc]
    dsimp only
    rw [onProc_eq x86 _ _ _ _ _ _ rfl rfl]
    unfold exCirc
    dsimp only
    rw [show trSys.object = lkFile from rfl, h]
    rfl
  · rw [setProc_self]
    rw [tr_proc]
    intro he
    have hw : w1 = pfWorld := Option.some.inj he
    have := hcpu ⟨0x401000, fun _ => 0, 0, pfWorld.mem⟩ rfl (by rw [hw])
    have k : X86.step ⟨0x401000, fun _ => 0, 0, pfWorld.mem⟩ = none := by decide +kernel
    rw [k] at this
    cases this

/-- C139_ulpatch_info: `ulpatch --unpatch --info -p 7`. -/
theorem info_spelled : Prog.ulpatch.Spelled false [lit "--unpatch", lit "--info", lit "-p", lit "7"]
    [.own .unpatch, .info, .own (.pid (lit "7"))] := by
  refine .opts (xs := [lit "--unpatch"]) (os := [.own .unpatch]) (.name (n := lit "unpatch") (Getopt.mem_doc 2 rfl) (.inl (List.mem_singleton.mpr rfl)) rfl) ?_
  refine .opts (xs := [lit "--info"]) (os := [.info]) (.name (n := lit "info") (Getopt.mem_doc 12 rfl) (.inl (List.mem_singleton.mpr rfl)) rfl) ?_
  exact .opts (xs := [lit "-p", lit "7"]) (os := [.own (.pid (lit "7"))])
    (.letterSep (f := fun a => .own (.pid a)) (cs := []) (os := []) (c := 112) (lit "7") .nil (Getopt.mem_doc 0 rfl) rfl rfl) .done

example (M : Machine) (s : System) (c : Circ) :
    ∃ n, type M s (.ulpatch false [lit "--unpatch", lit "--info", lit "-p", lit "7"] c) = some (s, .status n) :=
  C139_ulpatch_info M s c info_spelled (.inl (by simp))

end Ulp.Shell
