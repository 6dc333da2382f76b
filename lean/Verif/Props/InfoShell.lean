/-
C141: what `ulpinfo` says after command lines that were typed.
-/
import Verif.Spec.InfoShell
import Verif.Props.Shell
import Verif.Props.PatchShow
namespace Ulp.InfoShell
open LoadBytes
open Sys
open Cli (Opt AOpt lastFile lastPid atoi)
open Getopt (Case Word Prog Doc Flags Writes)
open Shell (Line AllMean types plain)
open Load (lit)
open PatchFile (ascii)

theorem argsOf_map : ∀ os : List AOpt, argsOf (os.map .opt) = some os
  | [] => rfl
  | o :: os => by
    rw [List.map_cons]
    unfold argsOf
    rw [argsOf_map os]
    rfl

/-! ### Nothing is touched -/

theorem infoShow_file {e : Cli.Env} {g : Cli.InfoCfg} {f : List Byte} (h : Cli.infoShow e g = .ok (.file f)) :
    e.exist f = true := by
  unfold Cli.infoShow at h
  split at h
  · cases h
  · cases hg : g.file with
    | none => rw [hg] at h; cases h
    | some f' =>
      rw [hg] at h
      dsimp only at h
      split at h
      · cases h
      · cases h
        next h' => exact by simpa using h'

theorem keeps_show (E : PFile.Env) (file : PFile.Path) : PFile.Keeps (PFile.showFile E file) := by
  unfold PFile.showFile
  refine (PFile.Keeps.fexist _).bind fun e => .ite (.pure _) ((PFile.Keeps.allocFile E file).bind fun r => .ite (.pure _) ?_)
  refine (PFile.Keeps.setup E _).bind fun s => ?_
  cases s.1 with
  | error e => exact .pure _
  | ok li =>
    dsimp only
    cases PFile.render file li.1 li.2 with
    | none => exact .crash _
    | some out =>
      refine (PFile.Keeps.release _).bind fun _ => PFile.Keeps.bind ?_ fun _ => .pure _
      exact (PFile.Keeps.fexist _).bind fun _ => .ite (PFile.Keeps.setFile _) (.pure _)

/-- C79, partial, for files of any size and whatever the program holds.  Missing: `temp.ulp`. -/
theorem C79_any_size_partial (E : PFile.Env) (file : PFile.Path) (w : PFile.World) (q : PFile.Path) (hq : q ≠ ascii "temp.ulp") :
    (PFile.showFile E file w).2.files q = w.files q :=
  keeps_show E file w q hq

/-- Even when `temp.ulp` is destroyed (`C79_destroys`), the others stay. -/
example : (PFile.showFile PFile.okEnv (ascii "temp.ulp") (PFile.exWorld (some Load.exFile))).2.files (lit "p.ulp")
    = (PFile.exWorld (some Load.exFile)).files (lit "p.ulp") :=
  C79_any_size_partial _ _ _ _ (by decide)

/-- **C141.**  Whatever is typed behind `ulpinfo`, and however it ends: every process is as it was, and
so is every file but `temp.ulp`. -/
theorem C141_harmless (s : System) (posix : Bool) (ws : List Word) (c : Circ) :
    (ulpinfo s posix ws c).1.procs = s.procs ∧ (∀ q, q ≠ ascii "temp.ulp" → (ulpinfo s posix ws c).1.files q = s.files q) ∧
      (ulpinfo s posix ws c).1.objPath = s.objPath ∧ (ulpinfo s posix ws c).1.object = s.object := by
  unfold ulpinfo
  split
  · exact ⟨rfl, fun _ _ => rfl, rfl, rfl⟩
  split
  · exact ⟨rfl, fun _ _ => rfl, rfl, rfl⟩
  split
  · exact ⟨rfl, fun _ _ => rfl, rfl, rfl⟩
  split
  · exact ⟨rfl, fun _ _ => rfl, rfl, rfl⟩
  · next f _ =>
    exact ⟨rfl, fun q hq => keeps_show _ f _ q hq, rfl, rfl⟩
  · split
    · exact ⟨rfl, fun _ _ => rfl, rfl, rfl⟩
    · exact ⟨rfl, fun _ _ => rfl, rfl, rfl⟩

/-! ### What is asked for -/

theorem pidOf_last {opts : List Opt} {p : BitVec 32} (h : pidOf opts = some p) :
    ∃ P, lastPid opts = some (.pid P) ∧ atoi P = p := by
  unfold pidOf at h
  split at h
  · next a ha => exact ⟨a, ha, by cases h; rfl⟩
  · cases h

/-- The run with these options. -/
theorem run_opts (s : System) {posix : Bool} {ws : List Word} {os : List AOpt} (c : Circ)
    (h : Prog.ulpinfo.cases posix ws = os.map .opt) (hc : c.starts = true) {x : Cli.Shown}
    (hx : Cli.infoRun (infoEnv s) (os.map plain) = .ok x) :
    ulpinfo s posix ws c =
      match x with
      | .file f =>
        ({ s with files := (PFile.showFile ⟨c.code, id⟩ f ⟨s.files, [], 0, 0⟩).2.files },
          match (PFile.showFile ⟨c.code, id⟩ f ⟨s.files, [], 0, 0⟩).1 with
          | .error _ => none
          | .ok (n, none) => some (n, .nothing)
          | .ok (n, some y) => some (n, .file y))
      | .task p =>
        match s.procs p with
        | none => (s, some (-2, .nothing))
        | some w => (s, showProc c (isVerbose os) p w) := by
  unfold Cli.infoRun at hx
  unfold ulpinfo
  rw [h, argsOf_map]
  dsimp only
  cases hg : (os.map plain).foldlM Cli.infoOpt {} with
  | error n => rw [hg] at hx; cases hx
  | ok g =>
    rw [hg] at hx
    change Cli.infoShow (infoEnv s) g = .ok x at hx
    dsimp only
    rw [if_neg (by rw [hc]; decide), hx]
    cases x <;> rfl

theorem run_idle (s : System) {posix : Bool} {ws : List Word} {os : List AOpt} (c : Circ)
    (h : Prog.ulpinfo.cases posix ws = os.map .opt)
    (hx : c.starts ≠ true ∨ ∃ e, Cli.infoRun (infoEnv s) (os.map plain) = .error e) :
    ∃ n, ulpinfo s posix ws c = (s, some (n, .nothing)) := by
  unfold ulpinfo
  rw [h, argsOf_map]
  dsimp only
  cases hg : (os.map plain).foldlM Cli.infoOpt {} with
  | error n => exact ⟨n, rfl⟩
  | ok g =>
    dsimp only
    by_cases hc : c.starts = false
    · rw [if_pos hc]
      exact ⟨1, rfl⟩
    rw [if_neg hc]
    rcases hx with hx | ⟨e, hx⟩
    · exact absurd (by simpa using hc) hx
    unfold Cli.infoRun at hx
    rw [hg] at hx
    change Cli.infoShow (infoEnv s) g = .error e at hx
    rw [hx]
    exact ⟨e, rfl⟩

/-- **C141.**  Only the process that the words name is shown, and only with no file named; only the file
that the words name is shown, and it is there.  (Anything may be behind the letter `v`.) -/
theorem C141_asked (s : System) {posix : Bool} {ws : List Word} {c : Circ} {n : Int} {x : Said}
    (h : (ulpinfo s posix ws c).2 = some (n, x)) :
    (∀ p, (x = .noPatch p ∨ ∃ ls, x = .table p ls) → ∃ os, Prog.ulpinfo.Loose posix ws os ∧ (∀ o ∈ os.map plain, o.ofInfo = true) ∧
      lastFile (os.map plain) = none ∧ pidOf (os.map plain) = some p ∧ p ≠ 0 ∧ (s.procs p).isSome) ∧
    (∀ y, x = .file y → ∃ os f, Prog.ulpinfo.Loose posix ws os ∧ (∀ o ∈ os.map plain, o.ofInfo = true) ∧
      lastFile (os.map plain) = some (.patch f) ∧ (s.files f).isSome) := by
  obtain ⟨os, e1, -⟩ := Shell.seen .ulpinfo posix ws
  have hl : (∀ o ∈ os.map plain, o.ofInfo = true) → Prog.ulpinfo.Loose posix ws os := by
    intro ha
    refine Shell.loose .ulpinfo posix ws os e1 fun hm => ?_
    have := ha _ hm
    cases this
  by_cases hst : c.starts = true
  · cases hr : Cli.infoRun (infoEnv s) (os.map plain) with
    | ok y =>
      rw [run_opts s c e1 hst hr] at h
      cases y with
      | file f =>
        obtain ⟨g1, g2, g3⟩ := ((Cli.C100_shows (infoEnv s) (os.map plain)).1 f).1 hr
        dsimp only at h
        constructor
        · intro p hp
          exfalso
          split at h
          · cases h
          · cases h; rcases hp with hp | ⟨_, hp⟩ <;> cases hp
          · cases h; rcases hp with hp | ⟨_, hp⟩ <;> cases hp
        · intro y _
          exact ⟨os, f, hl g1, g1, g2, g3⟩
      | task q =>
        obtain ⟨g1, g2, P, g3, g4, g5⟩ := ((Cli.C100_shows (infoEnv s) (os.map plain)).2 q).1 hr
        dsimp only at h
        have hq : pidOf (os.map plain) = some q := by
          unfold pidOf
          rw [g3, ← g4]
        cases hw : s.procs q with
        | none =>
          rw [hw] at h
          cases h
          exact ⟨fun p hp => (by rcases hp with hp | ⟨_, hp⟩ <;> cases hp), fun y hy => (by cases hy)⟩
        | some w =>
          rw [hw] at h
          change showProc c (isVerbose os) q w = some (n, x) at h
          unfold showProc at h
          have key : x = .nothing ∨ x = .noPatch q ∨ ∃ ls, x = .table q ls := by
            split at h
            · cases h; exact .inl rfl
            split at h
            · cases h
            split at h
            · cases h; exact .inr (.inl rfl)
            split at h
            · cases h
            · cases h; exact .inr (.inr ⟨_, rfl⟩)
          constructor
          · intro p hp
            have : p = q := by
              rcases key with rfl | rfl | ⟨ls, rfl⟩ <;> rcases hp with hp | ⟨_, hp⟩ <;> cases hp <;> rfl
            subst this
            exact ⟨os, hl g1, g1, g2, hq, g5, by rw [hw]; rfl⟩
          · intro y hy
            exfalso
            rcases key with rfl | rfl | ⟨ls, rfl⟩ <;> cases hy
    | error e =>
      obtain ⟨m, k⟩ := run_idle s c e1 (.inr ⟨e, hr⟩)
      rw [k] at h
      cases h
      exact ⟨fun p hp => (by rcases hp with hp | ⟨_, hp⟩ <;> cases hp), fun y hy => (by cases hy)⟩
  · obtain ⟨m, k⟩ := run_idle s c e1 (.inl hst)
    rw [k] at h
    cases h
    exact ⟨fun p hp => (by rcases hp with hp | ⟨_, hp⟩ <;> cases hp), fun y hy => (by cases hy)⟩

/-! ### `-v` -/

theorem flags_quiet {D : List Doc} (hD : ∀ d ∈ D, ∀ n, d.mean = .inl (.verbose n) → n = 0) {cs : Word} {os : List AOpt} (h : Flags D cs os) {n : BitVec 32}
    (hn : .verbose n ∈ os) : n = 0 := by
  induction h with
  | nil => cases hn
  | cons h1 _ h3 _ ih =>
    rcases List.mem_cons.1 hn with hn | hn
    · rw [← hn] at h3
      exact hD _ h1 _ h3
    · exact ih hn

theorem spelled_verbose {posix : Bool} {ws : List Word} {os : List AOpt} (h : Prog.ulpinfo.Spelled posix ws os)
    (hw : ∀ w ∈ ws, w.length < 2 ^ 32) {n : BitVec 32} (hn : .verbose n ∈ os) : n ≠ -1 := by
  have hD : ∀ d ∈ Prog.ulpinfo.doc, ∀ n, d.mean = .inl (.verbose n) → n = 0 := by
    intro d hd n hm
    unfold Prog.doc Getopt.commonDoc at hd
    simp only [List.cons_append, List.nil_append, List.mem_cons, List.not_mem_nil, or_false] at hd
    rcases hd with rfl | rfl | rfl | rfl | rfl | rfl | rfl | rfl | rfl | rfl | rfl <;> cases hm
    rfl
  have hA : ∀ d ∈ Prog.ulpinfo.doc, ∀ f, d.mean = .inr f → ∀ a m, f a ≠ .verbose m := by
    intro d hd f hm a m
    unfold Prog.doc Getopt.commonDoc at hd
    simp only [List.cons_append, List.nil_append, List.mem_cons, List.not_mem_nil, or_false] at hd
    rcases hd with rfl | rfl | rfl | rfl | rfl | rfl | rfl | rfl | rfl | rfl | rfl <;> cases hm
    · nofun
    · nofun
    · unfold Getopt.levelOpt
      split <;> nofun
  have h0 : ∀ {m : BitVec 32}, m = 0 → m ≠ -1 := by
    rintro m rfl
    decide
  unfold Prog.Spelled at h
  induction h with
  | done => cases hn
  | dashes => cases hn
  | word _ _ _ ih => exact ih (fun w h => hw w (List.mem_cons_of_mem _ h)) hn
  | posix => cases hn
  | opts hx _ ih =>
    rcases List.mem_append.1 hn with hn | hn
    · cases hx with
      | name h1 _ h3 =>
        rw [List.mem_singleton] at hn
        rw [← hn] at h3
        exact h0 (hD _ h1 _ h3)
      | nameEq a h1 _ h3 => exact absurd (List.mem_singleton.1 hn).symm (hA _ h1 _ h3 _ _)
      | nameArg a h1 _ h3 => exact absurd (List.mem_singleton.1 hn).symm (hA _ h1 _ h3 _ _)
      | flags _ h => exact h0 (flags_quiet hD h hn)
      | letterArg a h h1 _ h3 _ =>
        rcases List.mem_append.1 hn with hn | hn
        · exact h0 (flags_quiet hD h hn)
        · exact absurd (List.mem_singleton.1 hn).symm (hA _ h1 _ h3 _ _)
      | letterSep a h h1 _ h3 =>
        rcases List.mem_append.1 hn with hn | hn
        · exact h0 (flags_quiet hD h hn)
        · exact absurd (List.mem_singleton.1 hn).symm (hA _ h1 _ h3 _ _)
      | verbose vs h _ =>
        rcases List.mem_append.1 hn with hn | hn
        · exact h0 (flags_quiet hD h hn)
        · cases List.mem_singleton.1 hn
          have h1 := hw _ (List.mem_append_left _ (List.mem_singleton.2 rfl))
          rw [List.length_append, List.length_append, List.length_append] at h1
          have h2 : vs.count 118 ≤ vs.length := List.count_le_length
          have h3 : (lit "-").length = 1 := by decide
          have h4 : (lit "v").length = 1 := by decide
          intro hc
          have := congrArg BitVec.toNat hc
          rw [BitVec.toNat_ofNat, Nat.mod_eq_of_lt (by omega)] at this
          have h5 : (-1 : BitVec 32).toNat = 2 ^ 32 - 1 := by decide
          omega
    · exact ih (fun w h => hw w (List.mem_append_right _ h)) hn

theorem verbose_fold : ∀ (os : List AOpt) (v : BitVec 32), (∀ n, .verbose n ∈ os → n ≠ -1) →
    (os.foldl setVerbose v ≠ 0 ↔ v ≠ 0 ∧ ¬ Wordy os ∨ Wordy os)
  | [], v, _ => by
    constructor
    · intro h
      exact .inl ⟨h, fun ⟨n, hn⟩ => by cases hn⟩
    · rintro (h | ⟨n, hn⟩)
      · exact h.1
      · cases hn
  | o :: os, v, h => by
    have hos : ∀ n, .verbose n ∈ os → n ≠ -1 := fun n hn => h n (List.mem_cons_of_mem _ hn)
    rw [List.foldl_cons]
    have other : (∀ n, o ≠ .verbose n) → (Wordy (o :: os) ↔ Wordy os) := by
      intro ho
      constructor
      · rintro ⟨n, hn⟩
        rcases List.mem_cons.1 hn with hn | hn
        · exact absurd hn.symm (ho n)
        · exact ⟨n, hn⟩
      · rintro ⟨n, hn⟩
        exact ⟨n, List.mem_cons_of_mem _ hn⟩
    cases o with
    | verbose n =>
      have h1 : Wordy (.verbose n :: os) := ⟨n, List.mem_cons_self⟩
      have h2 : n + 1 ≠ (0 : BitVec 32) := by
        have := h n List.mem_cons_self
        intro hc
        apply this
        rw [← BitVec.add_sub_cancel n 1, hc]
        rfl
      show os.foldl setVerbose (n + 1) ≠ 0 ↔ _
      rw [verbose_fold os _ hos]
      constructor
      · exact fun _ => .inr h1
      · intro _
        by_cases hw : Wordy os
        · exact .inr hw
        · exact .inl ⟨h2, hw⟩
    | level l =>
      show os.foldl setVerbose v ≠ 0 ↔ _
      rw [verbose_fold os _ hos, other nofun]
    | info =>
      show os.foldl setVerbose v ≠ 0 ↔ _
      rw [verbose_fold os _ hos, other nofun]
    | own x =>
      show os.foldl setVerbose v ≠ 0 ↔ _
      rw [verbose_fold os _ hos, other nofun]

theorem isVerbose_iff {posix : Bool} {ws : List Word} {os : List AOpt} (h : Prog.ulpinfo.Spelled posix ws os)
    (hw : ∀ w ∈ ws, w.length < 2 ^ 32) : isVerbose os = true ↔ Wordy os := by
  unfold isVerbose
  rw [decide_eq_true_iff, verbose_fold os 0 fun n hn => spelled_verbose h hw hn]
  constructor
  · rintro (⟨h, _⟩ | h)
    · exact absurd rfl h
    · exact h
  · exact .inr

/-! ### The patches of a process -/

/-- What is printed of the live patches `st` of the process `p`: that there are none, or a line for
each, in the order of the mappings, with what was loaded; all of it if `v`. -/
def Tells (v : Bool) (p : BitVec 32) (m : Mem) (len : Addr → Nat) (maps : List Patch.Mapping) (st : List LiveFile) (x : Said) : Prop :=
  (st = [] ∧ x = .noPatch p) ∨
    ∃ (vs : List LiveFile) (ls : List Live.Line), st ≠ [] ∧ x = .table p ls ∧ vs.Perm st ∧ vs.map LiveFile.mapping = maps ∧ ls.length = st.length ∧
      ∀ (i : Nat) (u : LiveFile), vs[i]? = some u → ∃ l, ls[i]? = some l ∧ Live.Says (u.seen m (len u.start)) v (1 + i) l

theorem shown {width : Nat → Nat} {value : Nat → BitVec 64 → BitVec 64 → BitVec 64 → Option (Nat × BitVec 64)}
    {R : Addr → Prop} {base : Mem} {w : Patch.World} {st : List LiveFile} (h : Holds width value R base w st) {c : Circ}
    (hc : Reads c st) (v : Bool) (p : BitVec 32) :
    ∃ x, showProc c v p w = some (0, x) ∧ Tells v p w.mem c.len w.maps st x := by
  obtain ⟨vs, us, rs, ls, h1, h2, h3, h4, h5, h6, h7⟩ := C119_listed h c.len (pread c w) hc.len (by
    intro u hu k hk
    unfold pread
    rw [hc.gets u hu k hk, Option.map_some, Nat.min_self]) v
  unfold showProc
  rw [if_neg (by rw [hc.opens]; decide), h3]
  dsimp only
  have hlen : us.length = st.length := by
    have := congrArg List.length h4
    rw [List.length_map, List.length_map, ← h2, List.length_map, h1.length_eq] at this
    exact this
  cases us with
  | nil =>
    refine ⟨_, rfl, .inl ⟨?_, rfl⟩⟩
    cases st with
    | nil => rfl
    | cons _ _ => cases hlen
  | cons u us =>
    dsimp only
    rw [h5]
    refine ⟨_, rfl, .inr ⟨vs, ls, ?_, rfl, h1, h2, h6, h7⟩⟩
    rintro rfl
    cases hlen

theorem after {width : Nat → Nat} {value : Nat → BitVec 64 → BitVec 64 → BitVec 64 → Option (Nat × BitVec 64)}
    {t : System} {posix : Bool} {ws : List Word} {os : List AOpt} {p : BitVec 32} (ha : Asks posix ws os p)
    (hw : ∀ w ∈ ws, w.length < 2 ^ 32) {c : Circ} (hc : c.starts = true) :
    (t.procs p = none → ulpinfo t posix ws c = (t, some (-2, .nothing))) ∧
    ∀ w, t.procs p = some w → ∀ (R : Addr → Prop) (base : Mem) (st : List LiveFile), Holds width value R base w st → Reads c st →
      ∃ x v, ulpinfo t posix ws c = (t, some (0, x)) ∧ (v = true ↔ Wordy os) ∧ Tells v p w.mem c.len w.maps st x := by
  obtain ⟨a1, a2, a3, a4, a5⟩ := ha
  obtain ⟨P, b1, b2⟩ := pidOf_last a4
  have hr := ((Cli.C100_shows (infoEnv t) (os.map plain)).2 p).2 ⟨a2, a3, P, b1, b2, a5⟩
  have hrun := run_opts t c (Getopt.C132_read _ _ _ _ a1) hc hr
  dsimp only at hrun
  rw [hrun]
  constructor
  · intro hp
    rw [hp]
  · intro w hp R base st hh hR
    rw [hp]
    obtain ⟨x, k1, k2⟩ := shown hh hR (isVerbose os) p
    exact ⟨x, _, by dsimp only; rw [k1], isVerbose_iff a1 hw, k2⟩

theorem session {width : Nat → Nat} {value : Nat → BitVec 64 → BitVec 64 → BitVec 64 → Option (Nat × BitVec 64)}
    {R : BitVec 32 → Patch.World → Addr → Prop} {s t : System} {vs : List Ev} {outs : List Out} {p : BitVec 32}
    (h : (life s p vs = none → t.procs p = none) ∧
      ∀ w cs, life s p vs = some (w, cs) → ∃ w' rs st, t.procs p = some w' ∧ told s p (vs.zip outs) = rs.map .status ∧
        w'.arch = w.arch ∧ AllDo [] cs rs st ∧ Holds width value (R p w) w.mem w' st)
    {posix : Bool} {ws : List Word} {os : List AOpt} (ha : Asks posix ws os p) (hw : ∀ w ∈ ws, w.length < 2 ^ 32) {c : Circ}
    (hc : c.starts = true) :
    (life s p vs = none → ulpinfo t posix ws c = (t, some (-2, .nothing))) ∧
    ∀ w cs, life s p vs = some (w, cs) → ∃ w' rs st, t.procs p = some w' ∧ told s p (vs.zip outs) = rs.map .status ∧
      AllDo [] cs rs st ∧ Holds width value (R p w) w.mem w' st ∧ (Reads c st →
        ∃ x v, ulpinfo t posix ws c = (t, some (0, x)) ∧ (v = true ↔ Wordy os) ∧ Tells v p w'.mem c.len w'.maps st x) := by
  obtain ⟨k1, k2⟩ := after (width := width) (value := value) (t := t) ha hw hc
  refine ⟨fun hl => k1 (h.1 hl), fun w cs hl => ?_⟩
  obtain ⟨w', rs, st, e1, e2, -, e4, e5⟩ := h.2 w cs hl
  exact ⟨w', rs, st, e1, e2, e4, e5, fun hR => k2 w' e1 _ _ st e5 hR⟩

/-- **C141**, x86_64.  After any good session of command lines of `ulpatch` and `ulftrace`, in whatever
spelling: a command line of `ulpinfo` that asks for the process `p` fails if `p` has ended, and
otherwise prints the live patches of `p`, those that the results of the commands tell, each with what
was loaded, and all of that if there is a `-v`; or that there are none.

Missing: sessions with partial transfers, failing clean-up or unreadable live patches, as in
`C139_x86_partial`, and mappings that cannot be read, where the program violates it (`C84_short`). -/
theorem C141_x86_partial (R : BitVec 32 → Patch.World → Addr → Prop) (s : System) {ls : List Line} {vs : List Ev} (hm : AllMean ls vs)
    (hg : GoodLives x86 Psabi.x86Width R s vs) :
    ∃ t outs, types x86 s ls = some (t, outs) ∧ ∀ p posix ws os, Asks posix ws os p → (∀ w ∈ ws, w.length < 2 ^ 32) →
      ∀ c : Circ, c.starts = true →
        (life s p vs = none → ulpinfo t posix ws c = (t, some (-2, .nothing))) ∧
        ∀ w cs, life s p vs = some (w, cs) → ∃ w' rs st, t.procs p = some w' ∧ told s p (vs.zip outs) = rs.map .status ∧
          AllDo [] cs rs st ∧ Holds Psabi.x86Width Psabi.x86 (R p w) w.mem w' st ∧ (Reads c st →
            ∃ x v, ulpinfo t posix ws c = (t, some (0, x)) ∧ (v = true ↔ Wordy os) ∧ Tells v p w'.mem c.len w'.maps st x) := by
  obtain ⟨t, outs, e1, e2⟩ := Shell.C139_x86_partial R s hm hg
  exact ⟨t, outs, e1, fun p posix ws os ha hw c hc => session (e2 p) ha hw hc⟩

/-- C141, aarch64. -/
theorem C141_a64_partial (junk : Bool) (R : BitVec 32 → Patch.World → Addr → Prop) (s : System) {ls : List Line} {vs : List Ev} (hm : AllMean ls vs)
    (hg : GoodLives (a64 junk) Psabi.a64Width R s vs) :
    ∃ t outs, types (a64 junk) s ls = some (t, outs) ∧ ∀ p posix ws os, Asks posix ws os p → (∀ w ∈ ws, w.length < 2 ^ 32) →
      ∀ c : Circ, c.starts = true →
        (life s p vs = none → ulpinfo t posix ws c = (t, some (-2, .nothing))) ∧
        ∀ w cs, life s p vs = some (w, cs) → ∃ w' rs st, t.procs p = some w' ∧ told s p (vs.zip outs) = rs.map .status ∧
          AllDo [] cs rs st ∧ Holds Psabi.a64Width Psabi.a64Data (R p w) w.mem w' st ∧ (Reads c st →
            ∃ x v, ulpinfo t posix ws c = (t, some (0, x)) ∧ (v = true ↔ Wordy os) ∧ Tells v p w'.mem c.len w'.maps st x) := by
  obtain ⟨t, outs, e1, e2⟩ := Shell.C139_a64_partial junk R s hm hg
  exact ⟨t, outs, e1, fun p posix ws os ha hw c hc => session (e2 p) ha hw hc⟩

/-! ### A file -/

/-- **C141.**  A command line that asks for a file, a complete patch file other than `temp.ulp`, prints
what the file says, if no system call fails.  Missing: the file `temp.ulp` itself, which is lost
(`C79_destroys`). -/
theorem C141_file_partial (s : System) {posix : Bool} {ws : List Word} {os : List AOpt} {f : PFile.Path} (ha : AsksFile posix ws os f)
    {c : Circ} (hc : c.starts = true) (h0 : ∀ n, c.code n = 0) {b : List Byte} {secs : List PatchFile.Sec} (hb : s.files f = some b)
    (hl : b.length < 2 ^ 31) (hd : PatchFile.Describes b secs) (hr : PatchFile.Readable b secs) (hk : PatchFile.Complete b secs)
    (he : [0x7f, 0x45, 0x4c, 0x46] <+: b) (hf : f ≠ ascii "temp.ulp")
    (ht : ∀ x, PatchFile.Has secs ".ulpatch.author" x ∨ PatchFile.Has secs ".ulpatch.license" x → ∃ t, PatchFile.Str b x.offset t) :
    ∃ t y, ulpinfo s posix ws c = (t, some (0, .file y)) ∧ y.file = f ∧ PatchFile.Texts b secs y.srcFunc y.dstFunc y.author y.license ∧
      PatchFile.RecordAt b secs y.info.ulpId.toNat y.info.target.toNat y.info.patch.toNat y.info.virtual.toNat
        y.info.orig0.toNat y.info.orig1.toNat y.info.time.toNat y.info.flags.toNat y.info.version.toNat y.info.pad.toNat ∧
      PatchFile.BuildIdIs b secs y.buildId ∧ (s.files (ascii "temp.ulp") = none → t = s) := by
  obtain ⟨a1, a2, a3⟩ := ha
  have hx := ((Cli.C100_shows (infoEnv s) (os.map plain)).1 f).2 ⟨a2, a3, by
    show (s.files f).isSome = true
    rw [hb]
    rfl⟩
  have hrun := run_opts s c (Getopt.C132_read _ _ _ _ a1) hc hx
  dsimp only at hrun
  have hwf : PFile.Wf f ⟨s.files, [], 0, 0⟩ := ⟨fun b' hb' => by
    change s.files f = some b' at hb'
    rw [hb] at hb'
    cases hb'
    omega, fun r hr => by cases hr⟩
  obtain ⟨y, hy⟩ := (PFile.C82_accepts ⟨c.code, id⟩ f ⟨s.files, [], 0, 0⟩ hwf b secs hb hl hd hr).2 hk he hf h0 ht
  obtain ⟨y', e1, e2, e3, e4, e5⟩ := PFile.C82_prints ⟨c.code, id⟩ f ⟨s.files, [], 0, 0⟩ hwf b secs hb (by omega) hd hr _ hy
  cases e1
  rw [hy] at hrun
  refine ⟨_, y, hrun, e2, e3, e4, e5, fun hn => ?_⟩
  rw [PFile.C79_success_partial ⟨c.code, id⟩ f ⟨s.files, [], 0, 0⟩ hwf hn _ hy]

/-! ### The hypotheses are met -/

/-- `ulpinfo -p7 --verb` -/
def wsI : List Word := [lit "-p7", lit "--verb"]

theorem spI : Prog.ulpinfo.Spelled false wsI [.own (.pid (lit "7")), .verbose 0] := by
  refine .opts (xs := [lit "-p7"]) (os := [.own (.pid (lit "7"))])
    (.letterArg (f := fun a => .own (.pid a)) (cs := []) (c := 112) (lit "7") .nil (Getopt.mem_doc 1 rfl) rfl rfl (by decide)) ?_
  refine .opts (xs := [lit "--verb"]) (os := [.verbose 0])
    (.name (n := lit "verb") (Getopt.mem_doc 6 rfl) (.inr ⟨⟨lit "verbose", List.mem_singleton.mpr rfl, by decide⟩, by decide +kernel⟩) rfl) ?_
  exact .done

theorem asksI : Asks false wsI [.own (.pid (lit "7")), .verbose 0] 7 :=
  ⟨spI, by decide +kernel, by decide +kernel, by decide +kernel, by decide⟩

/-- All can be read; mappings are 4096 bytes long. -/
def circI : Circ := ⟨fun _ => 0, true, true, fun _ => 4096, fun _ n => some n⟩

theorem told_one (p : BitVec 32) (o : Out) : told exSys p ([ex1].zip [o]) = if p = 7 then [o] else [] := by
  show told exSys p ([] ++ [(ex1, o)]) = _
  have q := ex_own1 p
  unfold ex1 at q ⊢
  rw [told_snoc]
  dsimp only
  rw [q]
  by_cases hp : p = 7
  · rw [if_pos hp, if_pos hp]
    rfl
  · rw [if_neg hp, if_neg hp]
    rfl

theorem gives_file {rd hdr find now f e} {v : LiveFile} (h : (FileCmd.patch rd hdr find now f e).Gives v) :
    v.file = f ∧ e.mmap = .created v.start := by
  obtain ⟨_, _, _, g1, g2, -⟩ := h
  cases g1
  exact ⟨rfl, g2⟩

theorem one_patch {r : Int} {rd hdr find now f e} {st : List LiveFile} (h : AllDo [] [.patch rd hdr find now f e] [r] st) (hr : r = 0) :
    ∃ v : LiveFile, st = [v] ∧ v.file = f ∧ e.mmap = .created v.start := by
  subst hr
  cases h with
  | cons hd hn =>
    cases hn
    cases hd with
    | patched hv => exact ⟨_, rfl, gives_file hv⟩
    | refused hr => exact absurd rfl hr

/-- `ulpatch -p7 --patch p.ulp` has been typed; then `ulpinfo -p7 --verb` prints one line. -/
example : ∃ t l, types x86 exSys [.ulpatch false Shell.ws1 exCirc] = some (t, [.status 0]) ∧
    ulpinfo t false wsI circI = (t, some (0, .table 7 [l])) ∧ l.num = 1 ∧ l.id = 1 ∧ l.start = 0x10000000 ∧ l.more ≠ none := by
  obtain ⟨t1, -, -, h1, -, -⟩ := Shell.sh_runs
  have hg : GoodLives x86 Psabi.x86Width (fun _ _ => fhR) exSys [ex1] :=
    ⟨fun v h => Shell.sh_good.1 v (List.mem_append_left _ (List.mem_append_left _ h)),
      fun us h => Shell.sh_good.2 us (h.trans ((List.prefix_append _ _).trans (List.prefix_append _ _)))⟩
  obtain ⟨t, outs, e1, e2⟩ := C141_x86_partial (fun _ _ => fhR) exSys (.cons Shell.me1 .nil) hg
  rw [h1] at e1
  cases e1
  have hl : life exSys 7 [ex1] = some (fhWorld, [fhPatch pfEnv]) := by
    unfold life
    rw [Shell.sh_procs]
    simp only [List.foldl, Shell.sh_step1]
    rfl
  obtain ⟨w', rs, st, k1, k2, k3, k5, k4⟩ := (e2 7 false wsI _ asksI (by decide +kernel) circI rfl).2 _ _ hl
  rw [told_one, if_pos rfl] at k2
  obtain rfl : rs = [0] := by
    cases rs with
    | nil => cases k2
    | cons r rs =>
      cases rs with
      | nil => cases k2; rfl
      | cons _ _ => cases k2
  obtain ⟨v, rfl, hv, hs⟩ := one_patch k3 rfl
  have hs : v.start = 0x10000000 := (Patch.MmapRes.created.inj hs).symm
  have hlen : lkFile.length ≤ 4096 := by decide +kernel
  obtain ⟨x, b, g1, g2, g3⟩ := k4 ⟨rfl, rfl, fun u hu => by
    rw [List.mem_singleton.1 hu, hv]
    exact ⟨hlen, by show 4096 < _; decide⟩, fun u hu n _ => rfl⟩
  obtain rfl : b = true := g2.2 ⟨0, by decide⟩
  rcases g3 with ⟨g3, -⟩ | ⟨vs, ls, -, rfl, g4, -, g5, g6⟩
  · cases g3
  rw [List.perm_singleton] at g4
  subst g4
  obtain ⟨l, l1, l2⟩ := g6 0 v rfl
  obtain ⟨l', rfl⟩ := List.length_eq_one_iff.1 g5
  injection l1 with l1
  subst l1
  refine ⟨t1, _, h1, g1, l2.num, ?_, l2.start.trans hs, ?_⟩
  · refine l2.id.trans ?_
    have := k5.numbers 0 v rfl
    apply BitVec.eq_of_toNat_eq
    show v.number.toNat = 1
    exact this
  · obtain ⟨_, _, _, _, m, -⟩ := l2.more rfl
    rw [m]
    nofun

/-- `ulpinfo notes -ip.ulp` -/
def wsF : List Word := [lit "notes", lit "-ip.ulp"]

theorem spF : Prog.ulpinfo.Spelled false wsF [.own (.patch (lit "p.ulp"))] := by
  refine .word rfl (.inr (by decide)) ?_
  refine .opts (xs := [lit "-ip.ulp"]) (os := [.own (.patch (lit "p.ulp"))])
    (.letterArg (f := fun a => .own (.patch a)) (cs := []) (c := 105) (lit "p.ulp") .nil (Getopt.mem_doc 0 rfl) rfl rfl (by decide)) ?_
  exact .done

/-- It prints what is in `p.ulp`, and all is as before. -/
example : ∃ y, ulpinfo exSys false wsF circI = (exSys, some (0, .file y)) ∧ y.file = lit "p.ulp" := by
  obtain ⟨t, y, e1, e2, -, -, -, e3⟩ := C141_file_partial exSys (f := lit "p.ulp") ⟨spF, by decide +kernel, by decide +kernel⟩ (c := circI) rfl
    (fun _ => rfl) ex_file (by decide +kernel) lk_describes lk_readable lk_complete (List.isPrefixOf_iff_prefix.1 (by decide +kernel)) (by decide)
    (by
      rintro x (h | h)
      · exact (Live.lk_plain.author x h).2.imp fun _ h => h.1
      · exact (Live.lk_plain.license x h).2.imp fun _ h => h.1)
  rw [e3 (by decide +kernel)] at e1
  exact ⟨y, e1, e2⟩

/-- The processes of the example stay as they are. -/
example (posix : Bool) (ws : List Word) (c : Circ) : (ulpinfo exSys posix ws c).1.procs = exSys.procs :=
  (C141_harmless exSys posix ws c).1

end Ulp.InfoShell
