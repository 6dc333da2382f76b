/-
C142: sessions with all four tools, as they are typed, on any number of processes.
-/
import Verif.Proof.Session
import Verif.Props.Mixed
namespace Ulp.Session
open LoadBytes
open Sys (System Out Ev pidOf setProc Same exSys exCirc ex1 ex2)
open TaskRun (Proc Job asks)
open Linux (State)
open Getopt (Word Prog)
open Cli (Opt AOpt)
open Mixed
open Shell (plain)
open InfoShell (Asks Wordy Reads Tells)
open Load (lit)

/-- A killed run without options that change something. -/
theorem killed_look {k : Ultask.Kern (Proc State)} {arch : Arch} {e c vs out} {p : Proc State} {opts : List Opt} {i n : Nat} {x : Proc State × List Ultask.Req}
    (h : TaskRun.killed k arch e c vs out p opts i n = some x) (ho : ∀ o ∈ opts, o.change = none) : x.1 = p := by
  unfold TaskRun.killed at h
  cases hp : Cli.taskParse e opts with
  | error n => rw [hp] at h; cases h; rfl
  | ok g =>
    rw [hp] at h
    dsimp only at h
    split at h
    · cases h; rfl
    split at h
    · cases h; rfl
    have hno : ∀ a ∈ Cli.acts g, a.change = none := by
      intro a ha
      cases hc : a.change with
      | none => rfl
      | some kd =>
        obtain ⟨o, hoin, hoc⟩ := ((Cli.C69_asked hp).1 kd).1 ⟨a, ha, hc⟩
        rw [ho o hoin] at hoc
        cases hoc
    unfold TaskRun.cutActs at h
    cases hd : TaskRun.doActs k arch c ⟨⟨p, []⟩, vs, out, 0⟩ ((Cli.acts g).take i) with
    | none => rw [hd] at h; cases h
    | some s =>
      rw [hd] at h
      dsimp only [Option.bind] at h
      have hs := TaskRun.look_acts _ (fun a ha => hno a (List.mem_of_mem_take ha)) hd
      cases hr : (Cli.acts g).drop i with
      | nil =>
        rw [hr] at h
        cases h
        dsimp only
        rw [hs]
        exact if_pos rfl
      | cons a as =>
        rw [hr] at h
        dsimp only at h
        have ha : a.change = none := hno a (List.mem_of_mem_drop (by rw [hr]; simp))
        have hc : ∀ y, TaskRun.cut k arch c s a n = some y → y = (p, []) := by
          intro y hy
          have hact : ∀ s', TaskRun.act k arch c s a = some s' →
              (let qs := (s'.run.log.drop s.run.log.length).take n; (TaskRun.after k s.run.w qs, qs)) = (p, []) := by
            intro s' hs'
            have := (TaskRun.look_act ha hs').1
            dsimp only
            rw [this, hs]
            simp [TaskRun.after]
          cases a with
          | jmp src dst => cases ha
          | _ =>
            unfold TaskRun.cut at hy
            dsimp only at hy
            obtain ⟨s', h1, h2⟩ := Option.map_eq_some_iff.1 hy
            rw [← h2]
            exact hact s' h1
        cases hcut : TaskRun.cut k arch c s a n with
        | none => rw [hcut] at h; cases h
        | some y =>
          rw [hcut] at h
          cases h
          rw [hc y hcut]
          dsimp only
          rw [hs]
          exact if_pos rfl

theorem run_look {k : Ultask.Kern (Proc State)} {arch : Arch} {e c vs out info ls cut} {p : Proc State} {opts : List Opt} {x : Proc State × Out}
    (hr : Vma.readTaskVmas (Vma.initVmas info) false ls = some vs) (h : run k arch e c vs out p opts cut = some x)
    (ho : ∀ o ∈ opts, o.change = none) : x.1 = p := by
  cases cut with
  | none =>
    unfold run at h
    obtain ⟨d, hd, rfl⟩ := Option.map_eq_some_iff.1 h
    have hrun : (⟨e, c, ls, info, out, opts⟩ : Job).run k arch p = some d := by
      unfold Job.run
      dsimp only
      rw [hr]
      exact hd
    exact (TaskRun.C130_look hrun ho).1
  | some c =>
    unfold run at h
    obtain ⟨d, hd, rfl⟩ := Option.map_eq_some_iff.1 h
    exact killed_look hd ho

/-- **C142.**  Whatever is typed behind `ultask`, and wherever the run is killed: no file is another (the output file apart), and a
process is another only if the last `-p` names it and there is a `--map`, an `--unmap`, a `--mprotect` or a
`--jmp` among the options. -/
theorem C142_ultask_asked (M : Machine) {s t : System} {posix : Bool} {ws : List Word} {k st e c ls info out cut} {o : Out}
    (h : type M s (.ultask posix ws k st e c ls info out cut) = some (t, o)) :
    t.files = s.files ∧ t.objPath = s.objPath ∧ t.object = s.object ∧
    ∀ p, t.procs p ≠ s.procs p → ∃ os, Prog.ultask.Loose posix ws os ∧ pidOf (os.map plain) = some p ∧
      ∃ x ∈ os.map plain, x.change ≠ none := by
  obtain ⟨os, e1, e2⟩ := Shell.seen .ultask posix ws
  unfold type at h
  dsimp only at h
  rw [e2] at h
  dsimp only at h
  unfold ultask at h
  cases hp : Cli.taskParse e (os.map plain) with
  | error n =>
    rw [hp] at h
    cases h
    exact ⟨rfl, rfl, rfl, fun p hn => absurd rfl hn⟩
  | ok g =>
    rw [hp] at h
    dsimp only at h
    cases hw : s.procs g.pid with
    | none =>
      rw [hw] at h
      cases h
      exact ⟨rfl, rfl, rfl, fun p hn => absurd rfl hn⟩
    | some w =>
      rw [hw] at h
      dsimp only at h
      cases hr : Vma.readTaskVmas (Vma.initVmas info) false ls with
      | none => rw [hr] at h; cases h
      | some vs =>
        rw [hr] at h
        dsimp only at h
        cases hd : run k w.arch e c vs out ⟨st, w.mem⟩ (os.map plain) cut with
        | none => rw [hd] at h; cases h
        | some d =>
          rw [hd] at h
          cases h
          refine ⟨rfl, rfl, rfl, fun p hn => ⟨os, ?_, ?_⟩⟩
          · exact Shell.loose .ultask posix ws os e1 (TaskShell.no_stop hp 1)
          have hpg : p = g.pid := by
            by_cases hpg : p = g.pid
            · exact hpg
            · exact absurd (if_neg hpg) hn
          subst hpg
          refine ⟨task_pid hp, ?_⟩
          by_cases ho : ∃ x ∈ os.map plain, x.change ≠ none
          · exact ho
          · exfalso
            have := run_look hr hd fun x hx => Classical.not_not.1 fun hc => ho ⟨x, hx, hc⟩
            apply hn
            rw [this, hw]
            exact if_pos rfl

/-- **C142.**  `ultask` with `-p PID` in a session does to the process, and ends, as C140 says of it alone; no
other process changes. -/
theorem C142_ultask (M : Machine) {s : System} {x : TaskShell.Typed} {k : Ultask.Kern (Proc State)} {st : State} {os : List AOpt}
    (hs : Prog.ultask.Spelled x.posix x.ws os) {p : BitVec 32} {w : Patch.World} (hp : pidOf (os.map plain) = some p)
    (hw : s.procs p = some w) {d : TaskRun.Done State} (hd : x.run k w.arch ⟨st, w.mem⟩ = some d) :
    ∃ t, type M s (.ultask x.posix x.ws k st x.e x.c x.ls x.info x.out none) = some (t, .status d.status) ∧
      t.procs p = some { w with mem := d.proc.mem } ∧ ∀ q, q ≠ p → t.procs q = s.procs q := by
  rw [TaskShell.C140_means hs] at hd
  unfold type
  dsimp only
  rw [Getopt.C132_read _ _ _ _ hs, Shell.optsOf_map]
  dsimp only
  unfold Job.run at hd
  obtain ⟨vs, hr, hd⟩ := Option.bind_eq_some_iff.1 hd
  have hr : Vma.readTaskVmas (Vma.initVmas x.info) false x.ls = some vs := hr
  have hd : TaskRun.ultask k w.arch x.e x.c vs x.out ⟨st, w.mem⟩ (os.map plain) = some d := hd
  unfold ultask
  cases hg : Cli.taskParse x.e (os.map plain) with
  | error n =>
    unfold TaskRun.ultask at hd
    rw [hg] at hd
    cases hd
    exact ⟨s, rfl, hw, fun _ _ => rfl⟩
  | ok g =>
    obtain rfl : g.pid = p := by
      have := task_pid hg
      rw [hp] at this
      exact (Option.some.inj this).symm
    dsimp only
    rw [hw]
    dsimp only
    rw [hr]
    dsimp only
    unfold run
    dsimp only
    rw [hd]
    exact ⟨_, rfl, if_pos rfl, fun q hq => if_neg hq⟩

/-- What is shown of the process `p` after a session: it is as if only the uses on it had been. -/
def Shows (M : Machine) (width : Nat → Nat) (value : Nat → BitVec 64 → BitVec 64 → BitVec 64 → Option (Nat × BitVec 64)) (pg : Nat)
    (R : BitVec 32 → Patch.World → Addr → Prop) (s t : System) (as : List Act) (outs : List Out) (p : BitVec 32) : Prop :=
  (life s p as = none → t.procs p = none) ∧
  ∀ w us, life s p as = some (w, us) → ∃ w' rs st base, t.procs p = some w' ∧ runUses M w us = some (w', rs) ∧
    told s p (as.zip outs) = rs.map .status ∧ w'.arch = w.arch ∧ AllDo [] (cmds us) rs st ∧ Holds width value (R p w) base w' st ∧
    (∀ x, (∀ u ∈ us, ¬ u.names pg x) → base x = w.mem x) ∧
    ∀ posix ws os c, Asks posix ws os p → (∀ w ∈ ws, w.length < 2 ^ 32) → c.starts = true → Reads c st →
      ∃ x v, InfoShell.ulpinfo t posix ws c = (t, some (0, x)) ∧ (v = true ↔ Wordy os) ∧ Tells v p w'.mem c.len w'.maps st x

theorem session {M : Machine} {width value} {pg : Nat} {R : BitVec 32 → Patch.World → Addr → Prop} {s : System} {ls : List Line}
    {as : List Act} (hm : AllMean ls as) (hg : GoodLives M pg width R s as)
    (h136 : ∀ R w0 us, w0.maps = [] → us.length < 2 ^ 32 → GoodUses M pg width R w0 us →
      ∃ w rs st base, runUses M w0 us = some (w, rs) ∧ w.arch = w0.arch ∧ AllDo [] (cmds us) rs st ∧
        Holds width value R base w st ∧ ∀ x, (∀ u ∈ us, ¬ u.names pg x) → base x = w0.mem x) :
    ∃ t outs, types M s ls = some (t, outs) ∧ ∀ p, Shows M width value pg R s t as outs p := by
  obtain ⟨g1, g2, g3⟩ := hg
  obtain ⟨t, outs, e1, -, e2⟩ := run_agree (M := M) g2 hm (t := s) (l := fun p => (s.procs p).map fun w => (w, []))
    (o := fun _ => []) (Same.refl s) (fun p => by
      cases hp : s.procs p with
      | none => rfl
      | some w => exact ⟨w, [], rfl, rfl, rfl⟩) g1 (fun bs hbs p w us hl => by
      obtain ⟨k1, k2, k3⟩ := g3 bs hbs p w us hl
      obtain ⟨w', rs, st, base, h, -⟩ := h136 _ _ _ k1 k2 k3
      rw [h]
      exact nofun)
  refine ⟨t, outs, e1, fun p => ⟨fun hl => ?_, fun w us hl => ?_⟩⟩
  · have := e2 p
    change Agree M (life s p as) _ _ at this
    rw [hl] at this
    exact this
  · have := e2 p
    change Agree M (life s p as) (told s p (as.zip outs)) _ at this
    rw [hl] at this
    obtain ⟨w', rs, f1, f2, f3⟩ := this
    obtain ⟨k1, k2, k3⟩ := g3 as (List.prefix_refl _) p w us hl
    obtain ⟨w'', rs', st, base, h1, h2, h3, h4, h5⟩ := h136 _ _ _ k1 k2 k3
    rw [f2] at h1
    cases h1
    refine ⟨w', rs, st, base, f1, f2, f3, h2, h3, h4, h5, fun posix ws os c ha hw hc hR => ?_⟩
    exact (InfoShell.after (width := width) (value := value) ha hw hc).2 w' f1 _ _ st h4 hR

/-- **C142**, x86_64.  Any session of command lines of `ulpatch`, `ulftrace`, `ultask` and `ulpinfo`, in
whatever spelling and order, on any processes that begin and end meanwhile, in which every run of
`ultask` spares the patches that are live in its process then.  At the end every process has exactly the
live patches that the ends of the commands on it tell, each of them whole and linked; its code is its
code from the beginning with their redirects, except what the runs of `ultask` on it name; and `ulpinfo`
prints those patches.  What is done to other processes does not matter.

Missing: runs of `ultask` that do not spare the patches (violated, `C136_dangling`);
killed runs of `ulpatch` and `ulftrace`; and, as in `C119_x86_partial`, partial transfers, failing
clean-up and unreadable live patches, where the program violates it. -/
theorem C142_x86_partial (pg : Nat) (R : BitVec 32 → Patch.World → Addr → Prop) (s : System) {ls : List Line} {as : List Act}
    (hm : AllMean ls as) (hg : GoodLives x86 pg Psabi.x86Width R s as) :
    ∃ t outs, types x86 s ls = some (t, outs) ∧ ∀ p, Shows x86 Psabi.x86Width Psabi.x86 pg R s t as outs p :=
  session hm hg (C136_x86_partial pg)

/-- C142, aarch64. -/
theorem C142_a64_partial (junk : Bool) (pg : Nat) (R : BitVec 32 → Patch.World → Addr → Prop) (s : System) {ls : List Line} {as : List Act}
    (hm : AllMean ls as) (hg : GoodLives (a64 junk) pg Psabi.a64Width R s as) :
    ∃ t outs, types (a64 junk) s ls = some (t, outs) ∧ ∀ p, Shows (a64 junk) Psabi.a64Width Psabi.a64Data pg R s t as outs p :=
  session hm hg (C136_a64_partial junk pg)

/-- **C142.**  When `ulpinfo` can read the process and says that it has no patch, all its bytes are as they
were when it began, except those that runs of `ultask` name, and the areas `R` that the patches were mapped in. -/
theorem C142_none {M : Machine} {width value} {pg : Nat} {R : BitVec 32 → Patch.World → Addr → Prop} {s t : System} {as : List Act}
    {outs : List Out} {p : BitVec 32} (h : Shows M width value pg R s t as outs p) {w w' : Patch.World} {us : List Use}
    (hl : life s p as = some (w, us)) (hw : t.procs p = some w') {posix : Bool} {ws : List Word} {os : List AOpt} {c : InfoShell.Circ}
    (ha : Asks posix ws os p) (hlen : ∀ w ∈ ws, w.length < 2 ^ 32) (hs : c.starts = true) (ho : c.opens = true)
    (hr : ∀ m ∈ w'.maps, m.len ≤ c.len m.start ∧ c.len m.start < 2 ^ 64 ∧ ∀ n, n ≤ c.len m.start → c.gets m.start n = some n)
    (hsaid : (InfoShell.ulpinfo t posix ws c).2 = some (0, .noPatch p)) {x : Addr} (hx : ¬ R p w x) (hn : ∀ u ∈ us, ¬ u.names pg x) :
    w'.mem x = w.mem x := by
  obtain ⟨w2, rs, st, base, e1, -, -, -, -, e2, e3, e4⟩ := h.2 w us hl
  rw [hw] at e1
  cases e1
  have hm : ∀ v ∈ st, v.mapping ∈ w'.maps := fun v hv => e2.maps.mem_iff.1 (List.mem_map_of_mem hv)
  obtain ⟨y, v, f1, -, f2⟩ := e4 posix ws os c ha hlen hs ⟨hs, ho,
    fun v hv => ⟨(hr _ (hm v hv)).1, (hr _ (hm v hv)).2.1⟩, fun v hv n hn => (hr _ (hm v hv)).2.2 n hn⟩
  rw [f1] at hsaid
  cases hsaid
  rcases f2 with ⟨rfl, -⟩ | ⟨_, _, -, f2, -⟩
  · rw [C119_untouched e2 x hx (by exact nofun), e3 x hn]
  · cases f2

/-! ### The hypotheses are met -/

/-- `ultask -p7 --jmp from=0x402000,to=0x403000` -/
def wsT : List Word := [lit "-p7", lit "--jmp", lit "from=0x402000,to=0x403000"]

def osT : List AOpt := [.own (.pid (lit "7")), .own (.jmp (lit "from=0x402000,to=0x403000"))]

theorem spT : Prog.ultask.Spelled false wsT osT := by
  refine .opts (xs := [lit "-p7"]) (os := [.own (.pid (lit "7"))])
    (.letterArg (f := fun a => .own (.pid a)) (cs := []) (c := 112) (lit "7") .nil (Getopt.mem_doc 0 rfl) rfl rfl (by decide)) ?_
  exact .opts (xs := [lit "--jmp", lit "from=0x402000,to=0x403000"]) (os := [.own (.jmp (lit "from=0x402000,to=0x403000"))])
    (.nameArg (f := fun a => .own (.jmp a)) (n := lit "jmp") _ (Getopt.mem_doc 2 rfl) (.inl (List.mem_singleton.mpr rfl)) rfl) .done

def lineT : Line := .ultask false wsT TaskRun.exKern mxState Cli.exEnv TaskRun.exCirc mxLines (fun _ => ⟨0, 0, [], 0⟩) none (some (0, 3))

def actT : Act := .task TaskRun.exKern mxState (mxJob (osT.map plain)) (some (0, 3))

theorem meT : Means lineT actT := .ultask _ _ _ _ _ _ _ _ spT

/-- `ulpatch -p7 --patch p.ulp`, `ultask -p7 --jmp …` killed after three bytes, `ulpinfo -p7 --verb`,
`ulpatch --pat=p.ulp notes.txt --pid 8`. -/
def exLs : List Line := [.shell (.ulpatch false Shell.ws1 exCirc), lineT, .ulpinfo false InfoShell.wsI InfoShell.circI,
  .shell (.ulpatch false Shell.ws2 exCirc)]

def actI : Act := .info ([.own (.pid (lit "7")), .verbose 0].map plain)

def exAs : List Act := [.ev ex1, actT, actI, .ev ex2]

theorem ex_mean : AllMean exLs exAs :=
  .cons (.shell Shell.me1) (.cons meT (.cons (.ulpinfo InfoShell.circI InfoShell.spI) (.cons (.shell Shell.me2) .nil)))

theorem exT_asks : asks Cli.exEnv (osT.map plain) = [.jmp 0x402000 0x403000] := by decide +kernel

theorem exT_names {x : Addr} (hn : (Use.task TaskRun.exKern mxState (mxJob (osT.map plain)) (some (0, 3))).names 4096 x) :
    0x402000 ≤ x.toNat ∧ x.toNat < 0x402010 := by
  have hask : asks (mxJob (osT.map plain)).e (mxJob (osT.map plain)).opts = [.jmp 0x402000 0x403000] := exT_asks
  rcases hn with hn | ⟨addr, m, h1, -⟩ | ⟨src, dst, h1, h2⟩
  · cases hn
  · rw [hask, List.mem_singleton] at h1
    cases h1
  · rw [hask, List.mem_singleton] at h1
    injection h1 with h1 _
    subst h1
    bv_omega

def useT : Use := .task TaskRun.exKern mxState (mxJob (osT.map plain)) (some (0, 3))

theorem ex_uses : GoodUses x86 4096 Psabi.x86Width fhR fhWorld [.cmd (fhPatch pfEnv), useT] := by
  refine ⟨fh_first.1, fun w1 r1 h1 => ⟨⟨TaskRun.exKern_lawful, mxJob_fine _, (by exact nofun), ?_⟩, fun w2 r2 _ => trivial⟩⟩
  obtain ⟨w, v, e1, -, e3, e4, -, e6, e7, -⟩ := mx_first
  unfold runUses at h1
  rw [e1] at h1
  cases h1
  intro m hm
  obtain ⟨u, hu, rfl⟩ := List.mem_map.1 (e3.maps.mem_iff.2 hm)
  rw [List.mem_singleton] at hu
  subst hu
  constructor
  · intro i hi hn
    change i < u.file.length at hi
    change (Use.names 4096 _ (u.start + _)) at hn
    rw [e6] at hn
    have := exT_names hn
    rw [BitVec.toNat_add, BitVec.toNat_ofNat, show (0x10000000 : BitVec 64).toNat = 0x10000000 from rfl] at this
    omega
  · intro i hi hn
    change (Use.names 4096 _ (u.target + _)) at hn
    rw [e4] at hn
    have := exT_names hn
    rw [BitVec.toNat_add, BitVec.toNat_ofNat, show (0x401000 : BitVec 64).toNat = 0x401000 from rfl] at this
    omega

theorem ex_step1 (p : BitVec 32) (l : Option (Patch.World × List Use)) :
    lifeStep exSys p l (.ev ex1) = if p = 7 then l.map fun y => (y.1, y.2 ++ [.cmd (fhPatch pfEnv)]) else l := by
  have := Sys.ex_own1 p
  unfold ex1 at this ⊢
  show (match Ev.own exSys p _ with | none => l | some x => l.map fun y : Patch.World × List Use => (y.1, y.2 ++ [Use.cmd x])) = _
  rw [this]
  by_cases hp : p = 7
  · rw [if_pos hp, if_pos hp]
  · rw [if_neg hp, if_neg hp]

theorem ex_step2 (p : BitVec 32) (l : Option (Patch.World × List Use)) :
    lifeStep exSys p l (.ev ex2) = if p = 8 then l.map fun y => (y.1, y.2 ++ [.cmd (fhPatch pfEnv)]) else l := by
  have := Sys.ex_own2 p
  unfold ex2 at this ⊢
  show (match Ev.own exSys p _ with | none => l | some x => l.map fun y : Patch.World × List Use => (y.1, y.2 ++ [Use.cmd x])) = _
  rw [this]
  by_cases hp : p = 8
  · rw [if_pos hp, if_pos hp]
  · rw [if_neg hp, if_neg hp]

theorem ex_stepT (p : BitVec 32) (l : Option (Patch.World × List Use)) :
    lifeStep exSys p l actT = if p = 7 then l.map fun y => (y.1, y.2 ++ [useT]) else l := by
  have hp : pidOf (mxJob (osT.map plain)).opts = some 7 := by decide +kernel
  show (if pidOf (mxJob (osT.map plain)).opts = some p then l.map fun y => (y.1, y.2 ++ [useT]) else l) = _
  rw [hp]
  by_cases h7 : p = 7
  · rw [if_pos h7, if_pos (by rw [h7])]
  · rw [if_neg h7, if_neg fun e => h7 (Option.some.inj e).symm]

theorem ex_stepI (p : BitVec 32) (l : Option (Patch.World × List Use)) : lifeStep exSys p l actI = l := rfl

theorem ex_procs (p : BitVec 32) :
    (exSys.procs p).map (fun w => (w, ([] : List Use))) = if p = 7 ∨ p = 8 then some (fhWorld, []) else none := by
  show (if p = 7 ∨ p = 8 then some fhWorld else none).map _ = _
  by_cases hp : p = 7 ∨ p = 8
  · rw [if_pos hp, if_pos hp]
    rfl
  · rw [if_neg hp, if_neg hp]
    rfl

theorem ex_good : GoodLives x86 4096 Psabi.x86Width (fun _ _ => fhR) exSys exAs := by
  refine ⟨?_, ?_, ?_⟩
  · intro a ha
    unfold exAs at ha
    simp only [List.mem_cons, List.not_mem_nil, or_false] at ha
    rcases ha with rfl | rfl | rfl | rfl
    · exact Shell.sh_good.1 ex1 (by simp)
    · trivial
    · show Cli.lastFile _ ≠ _
      decide +kernel
    · exact Shell.sh_good.1 ex2 (by simp)
  · intro f b h
    change (if f = lit "p.ulp" then some lkFile else none) = some b at h
    split at h
    · cases h
      decide +kernel
    · cases h
  · intro bs hbs p w us h
    have key : w = fhWorld ∧ (us = [] ∨ us = [.cmd (fhPatch pfEnv)] ∨ us = [.cmd (fhPatch pfEnv), useT]) := by
      unfold life at h
      rw [ex_procs] at h
      have hlen : bs.length ≤ 4 := hbs.length_le
      rw [List.prefix_iff_eq_take.1 hbs] at h
      generalize bs.length = k at h hlen
      unfold exAs at h
      match k, hlen with
      | 0, _ | 1, _ | 2, _ | 3, _ | 4, _ =>
        simp only [List.take, List.foldl, ex_step1, ex_step2, ex_stepT, ex_stepI] at h
        by_cases h7 : p = 7
        · subst h7
          simp at h
          simp [← h.1, ← h.2]
        by_cases h8 : p = 8
        · subst h8
          simp at h
          simp [← h.1, ← h.2]
        · have hn : ¬ (p = 7 ∨ p = 8) := by
            rintro (h | h) <;> contradiction
          simp only [if_neg hn, if_neg h7, if_neg h8] at h
          cases h
    obtain ⟨hw, hc⟩ := key
    clear h
    subst hw
    refine ⟨rfl, ?_⟩
    rcases hc with rfl | rfl | rfl
    · exact ⟨by decide, trivial⟩
    · exact ⟨by show 1 < _; decide, fh_first.1, fun _ _ _ => trivial⟩
    · exact ⟨by show 2 < _; decide, ex_uses⟩

/-- The session, and then `ulpinfo -p7 --verb`: it is answered. -/
example : ∃ t outs w' x, types x86 exSys exLs = some (t, outs) ∧ t.procs 7 = some w' ∧ t.procs 9 = none ∧
    InfoShell.ulpinfo t false InfoShell.wsI InfoShell.circI = (t, some (0, x)) := by
  obtain ⟨t, outs, e1, e2⟩ := C142_x86_partial 4096 (fun _ _ => fhR) exSys ex_mean ex_good
  have hl : life exSys 7 exAs = some (fhWorld, [.cmd (fhPatch pfEnv), useT]) := by
    unfold life exAs
    rw [ex_procs]
    simp only [List.foldl, ex_step1, ex_step2, ex_stepT, ex_stepI]
    rfl
  have hn : life exSys 9 exAs = none := by
    unfold life exAs
    rw [ex_procs]
    simp only [List.foldl, ex_step1, ex_step2, ex_stepT, ex_stepI]
    rfl
  obtain ⟨w', rs, st, base, k1, -, -, -, k3, -, -, k4⟩ := (e2 7).2 _ _ hl
  obtain ⟨r, rfl⟩ : ∃ r, rs = [r] := by
    cases k3 with
    | cons _ k => cases k; exact ⟨_, rfl⟩
  have hst : ∀ v ∈ st, v.file.length ≤ 4096 := by
    intro v hv
    by_cases hr : r = 0
    · obtain ⟨u, rfl, hu, -⟩ := InfoShell.one_patch k3 hr
      rw [List.mem_singleton.1 hv, hu]
      decide +kernel
    · cases k3 with
      | cons hd hn =>
        cases hn
        cases hd with
        | patched _ => exact absurd rfl hr
        | refused _ => cases hv
  obtain ⟨x, v, g1, -⟩ := k4 false InfoShell.wsI _ InfoShell.circI InfoShell.asksI (by decide +kernel) rfl
    ⟨rfl, rfl, fun u hu => ⟨hst u hu, by show 4096 < _; decide⟩, fun _ _ _ _ => rfl⟩
  exact ⟨t, outs, w', x, e1, k1, (e2 9).1 hn, g1⟩

theorem exT_good : GoodLives x86 4096 Psabi.x86Width (fun _ _ => fhR) exSys [actT] := by
  refine ⟨fun a ha => by rw [List.mem_singleton.1 ha]; trivial, ex_good.2.1, fun bs hbs p w us h => ?_⟩
  have key : w = fhWorld ∧ (us = [] ∨ us = [useT]) := by
    unfold life at h
    rw [ex_procs] at h
    have hlen : bs.length ≤ 1 := hbs.length_le
    rw [List.prefix_iff_eq_take.1 hbs] at h
    generalize bs.length = k at h hlen
    match k, hlen with
    | 0, _ | 1, _ =>
      simp only [List.take, List.foldl, ex_stepT] at h
      by_cases h7 : p = 7
      · subst h7
        simp at h
        simp [← h.1, ← h.2]
      by_cases h8 : p = 8
      · subst h8
        simp at h
        simp [← h.1, ← h.2]
      · have hn : ¬ (p = 7 ∨ p = 8) := by
          rintro (h | h) <;> contradiction
        simp only [if_neg hn, if_neg h7] at h
        cases h
  obtain ⟨hw, hc⟩ := key
  clear h
  subst hw
  refine ⟨rfl, ?_⟩
  rcases hc with rfl | rfl
  · exact ⟨by decide, trivial⟩
  · exact ⟨by show 1 < _; decide, ⟨TaskRun.exKern_lawful, mxJob_fine _, (by exact nofun), nofun⟩, fun _ _ _ => trivial⟩

/-- C142_none: `ultask -p7 --jmp …`, killed, and `ulpinfo -p7 --verb`. -/
example : ∃ t outs w', types x86 exSys [lineT] = some (t, outs) ∧ t.procs 7 = some w' ∧
    (InfoShell.ulpinfo t false InfoShell.wsI InfoShell.circI).2 = some (0, .noPatch 7) ∧ w'.mem 0x402010 = 0x55 := by
  obtain ⟨t, outs, e1, e2⟩ := C142_x86_partial 4096 (fun _ _ => fhR) exSys (.cons meT .nil) exT_good
  have hl : life exSys 7 [actT] = some (fhWorld, [useT]) := by
    unfold life
    rw [ex_procs]
    simp only [List.foldl, ex_stepT]
    rfl
  obtain ⟨w', rs, st, base, k1, -, -, -, k3, k5, -, k4⟩ := (e2 7).2 _ _ hl
  have k3 : AllDo [] [] rs st := k3
  cases k3
  have hm : w'.maps = [] := List.perm_nil.1 k5.maps.symm
  obtain ⟨x, v, g1, -, g2⟩ := k4 false InfoShell.wsI _ InfoShell.circI InfoShell.asksI (by decide +kernel) rfl ⟨rfl, rfl, nofun, nofun⟩
  rcases g2 with ⟨-, rfl⟩ | ⟨_, _, g2, -⟩
  · have hsaid : (InfoShell.ulpinfo t false InfoShell.wsI InfoShell.circI).2 = some (0, .noPatch 7) := by rw [g1]
    refine ⟨t, outs, w', e1, k1, hsaid, ?_⟩
    refine C142_none (e2 7) hl k1 InfoShell.asksI (by decide +kernel) rfl rfl (by rw [hm]; exact nofun) hsaid (by unfold fhR; decide) ?_
    intro u hu hn
    rw [List.mem_singleton.1 hu] at hn
    exact absurd (exT_names hn).2 (by decide)
  · exact absurd rfl g2

/-- The same, not killed. -/
def lineU : Line := .ultask false wsT TaskRun.exKern mxState Cli.exEnv TaskRun.exCirc mxLines (fun _ => ⟨0, 0, [], 0⟩) none none

/-- `ultask -p7 --jmp …` changes process 7. -/
example : ∃ t o, type x86 exSys lineU = some (t, o) ∧ t.procs 7 ≠ exSys.procs 7 := by
  obtain ⟨d, hd⟩ := TaskRun.C130_ends TaskRun.exKern_lawful .x86_64 (mxJob_fine (osT.map plain)) ⟨mxState, fhWorld.mem⟩ (by exact nofun)
  have hask : asks (mxJob (osT.map plain)).e (mxJob (osT.map plain)).opts = [.jmp 0x402000 0x403000] := exT_asks
  obtain ⟨r1, -⟩ := TaskRun.C131_jump TaskRun.exKern_lawful (mxJob_fine _) (mxJob_apart _) rfl rfl hd (src := 0x402000) (dst := 0x403000)
    (by rw [hask]; simp) ⟨(1, ⟨0x400000, 0x404000, []⟩), by simp [mxJob, mxLines], by decide, by decide⟩
    ⟨(1, ⟨0x400000, 0x404000, []⟩), by simp [mxJob, mxLines], by decide, by decide⟩ rfl rfl
    fun i hi => ⟨by exact nofun, TaskShell.no_unmap (by rw [hask]; simp [Cli.Act.change])⟩
  have hproc : exSys.procs 7 = some fhWorld := rfl
  have hrun : (⟨false, wsT, Cli.exEnv, TaskRun.exCirc, mxLines, fun _ => ⟨0, 0, [], 0⟩, none⟩ : TaskShell.Typed).run TaskRun.exKern
      fhWorld.arch ⟨mxState, fhWorld.mem⟩ = some d := by
    rw [TaskShell.C140_means spT]
    exact hd
  obtain ⟨t, h1, h2, -⟩ := C142_ultask x86 spT (p := 7) (by decide +kernel) hproc hrun
  obtain ⟨o, h1⟩ : ∃ o, type x86 exSys lineU = some (t, o) := ⟨_, h1⟩
  refine ⟨t, o, h1, ?_⟩
  rw [h2, hproc]
  intro e
  have e := congrArg Patch.World.mem (Option.some.inj e)
  change d.proc.mem = fhWorld.mem at e
  rw [e] at r1
  have := congrArg (fun l => l[0]?) r1
  rw [Mem.read_getElem?, if_pos (by decide)] at this
  exact absurd (Option.some.inj this) (by decide)

end Ulp.Session
