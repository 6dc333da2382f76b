/-
What a command line asks for is done: lemmas about the order of the actions.
-/
import Verif.Spec.TaskDo
import Verif.Proof.TaskRun
import Verif.Props.Maps
namespace Ulp.TaskRun
open Ulp.Linux
open Ulp.Ultask
open Ulp.Vma
open Ulp.Cli (Act)

variable {pg : Nat} {k : Kern (Proc State)} {arch : Arch}

/-! ## What the tree knows -/

theorem line_apart {j : Job} (h : j.Apart) : j.ls.Pairwise fun x y => Range.Apart x.2.range y.2.range :=
  h.imp fun {x y} hxy => by
    intro a
    simp only [Range.Range.Has, Line.range]
    have : x.2.stop.toNat ≤ y.2.start.toNat ∨ y.2.stop.toNat ≤ x.2.start.toNat := hxy
    omega

/-- Every address of a line is found in its structure. -/
theorem found {j : Job} (hj : j.Fine) (ha : j.Apart) {vs : Vmas} (e : readTaskVmas (initVmas j.info) false j.ls = some vs)
    {x : Nat × Line} (hx : x ∈ j.ls) {a : BitVec 64} (h1 : x.2.start ≤ a) (h2 : a < x.2.stop) :
    findVma vs a = some x.1 ∧ x.1 ≠ 0 ∧ areaOf (vs.info x.1) = areaOfLine x.2 := by
  obtain ⟨f1, f2⟩ := hj
  unfold linesOf at f1 f2
  have hn : (0 :: j.ls.map (·.1)).Nodup := by
    refine f1.sublist ?_
    rw [List.map_append]
    exact (List.sublist_append_left _ _).cons_cons 0
  have hl : ∀ y ∈ j.ls, y.2.start < y.2.stop := fun y hy => f2 y (List.mem_append_left _ hy)
  have h0 : ∀ y ∈ j.ls, y.1 ≠ 0 := fun y hy e => (List.nodup_cons.1 hn).1 (by rw [← e]; exact List.mem_map_of_mem hy)
  obtain ⟨vs', e1, _, hf⟩ := C46_first_read_found j.info j.ls hn hl (line_apart ha)
  rw [e] at e1
  cases e1
  have hfx := hf a x hx h1 h2
  refine ⟨hfx, h0 x hx, ?_⟩
  obtain ⟨vs', e2, hfr⟩ := From.read false j.ls (From.init j.info) hn (fun y hy => ⟨h0 y hy, by simp, hl y hy⟩)
  have e2' : readTaskVmas (initVmas j.info) false j.ls = some vs' := e2
  rw [e] at e2'
  cases e2'
  obtain ⟨v, ev, hv⟩ := hfr.find a
  rw [hfx] at ev
  cases ev
  obtain ⟨g1, g2, g3⟩ := hv (h0 x hx)
  rw [List.append_nil] at g1
  obtain ⟨y, hy, ey⟩ := List.mem_map.1 g1
  have hyx : y = x := by
    have hys : y.2.start = (vs.info x.1).start := congrArg Area.lo ey
    have hyt : y.2.stop = (vs.info x.1).stop := congrArg Area.hi ey
    have p1 : y.2.start ≤ a := by rw [hys]; exact g2
    have p2 : a < y.2.stop := by rw [hyt]; exact g3
    have := hf a y hy p1 p2
    rw [hfx] at this
    have e1 : x.1 = y.1 := Option.some.inj this
    have hnd := (List.nodup_cons.1 hn).2
    obtain ⟨i, hi, rfl⟩ := List.mem_iff_getElem.1 hx
    obtain ⟨m, hm, rfl⟩ := List.mem_iff_getElem.1 hy
    have hi' : i < (j.ls.map (·.1)).length := by rw [List.length_map]; exact hi
    have hm' : m < (j.ls.map (·.1)).length := by rw [List.length_map]; exact hm
    have em : (j.ls.map (·.1))[i] = (j.ls.map (·.1))[m] := by rw [List.getElem_map, List.getElem_map]; exact e1
    have := (List.getElem_inj hnd).1 em
    subst this
    rfl
  rw [← hyx]
  exact hyx ▸ ey.symm

/-! ## The parts of a run -/

theorem ran {j : Job} {p : Proc State} {d : Done State} (h : j.run k arch p = some d) (hs : j.c.starts = true) (ho : j.c.opens = true)
    (hne : asks j.e j.opts ≠ []) :
    ∃ vs g s, readTaskVmas (initVmas j.info) false j.ls = some vs ∧ asks j.e j.opts = Cli.acts g ∧
      doActs k arch j.c ⟨⟨p, []⟩, vs, j.out, 0⟩ (Cli.acts g) = some s ∧
      d = ⟨if s.run.log = [] then s.run.w else (k.ask s.run.w .detach).1, s.run.log, s.out, s.ret⟩ := by
  unfold Job.run at h
  cases hv : readTaskVmas (initVmas j.info) false j.ls with
  | none => rw [hv] at h; cases h
  | some vs =>
    rw [hv, Option.bind_some] at h
    unfold ultask at h
    cases hp : Cli.taskParse j.e j.opts with
    | error n =>
      have : asks j.e j.opts = [] := by unfold asks; rw [hp]
      exact absurd this hne
    | ok g =>
      rw [hp] at h
      dsimp only at h
      rw [if_neg (by rw [hs]; exact nofun), if_neg (by rw [ho]; exact nofun)] at h
      cases hd : doActs k arch j.c ⟨⟨p, []⟩, vs, j.out, 0⟩ (Cli.acts g) with
      | none => rw [hd] at h; cases h
      | some s =>
        rw [hd] at h
        cases h
        exact ⟨vs, g, s, rfl, by rw [asks, hp], hd, rfl⟩

theorem doActs_mid {c : Circ} {l1 l2 : List Act} {a : Act} {s s' : Run' State} (h : doActs k arch c s (l1 ++ a :: l2) = some s') :
    ∃ s1 s2, doActs k arch c s l1 = some s1 ∧ act k arch c s1 a = some s2 ∧ doActs k arch c s2 l2 = some s' := by
  rw [doActs_append] at h
  cases e1 : doActs k arch c s l1 with
  | none => rw [e1] at h; cases h
  | some s1 =>
    rw [e1, Option.bind_some, doActs] at h
    cases e2 : act k arch c s1 a with
    | none => rw [e2] at h; cases h
    | some s2 =>
      rw [e2, Option.bind_some] at h
      exact ⟨s1, s2, rfl, e2, h⟩

/-! ## The order -/

theorem mem_one {b : Bool} {a x : Act} (h : x ∈ Cli.one b a) : b = true ∧ x = a := by
  unfold Cli.one at h
  cases b with
  | false => cases h
  | true => exact ⟨rfl, List.mem_singleton.1 h⟩

/-- Nothing is written to a file after a jump is put in. -/
theorem acts_dumps (g : Cli.Cfg) : ∃ A B, Cli.acts g = A ++ B ∧ (∀ a ∈ A, a.change ≠ some .jmp) ∧ (∀ a ∈ B, a.file = none) := by
  unfold Cli.acts
  dsimp only
  rw [List.append_assoc]
  refine ⟨_, _, rfl, ?_, ?_⟩
  · intro a ha
    cases hm : g.mapFile with
    | none =>
      rw [hm] at ha
      simp only [List.mem_append] at ha
      rcases ha with ((((((((((((h | h) | h) | h) | h) | h) | h) | h) | h) | h) | h) | h) | h) <;>
        first
          | (cases h; done)
          | (rw [(mem_one h).2]; exact nofun)
    | some f =>
      rw [hm] at ha
      simp only [List.mem_append] at ha
      rcases ha with ((((((((((((h | h) | h) | h) | h) | h) | h) | h) | h) | h) | h) | h) | h) <;>
        first
          | (rw [List.mem_singleton.1 h]; exact nofun)
          | (rw [(mem_one h).2]; exact nofun)
  · intro a ha
    simp only [List.mem_append] at ha
    rcases ha with h | h <;> (rw [(mem_one h).2]; rfl)

theorem acts_jmp {g : Cli.Cfg} {src dst : BitVec 64} (h : .jmp src dst ∈ Cli.acts g) :
    src ≠ 0 ∧ dst ≠ 0 ∧ ∃ A B, Cli.acts g = A ++ .jmp src dst :: B ∧ (∀ a ∈ B, a.change = none) := by
  have hj : (decide (g.jmpFrom ≠ 0 ∧ g.jmpTo ≠ 0)) = true ∧ Act.jmp src dst = .jmp g.jmpFrom g.jmpTo := by
    unfold Cli.acts at h
    dsimp only at h
    simp only [List.mem_append] at h
    rcases h with ((((((((((((((h | h) | h) | h) | h) | h) | h) | h) | h) | h) | h) | h) | h) | h) | h)
    all_goals first
      | exact mem_one h
      | (cases (mem_one h).2; done)
      | (cases hm : g.mapFile with
        | none => rw [hm] at h; cases h
        | some f => rw [hm] at h; cases List.mem_singleton.1 h)
  obtain ⟨h1, h2⟩ := hj
  have h3 := of_decide_eq_true h1
  cases h2
  refine ⟨h3.1, h3.2, ?_⟩
  unfold Cli.acts
  dsimp only
  rw [List.append_assoc, show Cli.one (decide (g.jmpFrom ≠ 0 ∧ g.jmpTo ≠ 0)) (.jmp g.jmpFrom g.jmpTo) = [.jmp g.jmpFrom g.jmpTo] by
    rw [h1]; rfl]
  refine ⟨_, _, rfl, ?_⟩
  intro a ha
  rw [(mem_one ha).2]
  rfl

/-! ## What an action leaves alone -/

theorem stopped_ask (hk : LawfulP pg k) {p : Proc State} (h : p.w.stopped = false) (ha : int (k.ask p .attach).2 ≠ 0) :
    (k.ask p .attach).1.w.stopped = false := by
  have := (hk p .attach).1
  simp only [Answers] at this
  rcases this with ⟨e, _⟩ | ⟨_, e⟩
  · exact absurd e ha
  · rw [e]; exact h

theorem stopped_detach (hk : LawfulP pg k) (p : Proc State) : (k.ask p .detach).1.w.stopped = false := by
  have := (hk p .detach).1
  simp only [Answers] at this
  rw [this]

theorem mprotect_stopped (hk : LawfulP pg k) {vs : Vmas} {addr len prot : BitVec 64} {r : Run (Proc State)}
    {x : Run (Proc State) × Int} (h : mprotectRegion k vs addr len prot r = some x) (hr : r.w.w.stopped = false) :
    x.1.w.w.stopped = false := by
  unfold mprotectRegion at h
  by_cases h0 : addr = 0 ∨ len = 0
  · rw [if_pos h0] at h; cases h; exact hr
  rw [if_neg h0] at h
  cases h1 : findVma vs addr with
  | none => rw [h1] at h; cases h
  | some v =>
    rw [h1, Option.bind_some] at h
    by_cases h2 : v = 0
    · rw [if_pos h2] at h; cases h; exact hr
    rw [if_neg h2] at h
    cases h3 : findVma vs (addr + len) with
    | none => rw [h3] at h; cases h
    | some v =>
      rw [h3, Option.bind_some] at h
      by_cases h4 : v = 0
      · rw [if_pos h4] at h; cases h; exact hr
      rw [if_neg h4] at h
      dsimp only [Run.ask] at h
      by_cases h5 : int (k.ask r.w .attach).2 ≠ 0
      · rw [if_pos h5] at h; cases h; exact stopped_ask hk hr h5
      · rw [if_neg h5] at h; cases h; exact stopped_detach hk _

theorem munmap_stopped (hk : LawfulP pg k) {fs : Fs} {vs : Vmas} {addr : BitVec 64} {r : Run (Proc State)}
    {x : Run (Proc State) × Int} (h : munmapVma k fs vs addr r = some x) (hr : r.w.w.stopped = false) :
    x.1.w.w.stopped = false := by
  unfold munmapVma at h
  cases h1 : findVma vs addr with
  | none => rw [h1] at h; cases h
  | some v =>
    rw [h1, Option.bind_some] at h
    by_cases h2 : v = 0
    · rw [if_pos h2] at h; cases h; exact hr
    rw [if_neg h2] at h
    dsimp only [Run.ask] at h
    by_cases h5 : int (k.ask r.w .attach).2 ≠ 0
    · rw [if_pos h5] at h; cases h; exact stopped_ask hk hr h5
    · rw [if_neg h5] at h; cases h; exact stopped_detach hk _

theorem withOut_eq {s s' : Run' State} {x : Option (Option (List Byte) × Int)} (h : withOut s x = some s') :
    ∃ y, x = some y ∧ s' = { s with out := y.1 } := by
  unfold withOut at h
  cases x with
  | none => cases h
  | some y => cases h; exact ⟨y, rfl, rfl⟩

/-- What an action other than `--map` leaves alone. -/
theorem act_keeps (hk : LawfulP pg k) {c : Circ} {a : Act} {s s' : Run' State} (e : act k arch c s a = some s')
    (hm : a.change ≠ some .map) :
    s'.vs = s.vs ∧ (s.run.w.w.stopped = false → s'.run.w.w.stopped = false) ∧ (a.file = none → s'.out = s.out) ∧
      (a.change = none ∨ a.change = some .jmp → s'.run.w.w = s.run.w.w) := by
  have same : act k arch c s a = some s → s'.vs = s.vs ∧ (s.run.w.w.stopped = false → s'.run.w.w.stopped = false) ∧
      (a.file = none → s'.out = s.out) ∧ (a.change = none ∨ a.change = some .jmp → s'.run.w.w = s.run.w.w) := by
    intro h0
    rw [h0] at e; cases e
    exact ⟨rfl, id, fun _ => rfl, fun _ => rfl⟩
  have outs : ∀ x f, withOut s x = some s' → a.file = some f → s'.vs = s.vs ∧ (s.run.w.w.stopped = false → s'.run.w.w.stopped = false) ∧
      (a.file = none → s'.out = s.out) ∧ (a.change = none ∨ a.change = some .jmp → s'.run.w.w = s.run.w.w) := by
    intro x f hx hf
    obtain ⟨y, _, rfl⟩ := withOut_eq hx
    exact ⟨rfl, id, fun q => absurd (hf.symm.trans q) (by exact nofun), fun _ => rfl⟩
  cases a with
  | mprotect addr len prot =>
    unfold act at e
    dsimp only at e
    cases h1 : mprotectRegion k s.vs addr len prot s.run with
    | none => rw [h1] at e; cases e
    | some x =>
      rw [h1] at e; cases e
      exact ⟨rfl, mprotect_stopped hk h1, fun _ => rfl, fun q => by rcases q with q | q <;> cases q⟩
  | unmap addr =>
    unfold act at e
    dsimp only at e
    cases h1 : munmapVma k c.fs s.vs addr s.run with
    | none => rw [h1] at e; cases e
    | some x =>
      rw [h1] at e; cases e
      exact ⟨rfl, munmap_stopped hk h1, fun _ => rfl, fun q => by rcases q with q | q <;> cases q⟩
  | map path addr ro noexec => exact absurd rfl hm
  | jmp src dst =>
    unfold act at e
    dsimp only at e
    cases h1 : runJmp arch s.vs s.run.w.mem src dst c.rd c.wr with
    | none => rw [h1] at e; cases e
    | some x =>
      rw [h1] at e; cases e
      exact ⟨rfl, id, fun _ => rfl, fun _ => rfl⟩
  | dumpVma file addr => exact outs _ _ e rfl
  | dumpVdso file =>
    unfold act at e
    dsimp only at e
    cases hv : c.vdso with
    | none => rw [hv] at e; cases e
    | some a => rw [hv] at e; exact outs _ _ e rfl
  | dumpMem file addr size => exact outs _ _ e rfl
  | printTask => exact same rfl
  | auxv => exact same rfl
  | status => exact same rfl
  | vmas => exact same rfl
  | symbols => exact same rfl
  | threads => exact same rfl
  | fds => exact same rfl
  | disasm _ _ => exact same rfl

theorem acts_keep (hk : LawfulP pg k) {c : Circ} : ∀ (l : List Act) {s s' : Run' State}, doActs k arch c s l = some s' →
    (∀ a ∈ l, a.change ≠ some .map) →
    s'.vs = s.vs ∧ (s.run.w.w.stopped = false → s'.run.w.w.stopped = false) ∧ ((∀ a ∈ l, a.file = none) → s'.out = s.out) ∧
      ((∀ a ∈ l, a.change = none ∨ a.change = some .jmp) → s'.run.w.w = s.run.w.w)
  | [], s, s', e, _ => by cases e; exact ⟨rfl, id, fun _ => rfl, fun _ => rfl⟩
  | a :: l, s, s', e, hm => by
    unfold doActs at e
    cases h1 : act k arch c s a with
    | none => rw [h1] at e; cases e
    | some s1 =>
      rw [h1, Option.bind_some] at e
      obtain ⟨a1, a2, a3, a4⟩ := act_keeps hk h1 (hm a (by simp))
      obtain ⟨b1, b2, b3, b4⟩ := acts_keep hk l e (fun x hx => hm x (by simp [hx]))
      exact ⟨b1.trans a1, fun q => b2 (a2 q), fun q => (b3 fun x hx => q x (by simp [hx])).trans (a3 (q a (by simp))),
        fun q => (b4 fun x hx => q x (by simp [hx])).trans (a4 (q a (by simp)))⟩

/-- The files are as they were, `--map` or not. -/
theorem act_out {c : Circ} {a : Act} {s s' : Run' State} (e : act k arch c s a = some s') (hf : a.file = none) : s'.out = s.out := by
  cases a with
  | map path addr ro noexec =>
    unfold act at e
    dsimp only at e
    cases h1 : mmapFile k c.fs s.vs path addr ro noexec ⟨s.run.w, []⟩ with
    | none => rw [h1] at e; cases e
    | some x =>
      rw [h1, Option.bind_some] at e
      by_cases hl : x.1.log.getLast? = some .detach
      · rw [if_pos hl] at e
        cases h2 : reread s.vs c.lines with
        | none => rw [h2] at e; cases e
        | some vs => rw [h2] at e; cases e; rfl
      · rw [if_neg hl] at e; cases e; rfl
  | mprotect addr len prot =>
    unfold act at e
    dsimp only at e
    cases h1 : mprotectRegion k s.vs addr len prot s.run with
    | none => rw [h1] at e; cases e
    | some x => rw [h1] at e; cases e; rfl
  | unmap addr =>
    unfold act at e
    dsimp only at e
    cases h1 : munmapVma k c.fs s.vs addr s.run with
    | none => rw [h1] at e; cases e
    | some x => rw [h1] at e; cases e; rfl
  | jmp src dst =>
    unfold act at e
    dsimp only at e
    cases h1 : runJmp arch s.vs s.run.w.mem src dst c.rd c.wr with
    | none => rw [h1] at e; cases e
    | some x => rw [h1] at e; cases e; rfl
  | dumpVma file addr => cases hf
  | dumpVdso file => cases hf
  | dumpMem file addr size => cases hf
  | _ => cases e; rfl

theorem acts_out {c : Circ} : ∀ (l : List Act) {s s' : Run' State}, doActs k arch c s l = some s' → (∀ a ∈ l, a.file = none) →
    s'.out = s.out
  | [], s, s', e, _ => by cases e; rfl
  | a :: l, s, s', e, hf => by
    unfold doActs at e
    cases h1 : act k arch c s a with
    | none => rw [h1] at e; cases e
    | some s1 =>
      rw [h1, Option.bind_some] at e
      exact (acts_out l e fun x hx => hf x (by simp [hx])).trans (act_out h1 (hf a (by simp)))

end Ulp.TaskRun
