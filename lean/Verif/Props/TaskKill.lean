/-
C133: killing `ultask` at any moment leaves nothing half done.
-/
import Verif.Proof.TaskKill
import Verif.Props.TaskRun
namespace Ulp.TaskRun
open Ulp.Linux
open Ulp.Ultask
open Ulp.Vma
open Ulp.Cli (Act Opt)
open Ulp.Load (lit)

variable {pg : Nat} {k : Kern (Proc State)}

/-- **C133**, partial: for every kernel that answers as Linux does, every process, every command
line and every moment.  If `ultask` is killed, then what C130 says of a whole run holds of what is
left: no page and no byte is touched that no option names, only requests that the options ask for
have been made, and the process is not left stopped.  Missing: what is missing from C130. -/
theorem C133_killed_partial (hk : LawfulP pg k) {arch : Arch} {j : Job} (hj : j.Fine) {p p' : Proc State} {log : List Req}
    {i n : Nat} (h : j.killed k arch p i n = some (p', log)) :
    (∀ m q, ¬ Unmaps pg j.c.fs (mapsOf j.c j.ls) (asks j.e j.opts) m → p.w.space m = some q →
      Same pg (asks j.e j.opts) m q (p'.w.space m)) ∧
    (∀ m, ¬ Unmaps pg j.c.fs (mapsOf j.c j.ls) (asks j.e j.opts) m → p.w.space m = none →
      New pg (asks j.e j.opts) m (p'.w.space m)) ∧
    (∀ a : Addr, ¬ Unmaps pg j.c.fs (mapsOf j.c j.ls) (asks j.e j.opts) (a.toNat / pg) →
      p.w.space (a.toNat / pg) ≠ none → ¬ Jumps (asks j.e j.opts) a → p'.mem a = p.mem a) ∧
    (∀ q ∈ log, Asked j.c.fs (mapsOf j.c j.ls) (asks j.e j.opts) q) ∧
    (log ≠ [] → p'.w.stopped = false) := by
  obtain ⟨vs, ev, u, hf, hfr⟩ := fine_read hj
  unfold Job.killed at h
  rw [ev, Option.bind_some] at h
  unfold killed at h
  cases hp : Cli.taskParse j.e j.opts with
  | error m =>
    rw [hp] at h
    cases h
    exact ⟨fun _ _ _ q => Or.inl q, fun _ _ q => Or.inl q, fun _ _ _ _ => rfl, by simp, fun q => absurd rfl q⟩
  | ok g =>
    rw [hp] at h
    dsimp only at h
    have ha : asks j.e j.opts = Cli.acts g := by rw [asks, hp]
    rw [ha]
    by_cases h1 : j.c.starts = false
    · rw [if_pos h1] at h; cases h
      exact ⟨fun _ _ _ q => Or.inl q, fun _ _ q => Or.inl q, fun _ _ _ _ => rfl, by simp, fun q => absurd rfl q⟩
    rw [if_neg h1] at h
    by_cases h2 : j.c.opens = false
    · rw [if_pos h2] at h; cases h
      exact ⟨fun _ _ _ q => Or.inl q, fun _ _ q => Or.inl q, fun _ _ _ _ => rfl, by simp, fun q => absurd rfl q⟩
    rw [if_neg h2] at h
    cases hc : cutActs k arch j.c ⟨⟨p, []⟩, vs, j.out, 0⟩ (Cli.acts g) i n with
    | none => rw [hc] at h; cases h
    | some x =>
      rw [hc] at h
      cases h
      have h0 : Held pg j.c (mapsOf j.c j.ls) (Cli.acts g) (Cli.acts g) p ⟨⟨p, []⟩, vs, j.out, 0⟩ :=
        ⟨⟨u, hf, fun _ => hfr⟩, .refl _, by simp⟩
      have hh := left_acts hk (fun ls hls x hx => lines_in hls hx) h0 (acts_one g) hc
      have hfin : Frame pg j.c.fs (mapsOf j.c j.ls) (Cli.acts g) p (if x.2 = [] then x.1 else (k.ask x.1 .detach).1) := by
        by_cases hl : x.2 = []
        · rw [if_pos hl]; exact hh.frame
        · rw [if_neg hl]
          obtain ⟨q, hq⟩ := List.exists_mem_of_ne_nil _ hl
          exact hh.frame.trans (frame_ask hk _ (asked_detach (hh.log q hq)))
      refine ⟨hfin.same, hfin.new, hfin.mem, hh.log, ?_⟩
      intro hl
      rw [if_neg hl]
      have := (hk x.1 .detach).1
      simp only [Answers] at this
      rw [this]

/-- **C133**, partial: what is left has the pages, and but for the 16 bytes of a jump the memory, of a process
for which some of the options, from the first one on, have been carried out to the end and the
others not at all.  Missing: the bytes of a jump (`C133_violated`) and the open file of `--map`
(`C133_open_file`). -/
theorem C133_whole_partial (hk : LawfulP pg k) {arch : Arch} {j : Job} {p p' : Proc State} {log : List Req}
    {i n : Nat} (h : j.killed k arch p i n = some (p', log)) :
    ∃ m p1, m ≤ i + 1 ∧ j.upTo k arch p m = some p1 ∧ p'.w.space = p1.w.space ∧
      ∀ a : Addr, p1.w.space (a.toNat / pg) ≠ none → ¬ Jumps (asks j.e j.opts) a → p'.mem a = p1.mem a := by
  unfold Job.killed at h
  unfold Job.upTo
  cases ev : readTaskVmas (initVmas j.info) false j.ls with
  | none => rw [ev] at h; cases h
  | some vs =>
    rw [ev, Option.bind_some] at h
    have none_done : p' = p → ∃ m p1, m ≤ i + 1 ∧ ((some vs).bind fun vs =>
        (doActs k arch j.c ⟨⟨p, []⟩, vs, j.out, 0⟩ ((asks j.e j.opts).take m)).map fun s => s.run.w) = some p1 ∧
        p'.w.space = p1.w.space ∧
        ∀ a : Addr, p1.w.space (a.toNat / pg) ≠ none → ¬ Jumps (asks j.e j.opts) a → p'.mem a = p1.mem a := by
      intro e
      exact ⟨0, p, by omega, by rw [Option.bind_some, List.take_zero]; rfl, by rw [e], fun _ _ _ => by rw [e]⟩
    unfold killed at h
    cases hp : Cli.taskParse j.e j.opts with
    | error m => rw [hp] at h; cases h; exact none_done rfl
    | ok g =>
      rw [hp] at h
      dsimp only at h
      by_cases h1 : j.c.starts = false
      · rw [if_pos h1] at h; cases h; exact none_done rfl
      rw [if_neg h1] at h
      by_cases h2 : j.c.opens = false
      · rw [if_pos h2] at h; cases h; exact none_done rfl
      rw [if_neg h2] at h
      have ha : asks j.e j.opts = Cli.acts g := by rw [asks, hp]
      rw [ha]
      cases hc : cutActs k arch j.c ⟨⟨p, []⟩, vs, j.out, 0⟩ (Cli.acts g) i n with
      | none => rw [hc] at h; cases h
      | some x =>
        rw [hc] at h
        cases h
        obtain ⟨m, s, hm, hd, hs⟩ := whole_acts (pg := pg) hk hc
        refine ⟨m, s.run.w, hm, by rw [Option.bind_some, hd]; rfl, ?_⟩
        have : Alike pg (Cli.acts g) s.run.w (if x.2 = [] then x.1 else (k.ask x.1 .detach).1) := by
          by_cases hl : x.2 = []
          · rw [if_pos hl]; exact hs
          · rw [if_neg hl]; exact hs.trans (alike_ask hk _ rfl)
        exact ⟨this.space, this.mem⟩

theorem leaves_frame (hk : LawfulP pg k) {arch : Arch} {j : Job} (hj : j.Fine) {p p' : Proc State} {m : Option (Nat × Nat)}
    (h : j.leaves k arch p m = some p') : Frame pg j.c.fs (mapsOf j.c j.ls) (asks j.e j.opts) p p' := by
  cases m with
  | none =>
    unfold Job.leaves at h
    dsimp only at h
    cases h1 : j.run k arch p with
    | none => rw [h1] at h; cases h
    | some d =>
      rw [h1] at h; cases h
      exact (job_held hk hj h1).1
  | some x =>
    unfold Job.leaves at h
    dsimp only at h
    cases h1 : j.killed k arch p x.1 x.2 with
    | none => rw [h1] at h; cases h
    | some y =>
      rw [h1] at h; cases h
      obtain ⟨a, b, c, _⟩ := C133_killed_partial hk hj h1
      exact ⟨a, b, c⟩

/-- **C133**, partial: any number of runs, each of them killed at any moment or not.  A page that no
`--unmap` takes is still mapped and shows the same, with its protection or one asked for by one of
the `--mprotect`; a byte of it is what it was unless one of the `--jmp` names it. -/
theorem C133_history_partial (hk : LawfulP pg k) {arch : Arch} : ∀ (js : List (Job × Option (Nat × Nat))) {p p' : Proc State},
    (∀ x ∈ js, x.1.Fine) → tries k arch p js = some p' →
    (∀ n q, (∀ x ∈ js, ¬ Unmaps pg x.1.c.fs (mapsOf x.1.c x.1.ls) (asks x.1.e x.1.opts) n) → p.w.space n = some q →
      ∃ q', p'.w.space n = some q' ∧ q'.obj = q.obj ∧
        (q'.prot = q.prot ∨ ∃ x ∈ js, Rights pg (asks x.1.e x.1.opts) n q'.prot)) ∧
    (∀ a : Addr, (∀ x ∈ js, ¬ Unmaps pg x.1.c.fs (mapsOf x.1.c x.1.ls) (asks x.1.e x.1.opts) (a.toNat / pg)) →
      p.w.space (a.toNat / pg) ≠ none → (∀ x ∈ js, ¬ Jumps (asks x.1.e x.1.opts) a) → p'.mem a = p.mem a)
  | [], p, p', _, h => by
    cases h
    exact ⟨fun n q _ hq => ⟨q, hq, rfl, Or.inl rfl⟩, fun _ _ _ _ => rfl⟩
  | (j, m) :: js, p, p', hj, h => by
    unfold tries at h
    cases h1 : j.leaves k arch p m with
    | none => rw [h1] at h; cases h
    | some p1 =>
      rw [h1, Option.bind_some] at h
      have hf := leaves_frame hk (hj (j, m) (by simp)) h1
      obtain ⟨b1, b2⟩ := C133_history_partial hk js (fun x hx => hj x (by simp [hx])) h
      constructor
      · intro n q hu hq
        rcases hf.same n q (hu (j, m) (by simp)) hq with hs | ⟨r, hr, hs⟩
        · obtain ⟨q', c1, c2, c3⟩ := b1 n q (fun x hx => hu x (by simp [hx])) hs
          refine ⟨q', c1, c2, c3.imp id ?_⟩
          rintro ⟨x, hx, hr⟩
          exact ⟨x, by simp [hx], hr⟩
        · obtain ⟨q', c1, c2, c3⟩ := b1 n _ (fun x hx => hu x (by simp [hx])) hs
          refine ⟨q', c1, c2, Or.inr ?_⟩
          rcases c3 with c3 | ⟨x, hx, c3⟩
          · exact ⟨(j, m), by simp, by rw [c3]; exact hr⟩
          · exact ⟨x, by simp [hx], c3⟩
      · intro a hu hq hjmp
        have hm : p1.w.space (a.toNat / pg) ≠ none := by
          cases e : p.w.space (a.toNat / pg) with
          | none => exact absurd e hq
          | some q =>
            rcases hf.same _ q (hu (j, m) (by simp)) e with hs | ⟨r, hr, hs⟩ <;> (rw [hs]; exact nofun)
        rw [b2 a (fun x hx => hu x (by simp [hx])) hm (fun x hx => hjmp x (by simp [hx])),
          hf.mem a (hu (j, m) (by simp)) hq (hjmp (j, m) (by simp))]

/-! ## Examples, and what is missing -/

/-- The run of `ex_run`, killed: after `PTRACE_ATTACH`, and within the jump. -/
theorem runJmp_some {arch : Arch} {vs : Vma.Vmas} {m : Mem} {src dst : BitVec 64} {rd : Option Nat} (wr wr' : Option Nat)
    {x : Mem × Int} (h : runJmp arch vs m src dst rd wr = some x) : ∃ y, runJmp arch vs m src dst rd wr' = some y := by
  unfold runJmp at h ⊢
  by_cases c : src = 0 ∨ dst = 0
  · rw [if_pos c]
    exact ⟨_, rfl⟩
  · rw [if_neg c] at h ⊢
    cases h1 : Vma.findVma vs src with
    | none => rw [h1] at h; cases h
    | some a =>
      cases h2 : Vma.findVma vs dst with
      | none => rw [h1, h2] at h; cases h
      | some b => exact ⟨_, rfl⟩

/-- **C133**: a run can be killed anywhere, unless it is to dump the `[vdso]` and there is none: what is
left of the process is defined. -/
theorem C133_ends (hk : LawfulP pg k) (arch : Arch) {j : Job} (hj : j.Fine) (p : Proc State) (hv : j.c.vdso ≠ none) (i n : Nat) :
    ∃ x, j.killed k arch p i n = some x := by
  obtain ⟨d, hd⟩ := C130_ends hk arch hj p hv
  obtain ⟨vs, ev, _⟩ := fine_read hj
  unfold Job.run at hd
  unfold Job.killed
  rw [ev, Option.bind_some] at hd ⊢
  unfold ultask at hd
  unfold killed
  cases hp : Cli.taskParse j.e j.opts with
  | error m => exact ⟨_, rfl⟩
  | ok g =>
    rw [hp] at hd
    dsimp only at hd ⊢
    by_cases c1 : j.c.starts = false
    · rw [if_pos c1]; exact ⟨_, rfl⟩
    by_cases c2 : j.c.opens = false
    · rw [if_neg c1, if_pos c2]; exact ⟨_, rfl⟩
    rw [if_neg c1, if_neg c2] at hd ⊢
    unfold cutActs
    rw [← List.take_append_drop i (Cli.acts g), doActs_append] at hd
    cases e1 : doActs k arch j.c ⟨⟨p, []⟩, vs, j.out, 0⟩ ((Cli.acts g).take i) with
    | none => rw [e1] at hd; cases hd
    | some s =>
      rw [e1, Option.bind_some] at hd
      rw [Option.bind_some]
      cases e2 : (Cli.acts g).drop i with
      | nil => exact ⟨_, rfl⟩
      | cons a l =>
        rw [e2, doActs] at hd
        cases e3 : act k arch j.c s a with
        | none => rw [e3] at hd; cases hd
        | some s' =>
          have hc : ∃ y, cut k arch j.c s a n = some y := by
            unfold cut
            cases a with
            | jmp src dst =>
              dsimp only
              unfold act at e3
              dsimp only at e3
              cases e4 : runJmp arch s.vs s.run.w.mem src dst j.c.rd j.c.wr with
              | none => rw [e4] at e3; cases e3
              | some x =>
                obtain ⟨y, e5⟩ := runJmp_some j.c.wr (some n) e4
                rw [e5]
                exact ⟨_, rfl⟩
            | _ => dsimp only; rw [e3]; exact ⟨_, rfl⟩
          obtain ⟨y, hy⟩ := hc
          dsimp only
          rw [hy]
          exact ⟨_, rfl⟩

theorem ex_killed (n : Nat) :
    (∃ p', (exJob protJmp).killed exKern .x86_64 exProc 0 1 = some (p', [.attach]) ∧ p' = exProc) ∧
    ∃ p', (exJob protJmp).killed exKern .x86_64 exProc 1 n = some (p', [.attach, .mprotect 0x10000 0x1000 1, .detach]) ∧
      p'.w.space 0x10 = some ⟨1, 0x10⟩ ∧
      p'.mem = exProc.mem.write 0x11010 ((jmpEntry .x86_64 0x10000).take n) := by
  obtain ⟨vs, ev, f1, f2, _⟩ := ex_vs
  obtain ⟨g, hp, ha⟩ := protJmp_parse
  have ev' : readTaskVmas (initVmas (exJob protJmp).info) false (exJob protJmp).ls = some vs := ev
  have hp' : Cli.taskParse (exJob protJmp).e (exJob protJmp).opts = .ok g := hp
  have k1 : exKern.ask exProc .attach = ({ exProc with w := { exProc.w with stopped := true } }, 0) := rfl
  have k2 : exKern.ask { exProc with w := { exProc.w with stopped := true } } (.mprotect 0x10000 0x1000 ((1 : BitVec 64).setWidth 32)) =
      ({ exProc with w := ({ exProc.w with stopped := true } : State).change 4096 0x10000 0x1000 fun _ q => q.map fun q => { q with prot := 1 } }, 0) := by
    simp only [exKern]
    rw [if_pos (by decide +kernel)]
    rfl
  have hm : act exKern .x86_64 (exJob protJmp).c ⟨⟨exProc, []⟩, vs, (exJob protJmp).out, 0⟩ (.mprotect 0x10000 0x1000 1) =
      some ⟨⟨(exKern.ask (exKern.ask { exProc with w := { exProc.w with stopped := true } } (.mprotect 0x10000 0x1000 ((1 : BitVec 64).setWidth 32))).1 .detach).1,
        [.attach, .mprotect 0x10000 0x1000 1, .detach]⟩, vs, (exJob protJmp).out, 0⟩ := by
    unfold act
    dsimp only
    unfold mprotectRegion
    rw [if_neg (by decide), f1 0x10000 (by decide) (by decide), Option.bind_some, if_neg (by decide),
      f2 (0x10000 + 0x1000) (by decide) (by decide), Option.bind_some, if_neg (by decide)]
    dsimp only [Run.ask]
    rw [k1]
    dsimp only
    rw [if_neg (show ¬ int 0 ≠ 0 by decide), k2]
    rfl
  constructor
  · unfold Job.killed
    rw [ev', Option.bind_some]
    unfold killed
    rw [hp']
    dsimp only
    rw [if_neg (show ¬ (exJob protJmp).c.starts = false by exact nofun), if_neg (show ¬ (exJob protJmp).c.opens = false by exact nofun), ha]
    refine ⟨_, ?_, rfl⟩
    simp only [cutActs, List.take_zero, doActs, Option.bind_some, List.drop_zero, cut]
    rw [hm]
    rfl
  · unfold Job.killed
    rw [ev', Option.bind_some]
    unfold killed
    rw [hp']
    dsimp only
    rw [if_neg (show ¬ (exJob protJmp).c.starts = false by exact nofun), if_neg (show ¬ (exJob protJmp).c.opens = false by exact nofun), ha]
    simp only [cutActs, List.take_succ_cons, List.take_zero, doActs, List.drop_succ_cons, List.drop_zero, cut]
    rw [hm, Option.bind_some, Option.bind_some]
    dsimp only
    unfold runJmp
    rw [if_neg (by decide), f2 0x11010 (by decide) (by decide), Option.bind_some, f1 0x10000 (by decide) (by decide), Option.map_some,
      if_neg (by decide), k2]
    dsimp only
    rw [if_neg (by decide)]
    refine ⟨_, rfl, ?_, ?_⟩
    · rfl
    · simp only [apply_ite Prod.fst, ite_self]
      rfl

/-- C133: a run that is killed twice, the second time behind the jump. -/
example : ∃ p', tries exKern .x86_64 exProc [(exJob protJmp, some (0, 1)), (exJob protJmp, some (1, 16))] = some p' ∧
    (∃ q, p'.w.space 0x11 = some q ∧ q.obj = 0x11) ∧ p'.mem 0x11000 = 0x90 ∧ p'.mem 0x11010 ≠ 0x90 := by
  obtain ⟨⟨_, h1, rfl⟩, p2, h2, _, h3⟩ := ex_killed 16
  have ht : tries exKern .x86_64 exProc [(exJob protJmp, some (0, 1)), (exJob protJmp, some (1, 16))] = some p2 := by
    simp only [tries, Job.leaves, h1, h2, Option.map_some, Option.bind_some]
  have hu : ∀ n, ∀ x ∈ [(exJob protJmp, some (0, 1)), (exJob protJmp, some (1, 16))],
      ¬ Unmaps 4096 x.1.c.fs (mapsOf x.1.c x.1.ls) (asks x.1.e x.1.opts) n := by
    intro n x hx
    have : x.1 = exJob protJmp := by
      simp only [List.mem_cons, List.not_mem_nil, or_false] at hx
      rcases hx with rfl | rfl <;> rfl
    rw [this]
    rintro ⟨addr, m, hin, _⟩
    rw [show asks (exJob protJmp).e (exJob protJmp).opts = _ from protJmp_asks] at hin
    simp at hin
  obtain ⟨c1, _⟩ := C133_history_partial exKern_lawful _ (fun x hx => by
    simp only [List.mem_cons, List.not_mem_nil, or_false] at hx
    rcases hx with rfl | rfl <;> exact exJob_fine _) ht
  obtain ⟨q, d1, d2, _⟩ := c1 0x11 ⟨7, 0x11⟩ (hu _) rfl
  refine ⟨p2, ht, ⟨q, d1, d2⟩, ?_, ?_⟩ <;> rw [h3] <;> decide +kernel

/-- The memory when the first `m` of the actions are done. -/
theorem ex_upTo (m : Nat) {p1 : Proc State} (h : (exJob protJmp).upTo exKern .x86_64 exProc m = some p1) :
    p1.mem = exProc.mem ∨ p1.mem = exProc.mem.write 0x11010 (jmpEntry .x86_64 0x10000) := by
  obtain ⟨vs, ev, f1, f2, _⟩ := ex_vs
  unfold Job.upTo at h
  have ev' : readTaskVmas (initVmas (exJob protJmp).info) false (exJob protJmp).ls = some vs := ev
  rw [ev', Option.bind_some, show asks (exJob protJmp).e (exJob protJmp).opts = _ from protJmp_asks] at h
  have hm : ∀ s', act exKern .x86_64 (exJob protJmp).c ⟨⟨exProc, []⟩, vs, (exJob protJmp).out, 0⟩ (.mprotect 0x10000 0x1000 1) =
      some s' → s'.vs = vs ∧ s'.run.w.mem = exProc.mem := by
    intro s' e
    unfold act at e
    dsimp only at e
    unfold mprotectRegion at e
    rw [if_neg (by decide), f1 0x10000 (by decide) (by decide), Option.bind_some, if_neg (by decide),
      f2 (0x10000 + 0x1000) (by decide) (by decide), Option.bind_some, if_neg (by decide)] at e
    dsimp only [Run.ask] at e
    split at e
    · cases e
      exact ⟨rfl, rfl⟩
    · cases e
      refine ⟨rfl, ?_⟩
      simp only [exKern]
      split <;> (split <;> rfl)
  match m with
  | 0 => cases h; exact Or.inl rfl
  | 1 =>
    rw [List.take_succ_cons, List.take_zero, doActs] at h
    cases e : act exKern .x86_64 (exJob protJmp).c ⟨⟨exProc, []⟩, vs, (exJob protJmp).out, 0⟩ (.mprotect 0x10000 0x1000 1) with
    | none => rw [e] at h; cases h
    | some s' =>
      rw [e] at h
      cases h
      exact Or.inl (hm s' e).2
  | m + 2 =>
    rw [List.take_succ_cons, List.take_succ_cons, List.take_nil, doActs] at h
    cases e : act exKern .x86_64 (exJob protJmp).c ⟨⟨exProc, []⟩, vs, (exJob protJmp).out, 0⟩ (.mprotect 0x10000 0x1000 1) with
    | none => rw [e] at h; cases h
    | some s' =>
      obtain ⟨h1, h2⟩ := hm s' e
      rw [e, Option.bind_some, doActs, act, h1, h2] at h
      unfold runJmp at h
      rw [if_neg (by decide), f2 0x11010 (by decide) (by decide), Option.bind_some, f1 0x10000 (by decide) (by decide), Option.map_some,
        if_neg (by decide)] at h
      dsimp only at h
      rw [if_neg (by decide)] at h
      cases h
      right
      dsimp only
      split <;> rfl

/-- **C133** is violated: killed within the jump, `ultask` leaves a function that begins neither with
its own code nor with the jump, and that the process goes on running. -/
theorem C133_violated : LawfulP 4096 exKern ∧ (exJob protJmp).Fine ∧
    ∃ p' log, (exJob protJmp).killed exKern .x86_64 exProc 1 9 = some (p', log) ∧ p'.w.stopped = false ∧
      ∀ m p1, (exJob protJmp).upTo exKern .x86_64 exProc m = some p1 →
        ∃ a : Addr, (a - 0x11010).toNat < 16 ∧ p'.mem a ≠ p1.mem a := by
  refine ⟨exKern_lawful, exJob_fine _, ?_⟩
  obtain ⟨_, p', h, _, hmem⟩ := ex_killed 9
  refine ⟨p', _, h, (C133_killed_partial exKern_lawful (exJob_fine _) h).2.2.2.2 nofun, ?_⟩
  intro m p1 hu
  rcases ex_upTo m hu with e | e
  · exact ⟨0x11010, by decide, by rw [e, hmem]; decide +kernel⟩
  · exact ⟨0x1101a, by decide, by rw [e, hmem]; decide +kernel⟩

/-! ### The open file -/

def openEnv : Cli.Env := { Cli.exEnv with exist := fun _ => true, regular := fun _ => true, size := fun _ => 0x1000 }

def openF : List Opt := [.pid (lit "42"), .map (lit "file=/f")]

def openJob : Job := { exJob openF with e := openEnv, c := { exCirc with lines := none, fs := ⟨fun _ => true, fun _ => some 0x1000⟩ } }

theorem openF_parse : ∃ g, Cli.taskParse openEnv openF = .ok g ∧ Cli.acts g = [.map (lit "/f") 0 false false] :=
  ⟨{ pid := 42, mapFile := some (lit "/f"), rdonly := false }, by decide +kernel, by decide +kernel⟩

/-- **C133** is violated: killed between the opening and the closing of the file that `--map` names,
`ultask` leaves it open in the process, which knows nothing of it. -/
theorem C133_open_file : LawfulP 4096 exKern ∧ openJob.Fine ∧
    ∃ p', openJob.killed exKern .x86_64 exProc 0 2 = some (p', [.attach, .open (lit "/f") 2]) ∧
      exProc.w.fds = [0, 1, 2] ∧ p'.w.fds = [3, 0, 1, 2] ∧ p'.w.space = exProc.w.space := by
  refine ⟨exKern_lawful, exJob_fine openF, ?_⟩
  obtain ⟨vs, ev, f1, f2, _⟩ := ex_vs
  obtain ⟨g, hp, ha⟩ := openF_parse
  have ev' : readTaskVmas (initVmas openJob.info) false openJob.ls = some vs := ev
  have hp' : Cli.taskParse openJob.e openJob.opts = .ok g := hp
  unfold Job.killed
  rw [ev', Option.bind_some]
  unfold killed
  rw [hp']
  dsimp only
  rw [if_neg (show ¬ openJob.c.starts = false by exact nofun), if_neg (show ¬ openJob.c.opens = false by exact nofun), ha]
  exact ⟨⟨{ exProc.w with fds := [3, 0, 1, 2] }, exProc.mem⟩, rfl, rfl, rfl, rfl⟩

end Ulp.TaskRun
