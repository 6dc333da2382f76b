/-
C130: a run of `ultask` changes what its command line names and nothing else.
-/
import Verif.Proof.TaskRun
import Verif.Props.Cli
import Verif.Props.Maps
namespace Ulp.TaskRun
open Ulp.Linux
open Ulp.Ultask
open Ulp.Vma
open Ulp.Cli (Act Opt)
open Ulp.Load (lit)

variable {pg : Nat} {k : Kern (Proc State)}

/-- **C130**, partial: for every kernel that answers as Linux does, every process, every command
line, every state of the files and every outcome of reads and writes.  After a run of `ultask`,
a page that `--unmap` does not take is as before, except for the protection `--mprotect` asks
for; a page that was not mapped is mapped only if `--map` is given; a byte of it is as before
unless it is one of the 16 that `--jmp` names; only requests that the options ask for are made;
and the process is not left stopped.  Missing: that `--unmap` takes the mapping that is named
and not more (`C130_neighbour`). -/
theorem C130_run_partial (hk : LawfulP pg k) {arch : Arch} {j : Job} (hj : j.Fine) {p : Proc State} {d : Done State}
    (h : j.run k arch p = some d) :
    (∀ n q, ¬ Unmaps pg j.c.fs (mapsOf j.c j.ls) (asks j.e j.opts) n → p.w.space n = some q →
      Same pg (asks j.e j.opts) n q (d.proc.w.space n)) ∧
    (∀ n, ¬ Unmaps pg j.c.fs (mapsOf j.c j.ls) (asks j.e j.opts) n → p.w.space n = none →
      New pg (asks j.e j.opts) n (d.proc.w.space n)) ∧
    (∀ a : Addr, ¬ Unmaps pg j.c.fs (mapsOf j.c j.ls) (asks j.e j.opts) (a.toNat / pg) →
      p.w.space (a.toNat / pg) ≠ none → ¬ Jumps (asks j.e j.opts) a → d.proc.mem a = p.mem a) ∧
    (∀ q ∈ d.log, Asked j.c.fs (mapsOf j.c j.ls) (asks j.e j.opts) q) ∧
    (p.w.stopped = false → d.proc.w.stopped = false) := by
  obtain ⟨h1, h2, _, h4⟩ := job_held hk hj h
  exact ⟨h1.same, h1.new, h1.mem, h2, h4⟩

/-- **C130**: a command line without `--mprotect`, `--map`, `--unmap` and `--jmp` changes nothing
in the process, and asks nothing of it. -/
theorem C130_look {arch : Arch} {j : Job} {p : Proc State} {d : Done State} (h : j.run k arch p = some d)
    (ho : ∀ o ∈ j.opts, o.change = none) : d.proc = p ∧ d.log = [] := by
  unfold Job.run at h
  cases hv : readTaskVmas (initVmas j.info) false j.ls with
  | none => rw [hv] at h; cases h
  | some vs =>
    rw [hv, Option.bind_some] at h
    unfold ultask at h
    cases hp : Cli.taskParse j.e j.opts with
    | error n => rw [hp] at h; cases h; exact ⟨rfl, rfl⟩
    | ok g =>
      rw [hp] at h
      dsimp only at h
      by_cases h1 : j.c.starts = false
      · rw [if_pos h1] at h; cases h; exact ⟨rfl, rfl⟩
      rw [if_neg h1] at h
      by_cases h2 : j.c.opens = false
      · rw [if_pos h2] at h; cases h; exact ⟨rfl, rfl⟩
      rw [if_neg h2] at h
      cases hd : doActs k arch j.c ⟨⟨p, []⟩, vs, j.out, 0⟩ (Cli.acts g) with
      | none => rw [hd] at h; cases h
      | some s =>
        rw [hd] at h
        cases h
        have hr := look_acts (Cli.acts g) (fun a ha => by
          cases hc : a.change with
          | none => rfl
          | some kd =>
            obtain ⟨o, hoin, hoc⟩ := ((Cli.C69_asked hp).1 kd).1 ⟨a, ha, hc⟩
            rw [ho o hoin] at hoc; cases hoc) hd
        dsimp only
        rw [hr]
        exact ⟨if_pos rfl, rfl⟩

/-- **C130**: a run always comes to an end, unless it is to dump the `[vdso]` and there is none
(`C130_novdso`). -/
theorem C130_ends (hk : LawfulP pg k) (arch : Arch) {j : Job} (hj : j.Fine) (p : Proc State) (hv : j.c.vdso ≠ none) :
    ∃ d, j.run k arch p = some d := by
  obtain ⟨vs, ev, u, hf, hfr⟩ := fine_read hj
  unfold Job.run
  rw [ev, Option.bind_some]
  unfold ultask
  cases hp : Cli.taskParse j.e j.opts with
  | error n => exact ⟨_, rfl⟩
  | ok g =>
    dsimp only
    split
    · exact ⟨_, rfl⟩
    · split
      · exact ⟨_, rfl⟩
      · have h0 : Held pg j.c (mapsOf j.c j.ls) (Cli.acts g) (Cli.acts g) p ⟨⟨p, []⟩, vs, j.out, 0⟩ :=
          ⟨⟨u, hf, fun _ => hfr⟩, .refl _, by simp⟩
        obtain ⟨s, e⟩ := acts_some hk (arch := arch) hv (fun ls hls x hx => lines_in hls hx) (Cli.acts g) h0
          (fun _ q => q) (acts_one g)
        rw [e]
        exact ⟨_, rfl⟩

/-- **C130**: if the status of a run is 0, every page of the region that
`--mprotect` names has the protection asked for, unless `--unmap` takes it in the same run.  For
every kernel that reports errors by negative numbers. -/
theorem C130_protected (hk : LawfulP pg k) (he : Errs k) {arch : Arch} {j : Job} (hj : j.Fine) {p : Proc State} {d : Done State}
    (h : j.run k arch p = some d) (hst : d.status = 0)
    {addr len prot : BitVec 64} (hin : .mprotect addr len prot ∈ asks j.e j.opts) {n : Nat}
    (hn : Touches pg addr.toNat len.toNat n) (hu : ¬ Unmaps pg j.c.fs (mapsOf j.c j.ls) (asks j.e j.opts) n) :
    ∃ q, d.proc.w.space n = some q ∧ q.prot = prot.setWidth 32 := by
  obtain ⟨vs, ev, u, hf, hfr⟩ := fine_read hj
  unfold Job.run at h
  rw [ev, Option.bind_some] at h
  unfold ultask at h
  cases hp : Cli.taskParse j.e j.opts with
  | error m =>
    unfold asks at hin
    rw [hp] at hin
    cases hin
  | ok g =>
    have ha : asks j.e j.opts = Cli.acts g := by rw [asks, hp]
    rw [ha] at hin hu
    rw [hp] at h
    dsimp only at h
    by_cases c1 : j.c.starts = false
    · rw [if_pos c1] at h; cases h; cases hst
    rw [if_neg c1] at h
    by_cases c2 : j.c.opens = false
    · rw [if_pos c2] at h; cases h; cases hst
    rw [if_neg c2] at h
    obtain ⟨l1, l2, hs⟩ := List.append_of_mem hin
    have hone := acts_protect g
    have hmap := acts_one g
    rw [hs] at h hone hmap hu
    rw [List.filter_append, List.filter_cons, if_pos (show isProtect (.mprotect addr len prot) = true from rfl),
      List.length_append, List.length_cons] at hone
    rw [doActs_append] at h
    cases e1 : doActs k arch j.c ⟨⟨p, []⟩, vs, j.out, 0⟩ l1 with
    | none => rw [e1] at h; cases h
    | some s1 =>
      rw [e1, Option.bind_some, doActs] at h
      cases e2 : act k arch j.c s1 (.mprotect addr len prot) with
      | none => rw [e2] at h; cases h
      | some s2 =>
        rw [e2, Option.bind_some] at h
        cases e3 : doActs k arch j.c s2 l2 with
        | none => rw [e3] at h; cases h
        | some s3 =>
          rw [e3] at h
          cases h
          dsimp only at hst ⊢
          have r1 := acts_ret he l1 e1
          have r3 := acts_ret he l2 e3
          dsimp only at r1
          unfold act at e2
          dsimp only at e2
          cases em : mprotectRegion k s1.vs addr len prot s1.run with
          | none => rw [em] at e2; cases e2
          | some x =>
            rw [em] at e2
            cases e2
            have rx := mprotect_ret he em
            dsimp only at r3
            obtain ⟨q, hq, hqp⟩ := mprotect_done hk em (by omega) hn
            have h0 : Held pg j.c (mapsOf j.c j.ls) (l1 ++ Act.mprotect addr len prot :: l2) (l1 ++ Act.mprotect addr len prot :: l2) p
                ⟨⟨p, []⟩, vs, j.out, 0⟩ := ⟨⟨u, hf, fun _ => hfr⟩, .refl _, by simp⟩
            have hl := fun ls hls x hx => lines_in (j := j) (ls := ls) hls (x := x) hx
            have h1 := held_split hk hl l1 (Act.mprotect addr len prot :: l2) h0
              (fun a ha => List.mem_append_left _ ha) hmap e1
            have h2 := held_act hk h1 (by simp) nofun hl (by
              show act k arch j.c s1 (.mprotect addr len prot) = _
              unfold act
              dsimp only
              rw [em]
              rfl)
            have h3 : Held pg j.c (mapsOf j.c j.ls) (l1 ++ Act.mprotect addr len prot :: l2) l2 x.1.w
              { s1 with run := x.1, ret := s1.ret + x.2 } := ⟨h2.known, .refl _, h2.log⟩
            have hmap2 : (l2.filter isMap).length ≤ 1 := by
              rw [List.filter_append, List.filter_cons, List.length_append] at hmap
              split at hmap
              · rw [List.length_cons] at hmap; omega
              · omega
            have h4 := held_acts hk hl l2 h3 (fun a ha => by simp [ha]) hmap2 e3
            have hend : ∃ q, s3.run.w.w.space n = some q ∧ q.prot = prot.setWidth 32 := by
              rcases h4.frame.same n q hu hq with hsame | ⟨r, ⟨a', l', v', hm', _, hr⟩, hsame⟩
              · exact ⟨q, hsame, hqp⟩
              · refine ⟨_, hsame, ?_⟩
                have hz1 : (l1.filter isProtect).length = 0 := by omega
                have hz2 : (l2.filter isProtect).length = 0 := by omega
                rw [List.mem_append, List.mem_cons] at hm'
                rcases hm' with hm' | hm' | hm'
                · have : Act.mprotect a' l' v' ∈ l1.filter isProtect := List.mem_filter.2 ⟨hm', rfl⟩
                  rw [List.length_eq_zero_iff.1 hz1] at this
                  cases this
                · cases hm'
                  exact hr
                · have : Act.mprotect a' l' v' ∈ l2.filter isProtect := List.mem_filter.2 ⟨hm', rfl⟩
                  rw [List.length_eq_zero_iff.1 hz2] at this
                  cases this
            obtain ⟨q', hend, hqp'⟩ := hend
            refine ⟨q', ?_, hqp'⟩
            split
            · exact hend
            · have := (hk s3.run.w .detach).1
              simp only [Answers] at this
              rw [this]
              exact hend

/-- **C130**, partial: any number of runs, one after the other.  A page that no `--unmap` takes is
still mapped and shows the same; its protection is what it was or what one of the `--mprotect`
asks for; a byte of it is what it was unless one of the `--jmp` names it. -/
theorem C130_history_partial (hk : LawfulP pg k) {arch : Arch} : ∀ (js : List Job) {p p' : Proc State}, (∀ j ∈ js, j.Fine) →
    runs k arch p js = some p' →
    (∀ n q, (∀ j ∈ js, ¬ Unmaps pg j.c.fs (mapsOf j.c j.ls) (asks j.e j.opts) n) → p.w.space n = some q →
      ∃ q', p'.w.space n = some q' ∧ q'.obj = q.obj ∧
        (q'.prot = q.prot ∨ ∃ j ∈ js, Rights pg (asks j.e j.opts) n q'.prot)) ∧
    (∀ a : Addr, (∀ j ∈ js, ¬ Unmaps pg j.c.fs (mapsOf j.c j.ls) (asks j.e j.opts) (a.toNat / pg)) →
      p.w.space (a.toNat / pg) ≠ none → (∀ j ∈ js, ¬ Jumps (asks j.e j.opts) a) → p'.mem a = p.mem a)
  | [], p, p', _, h => by
    cases h
    exact ⟨fun n q _ hq => ⟨q, hq, rfl, Or.inl rfl⟩, fun _ _ _ _ => rfl⟩
  | j :: js, p, p', hj, h => by
    unfold runs at h
    cases h1 : j.run k arch p with
    | none => rw [h1] at h; cases h
    | some d =>
      rw [h1, Option.bind_some] at h
      obtain ⟨a1, _, a3, _⟩ := C130_run_partial hk (hj j (by simp)) h1
      obtain ⟨b1, b2⟩ := C130_history_partial hk js (fun x hx => hj x (by simp [hx])) h
      constructor
      · intro n q hu hq
        rcases a1 n q (hu j (by simp)) hq with hs | ⟨r, hr, hs⟩
        · obtain ⟨q', c1, c2, c3⟩ := b1 n q (fun x hx => hu x (by simp [hx])) hs
          refine ⟨q', c1, c2, c3.imp id ?_⟩
          rintro ⟨x, hx, hr⟩
          exact ⟨x, by simp [hx], hr⟩
        · obtain ⟨q', c1, c2, c3⟩ := b1 n _ (fun x hx => hu x (by simp [hx])) hs
          refine ⟨q', c1, c2, Or.inr ?_⟩
          rcases c3 with c3 | ⟨x, hx, c3⟩
          · exact ⟨j, by simp, by rw [c3]; exact hr⟩
          · exact ⟨x, by simp [hx], c3⟩
      · intro a hu hq hjmp
        have hm : d.proc.w.space (a.toNat / pg) ≠ none := by
          cases e : p.w.space (a.toNat / pg) with
          | none => exact absurd e hq
          | some q =>
            rcases a1 _ q (hu j (by simp)) e with hs | ⟨r, hr, hs⟩ <;> (rw [hs]; exact nofun)
        rw [b2 a (fun x hx => hu x (by simp [hx])) hm (fun x hx => hjmp x (by simp [hx])),
          a3 a (hu j (by simp)) hq (hjmp j (by simp))]

/-- **C130**, what is missing: `--dump vdso` of a process without `[vdso]` uses a null pointer,
whatever else is asked for. -/
theorem C130_novdso {arch : Arch} {j : Job} (p : Proc State) {g : Cli.Cfg} (hp : Cli.taskParse j.e j.opts = .ok g)
    (hd : g.dumpVdso = true) (hv : j.c.vdso = none) (hs : j.c.starts = true ∧ j.c.opens = true) : j.run k arch p = none := by
  unfold Job.run
  cases readTaskVmas (initVmas j.info) false j.ls with
  | none => rfl
  | some vs =>
    rw [Option.bind_some]
    unfold ultask
    rw [hp]
    dsimp only
    rw [if_neg (by rw [hs.1]; exact nofun), if_neg (by rw [hs.2]; exact nofun)]
    have hin : ∃ f, Act.dumpVdso f ∈ Cli.acts g := by
      unfold Cli.acts Cli.one
      rw [hd]
      exact ⟨_, by simp; exact Or.inr rfl⟩
    obtain ⟨f, hin⟩ := hin
    obtain ⟨l1, l2, e⟩ := List.append_of_mem hin
    rw [e, doActs_append]
    cases doActs k arch j.c ⟨⟨p, []⟩, vs, j.out, 0⟩ l1 with
    | none => rfl
    | some s1 =>
      rw [Option.bind_some, doActs]
      have : act k arch j.c s1 (.dumpVdso f) = none := by
        unfold act
        dsimp only
        rw [hv]
      rw [this]
      rfl

/-! ## Examples -/

/-- A kernel that maps where it is asked to, and refuses otherwise. -/
def exKern : Kern (Proc State) where
  ask p q :=
    match q with
    | .attach => if p.w.stopped then (p, -1) else ({ p with w := { p.w with stopped := true } }, 0)
    | .detach => ({ p with w := { p.w with stopped := false } }, 0)
    | .open _ _ => if 3#32 ∈ p.w.fds then (p, -13) else ({ p with w := { p.w with fds := 3 :: p.w.fds } }, 3)
    | .ftruncate _ len => if 0 ≤ len.toInt then ({ p with w := { p.w with file := len.toNat } }, 0) else (p, -22)
    | .mmap _ _ _ _ _ _ => (p, -12)
    | .mprotect addr len prot =>
      if addr.toNat % 4096 = 0 ∧ (List.range ((addr.toNat + len.toNat + 4096 - 1) / 4096)).all
          (fun n => decide (n < addr.toNat / 4096) || (p.w.space n).isSome) = true then
        ({ p with w := p.w.change 4096 addr.toNat len.toNat fun _ q => q.map fun q => { q with prot := prot } }, 0)
      else (p, -12)
    | .munmap addr len =>
      if addr.toNat % 4096 = 0 ∧ 0 < len.toNat then
        ({ p with w := p.w.change 4096 addr.toNat len.toNat fun _ _ => none }, 0)
      else (p, -22)
    | .close fd => ({ p with w := { p.w with fds := p.w.fds.erase fd } }, 0)

theorem exKern_lawful : LawfulP 4096 exKern := by
  intro p q
  refine ⟨?_, ?_⟩
  · cases q with
    | attach =>
      simp only [exKern, Answers]
      split
      · exact Or.inr ⟨by dsimp only; decide, rfl⟩
      · rename_i h
        exact Or.inl ⟨by dsimp only; decide, by simpa using h, rfl⟩
    | detach => rfl
    | «open» path flags =>
      simp only [exKern, Answers]
      split
      · exact Or.inr ⟨by dsimp only; decide, rfl⟩
      · rename_i h
        exact Or.inl ⟨by dsimp only; decide, h, rfl⟩
    | ftruncate fd len =>
      simp only [exKern, Answers]
      split
      · rename_i h
        exact Or.inl ⟨by dsimp only; decide, h, rfl⟩
      · exact Or.inr rfl
    | mmap hint len prot flags fd off => exact Or.inr ⟨Or.inl ⟨by simp only [exKern]; decide, by simp only [exKern]; decide⟩, rfl⟩
    | mprotect addr len prot =>
      simp only [exKern, Answers]
      split
      · rename_i h
        refine Or.inl ⟨by dsimp only; decide, h.1, ?_, rfl⟩
        intro n hn
        have := List.all_eq_true.1 h.2 n (List.mem_range.2 hn.2)
        rw [Bool.or_eq_true] at this
        rcases this with this | this
        · have h1 := hn.1
          simp at this
          omega
        · intro e
          rw [e] at this
          cases this
      · exact Or.inr ⟨by dsimp only; decide, fun _ => false, by simp [State.change]⟩
    | munmap addr len =>
      simp only [exKern, Answers]
      split
      · rename_i h
        exact Or.inl ⟨by dsimp only; decide, h.1, h.2, rfl⟩
      · exact Or.inr ⟨by dsimp only; decide, rfl⟩
    | close fd => rfl
  · intro a _ _
    cases q <;> (simp only [exKern]; try split) <;> rfl

theorem exKern_errs : Errs exKern := by
  intro p q hq
  rcases hq with rfl | ⟨a, l, v, rfl⟩ | ⟨f, l, rfl⟩ <;> (simp only [exKern]; split <;> (dsimp only; decide))

/-- Two mappings of a page each; the first is of a file that has since grown to two pages. -/
def exLines : List (Nat × Line) := [(1, ⟨0x10000, 0x11000, lit "f"⟩), (2, ⟨0x11000, 0x12000, []⟩)]

def exCirc : Circ where
  fs := ⟨fun n => decide (n = lit "f"), fun n => if n = lit "f" then some 0x2000 else none⟩
  starts := true
  opens := true
  lines := some []
  rd := some 16
  wr := some 16
  vdso := some 0x11000
  dump := fun _ => ⟨none, 5, 0, [], none, none⟩

def exJob (opts : List Opt) : Job := ⟨Cli.exEnv, exCirc, exLines, fun _ => ⟨0, 0, [], 0⟩, none, opts⟩

theorem exJob_fine (opts : List Opt) : (exJob opts).Fine := by
  unfold Job.Fine
  have : linesOf (exJob opts).c (exJob opts).ls = exLines := rfl
  rw [this]
  exact ⟨by decide, by decide⟩

def exProc : Proc State := ⟨⟨fun n => if n = 0x10 ∨ n = 0x11 then some ⟨7, n⟩ else none, 0, [0, 1, 2], false⟩, fun _ => 0x90⟩

theorem ex_vs : ∃ vs, readTaskVmas (initVmas fun _ => ⟨0, 0, [], 0⟩) false exLines = some vs ∧
    (∀ a : BitVec 64, 0x10000 ≤ a → a < 0x11000 → findVma vs a = some 1) ∧
    (∀ a : BitVec 64, 0x11000 ≤ a → a < 0x12000 → findVma vs a = some 2) ∧
    (vs.info 1).start = 0x10000 ∧ (vs.info 1).stop = 0x11000 ∧ (vs.info 1).name = lit "f" := by
  obtain ⟨vs, e1, _, hf⟩ := C46_first_read_found (fun _ => ⟨0, 0, [], 0⟩) exLines (by decide) (by decide) (by
    simp [exLines, Line.range, Range.Apart, Ulp.Range.Range.Has]
    omega)
  obtain ⟨vs', e2, u, hfr, _⟩ := fine_read (exJob_fine [])
  have : vs' = vs := by
    have h := e2.symm.trans e1
    cases h
    rfl
  subst this
  have f1 := fun a => hf a (1, ⟨0x10000, 0x11000, lit "f"⟩) (by simp [exLines])
  have f2 := fun a => hf a (2, ⟨0x11000, 0x12000, []⟩) (by simp [exLines])
  refine ⟨vs', e1, f1, f2, ?_⟩
  obtain ⟨v, ev, hv⟩ := hfr.find 0x10000
  rw [f1 0x10000 (by decide) (by decide)] at ev
  cases ev
  obtain ⟨h1, h2, h3⟩ := hv (by decide)
  have hm : mapsOf (exJob []).c (exJob []).ls = [⟨0x10000, 0x11000, lit "f"⟩, ⟨0x11000, 0x12000, []⟩] := rfl
  rw [hm] at h1
  rcases List.mem_cons.1 h1 with h1 | h1
  · exact ⟨congrArg Area.lo h1, congrArg Area.hi h1, congrArg Area.name h1⟩
  · rw [List.mem_singleton] at h1
    have := congrArg Area.lo h1
    simp only [areaOf] at this
    rw [this] at h2
    exact absurd h2 (by decide)

def protJmp : List Opt := [.pid (lit "42"), .mprotect (lit "addr=0x10000,len=0x1000,read"), .jmp (lit "from=0x11010,to=0x10000")]

theorem protJmp_parse : ∃ g, Cli.taskParse Cli.exEnv protJmp = .ok g ∧
    Cli.acts g = [.mprotect 0x10000 0x1000 1, .jmp 0x11010 0x10000] :=
  ⟨{ pid := 42, mprotAddr := 0x10000, mprotLen := 0x1000, mprotProt := 1, jmpFrom := 0x11010, jmpTo := 0x10000, rdonly := false },
    by decide +kernel, by decide +kernel⟩

theorem protJmp_asks : asks Cli.exEnv protJmp = [.mprotect 0x10000 0x1000 1, .jmp 0x11010 0x10000] := by decide +kernel

/-- The hypotheses of C130 are met by a run that changes a protection and writes a jump. -/
theorem ex_run : ∃ d, (exJob protJmp).run exKern .x86_64 exProc = some d ∧ d.status = 0 ∧
    d.log = [.attach, .mprotect 0x10000 0x1000 1, .detach] ∧ d.proc.w.space 0x10 = some ⟨1, 0x10⟩ ∧
    d.proc.mem = (memcpyToTask exProc.mem 0x11010 (jmpEntry .x86_64 0x10000) (some 16)).1 := by
  obtain ⟨vs, ev, f1, f2, _⟩ := ex_vs
  obtain ⟨g, hp, ha⟩ := protJmp_parse
  unfold Job.run
  have ev' : readTaskVmas (initVmas (exJob protJmp).info) false (exJob protJmp).ls = some vs := ev
  rw [ev', Option.bind_some]
  unfold ultask
  have hp' : Cli.taskParse (exJob protJmp).e (exJob protJmp).opts = .ok g := hp
  rw [hp']
  dsimp only
  rw [if_neg (show ¬ (exJob protJmp).c.starts = false by exact nofun), if_neg (show ¬ (exJob protJmp).c.opens = false by exact nofun),
    ha]
  simp only [doActs, act]
  unfold mprotectRegion runJmp
  rw [if_neg (by decide), f1 0x10000 (by decide) (by decide), Option.bind_some, if_neg (by decide),
    f2 (0x10000 + 0x1000) (by decide) (by decide), Option.bind_some, if_neg (by decide)]
  dsimp only [Run.ask]
  have k1 : exKern.ask exProc .attach = ({ exProc with w := { exProc.w with stopped := true } }, 0) := rfl
  rw [k1]
  dsimp only
  rw [if_neg (show ¬ int 0 ≠ 0 by decide)]
  have k2 : exKern.ask { exProc with w := { exProc.w with stopped := true } } (.mprotect 0x10000 0x1000 ((1 : BitVec 64).setWidth 32)) =
      ({ exProc with w := ({ exProc.w with stopped := true } : State).change 4096 0x10000 0x1000 fun _ q => q.map fun q => { q with prot := 1 } }, 0) := by
    simp only [exKern]
    rw [if_pos (by decide +kernel)]
    rfl
  rw [k2]
  dsimp only
  rw [Option.map_some, Option.bind_some]
  dsimp only
  rw [if_neg (by decide), f2 0x11010 (by decide) (by decide), Option.bind_some, f1 0x10000 (by decide) (by decide), Option.map_some,
    if_neg (by decide)]
  refine ⟨_, rfl, ?_, ?_, ?_, ?_⟩
  · rfl
  · rfl
  · rfl
  · rfl

/-- The mapping at `0x10000` is one page of a file that has grown to two; `--unmap` takes the page
behind it too. -/
def unmapF : List Opt := [.pid (lit "42"), .unmap (lit "0x10000")]

theorem unmapF_parse : ∃ g, Cli.taskParse Cli.exEnv unmapF = .ok g ∧ Cli.acts g = [.unmap 0x10000] :=
  ⟨{ pid := 42, unmapIt := true, unmapAddr := 0x10000, rdonly := false }, by decide +kernel, by decide +kernel⟩

/-- **C130**, what is missing: a run that is to unmap one mapping unmaps a page of another one,
which is not named by any option, and ends with status 0. -/
theorem C130_neighbour : LawfulP 4096 exKern ∧ (exJob unmapF).Fine ∧ asks (exJob unmapF).e (exJob unmapF).opts = [.unmap 0x10000] ∧
    (∀ x ∈ exLines, x.2.start ≤ 0x10000 → 0x10000 < x.2.stop → x.2.stop = 0x11000) ∧ exProc.w.space 0x11 = some ⟨7, 0x11⟩ ∧
    ∃ d, (exJob unmapF).run exKern .x86_64 exProc = some d ∧ d.status = 0 ∧ d.proc.w.space 0x11 = none := by
  refine ⟨exKern_lawful, exJob_fine _, by decide +kernel, by decide, rfl, ?_⟩
  obtain ⟨vs, ev, f1, _, i1, _, i3⟩ := ex_vs
  obtain ⟨g, hp, ha⟩ := unmapF_parse
  unfold Job.run
  have ev' : readTaskVmas (initVmas (exJob unmapF).info) false (exJob unmapF).ls = some vs := ev
  rw [ev', Option.bind_some]
  unfold ultask
  have hp' : Cli.taskParse (exJob unmapF).e (exJob unmapF).opts = .ok g := hp
  rw [hp']
  dsimp only
  rw [if_neg (show ¬ (exJob unmapF).c.starts = false by exact nofun), if_neg (show ¬ (exJob unmapF).c.opens = false by exact nofun),
    ha]
  simp only [doActs, act]
  unfold munmapVma
  rw [f1 0x10000 (by decide) (by decide), Option.bind_some, if_neg (by decide)]
  dsimp only
  rw [i1, i3, if_pos (show (exJob unmapF).c.fs.exist (lit "f") = true by decide)]
  refine ⟨_, rfl, rfl, ?_⟩
  have k2 : exKern.ask { exProc with w := { exProc.w with stopped := true } } (.munmap 0x10000 0x2000) =
      ({ exProc with w := ({ exProc.w with stopped := true } : State).change 4096 0x10000 0x2000 fun _ _ => none }, 0) := by
    simp only [exKern]
    rw [if_pos (by decide +kernel)]
    rfl
  show (exKern.ask (exKern.ask (exKern.ask { exProc with w := { exProc.w with stopped := true } } (.munmap 0x10000 0x2000)).1
    .detach).1 .detach).1.w.space 0x11 = none
  rw [k2]
  rfl

/-- C130: the run of `ex_run`, by the theorems. -/
example : ∃ d, (exJob protJmp).run exKern .x86_64 exProc = some d ∧ d.status = 0 ∧
    (∃ q, d.proc.w.space 0x10 = some q ∧ q.prot = 1) ∧ d.proc.w.space 0x11 = some ⟨7, 0x11⟩ ∧
    (∀ a : Addr, a.toNat / 4096 = 0x11 → 16 ≤ (a - 0x11010).toNat → d.proc.mem a = 0x90) ∧ d.proc.mem 0x11010 ≠ 0x90 ∧
    d.proc.w.stopped = false := by
  obtain ⟨d, h, h0, _, _, hm⟩ := ex_run
  have hu : ∀ n, ¬ Unmaps 4096 (exJob protJmp).c.fs (mapsOf (exJob protJmp).c (exJob protJmp).ls)
      (asks (exJob protJmp).e (exJob protJmp).opts) n := by
    rintro n ⟨addr, m, hin, _⟩
    rw [show asks (exJob protJmp).e (exJob protJmp).opts = _ from protJmp_asks] at hin
    simp at hin
  obtain ⟨a1, _, a3, _, a5⟩ := C130_run_partial exKern_lawful (exJob_fine _) h
  refine ⟨d, h, h0, ?_, ?_, ?_, ?_, a5 rfl⟩
  · exact C130_protected exKern_lawful exKern_errs (exJob_fine _) h h0 (addr := 0x10000) (len := 0x1000) (prot := 1)
      (by rw [show asks (exJob protJmp).e (exJob protJmp).opts = _ from protJmp_asks]; simp) (by simp [Touches]) (hu _)
  · rcases a1 0x11 ⟨7, 0x11⟩ (hu _) rfl with e | ⟨r, ⟨addr, len, v, hin, ht, _⟩, _⟩
    · exact e
    · rw [show asks (exJob protJmp).e (exJob protJmp).opts = _ from protJmp_asks] at hin
      simp at hin
      obtain ⟨rfl, rfl, rfl⟩ := hin
      simp [Touches] at ht
  · intro a ha hj
    rw [a3 a (hu _) (by rw [ha]; exact nofun) ?_]
    · rfl
    · rintro ⟨src, dst, hin, hlt⟩
      rw [show asks (exJob protJmp).e (exJob protJmp).opts = _ from protJmp_asks] at hin
      simp at hin
      obtain ⟨rfl, rfl⟩ := hin
      exact absurd hlt (by have : ¬ (a - 0x11010).toNat < 16 := by omega
                           exact this)
  · rw [hm]
    decide

/-- C130: the same command line twice, and then one that only looks. -/
example : ∃ p', runs exKern .x86_64 exProc [exJob protJmp, exJob protJmp, exJob [.pid (lit "42")]] = some p' ∧
    ∃ q, p'.w.space 0x11 = some q ∧ q.obj = 0x11 := by
  have hv : ∀ o, (exJob o).c.vdso ≠ none := fun o => by exact nofun
  obtain ⟨d1, e1⟩ := C130_ends exKern_lawful .x86_64 (exJob_fine protJmp) exProc (hv _)
  obtain ⟨d2, e2⟩ := C130_ends exKern_lawful .x86_64 (exJob_fine protJmp) d1.proc (hv _)
  obtain ⟨d3, e3⟩ := C130_ends exKern_lawful .x86_64 (exJob_fine [.pid (lit "42")]) d2.proc (hv _)
  have h : runs exKern .x86_64 exProc [exJob protJmp, exJob protJmp, exJob [.pid (lit "42")]] = some d3.proc := by
    simp only [runs, e1, e2, e3, Option.bind_some]
  refine ⟨_, h, ?_⟩
  have hu : ∀ j ∈ [exJob protJmp, exJob protJmp, exJob [.pid (lit "42")]],
      ¬ Unmaps 4096 j.c.fs (mapsOf j.c j.ls) (asks j.e j.opts) 0x11 := by
    intro j hj
    rintro ⟨addr, m, hin, _⟩
    simp only [List.mem_cons, List.not_mem_nil, or_false] at hj
    rcases hj with rfl | rfl | rfl
    · rw [show asks (exJob protJmp).e (exJob protJmp).opts = _ from protJmp_asks] at hin
      simp at hin
    · rw [show asks (exJob protJmp).e (exJob protJmp).opts = _ from protJmp_asks] at hin
      simp at hin
    · rw [show asks (exJob [.pid (lit "42")]).e (exJob [.pid (lit "42")]).opts = [.printTask] by decide +kernel] at hin
      simp at hin
  obtain ⟨q', c1, c2, _⟩ := (C130_history_partial exKern_lawful _ (fun j hj => by
    simp only [List.mem_cons, List.not_mem_nil, or_false] at hj
    rcases hj with rfl | rfl | rfl <;> exact exJob_fine _) h).1 0x11 ⟨7, 0x11⟩ hu rfl
  exact ⟨q', c1, c2⟩

/-- C130_look: a run that only looks. -/
example : ∃ d, (exJob [.pid (lit "42")]).run exKern .x86_64 exProc = some d ∧ d.proc = exProc ∧ d.log = [] := by
  obtain ⟨d, e⟩ := C130_ends exKern_lawful .x86_64 (exJob_fine [.pid (lit "42")]) exProc (by exact nofun)
  exact ⟨d, e, C130_look e (by decide)⟩

/-- C130_novdso: a command line that dumps it. -/
example : ∃ g, Cli.taskParse Cli.exEnv [.pid (lit "42"), .dump (lit "vdso"), .output (lit "o")] = .ok g ∧ g.dumpVdso = true :=
  ⟨{ pid := 42, dumpVdso := true, output := some (lit "o") }, by decide +kernel, rfl⟩

end Ulp.TaskRun
