/-
`--map` in a run of `ultask`: lemmas.
-/
import Verif.Spec.TaskMap
import Verif.Proof.TaskDo
namespace Ulp.TaskRun
open Ulp.Linux
open Ulp.Ultask
open Ulp.Vma
open Ulp.Cli (Act)

variable {pg : Nat} {k : Kern (Proc State)} {arch : Arch}

/-- Only the mappings of the lines are found. -/
theorem from_lines {j : Job} (hj : j.Fine) {vs : Vmas} (e : readTaskVmas (initVmas j.info) false j.ls = some vs) {a : BitVec 64}
    (ha : ¬ In j a) : findVma vs a = some 0 := by
  obtain ⟨f1, f2⟩ := hj
  unfold linesOf at f1 f2
  have hn : (0 :: j.ls.map (·.1)).Nodup := by
    refine f1.sublist ?_
    rw [List.map_append]
    exact (List.sublist_append_left _ _).cons_cons 0
  have h0 : ∀ y ∈ j.ls, y.1 ≠ 0 := fun y hy e => (List.nodup_cons.1 hn).1 (by rw [← e]; exact List.mem_map_of_mem hy)
  obtain ⟨vs', e2, hfr⟩ := From.read false j.ls (From.init j.info) hn
    (fun y hy => ⟨h0 y hy, by simp, f2 y (List.mem_append_left _ hy)⟩)
  have e2' : readTaskVmas (initVmas j.info) false j.ls = some vs' := e2
  rw [e] at e2'
  cases e2'
  obtain ⟨v, ev, hv⟩ := hfr.find a
  by_cases v0 : v = 0
  · rw [ev, v0]
  · obtain ⟨g1, g2, g3⟩ := hv v0
    rw [List.append_nil] at g1
    obtain ⟨y, hy, ey⟩ := List.mem_map.1 g1
    refine absurd ⟨y, hy, ?_, ?_⟩ ha
    · rw [show y.2.start = (vs.info v).start from congrArg Area.lo ey]; exact g2
    · rw [show y.2.stop = (vs.info v).stop from congrArg Area.hi ey]; exact g3

theorem mem_acts_map {g : Cli.Cfg} {f : List Byte} {addr : BitVec 64} {ro nx : Bool} (h : .map f addr ro nx ∈ Cli.acts g) :
    ∃ A B, Cli.acts g = A ++ .map f addr ro nx :: B ∧ (∀ a ∈ A, a.change = none ∨ a.change = some .mprotect) ∧
      (∀ a ∈ B, a.change ≠ some .mprotect ∧ a.change ≠ some .map) ∧ ∀ a ∈ A, a.file = none := by
  have hj : g.mapFile = some f ∧ addr = g.mapAddr ∧ ro = g.mapRo ∧ nx = g.mapNoexec := by
    unfold Cli.acts at h
    dsimp only at h
    simp only [List.mem_append] at h
    rcases h with ((((((((((((((h | h) | h) | h) | h) | h) | h) | h) | h) | h) | h) | h) | h) | h) | h)
    all_goals first
      | (cases (mem_one h).2; done)
      | (cases hm : g.mapFile with
        | none => rw [hm] at h; cases h
        | some f => rw [hm] at h; cases List.mem_singleton.1 h; exact ⟨rfl, rfl, rfl, rfl⟩)
  obtain ⟨h1, rfl, rfl, rfl⟩ := hj
  unfold Cli.acts
  dsimp only
  rw [h1]
  refine ⟨Cli.one (Cli.idle g) .printTask ++ Cli.one (g.mprotAddr ≠ 0) (.mprotect g.mprotAddr g.mprotLen g.mprotProt), _, by
    simp only [List.append_assoc, List.cons_append, List.nil_append]; rfl, ?_, ?_, ?_⟩
  rotate_right
  · intro a ha
    simp only [List.mem_append] at ha
    rcases ha with h | h <;> (rw [(mem_one h).2]; rfl)
  · intro a ha
    simp only [List.mem_append] at ha
    rcases ha with h | h <;> (rw [(mem_one h).2]; first | exact Or.inl rfl | exact Or.inr rfl)
  · intro a ha
    simp only [List.mem_append] at ha
    rcases ha with h | h | h | h | h | h | h | h | h | h | h | h <;> (rw [(mem_one h).2]; exact ⟨nofun, nofun⟩)

/-- Nothing is mapped or unmapped behind the first dump. -/
theorem acts_late (g : Cli.Cfg) : ∃ X Y, Cli.acts g = X ++ Y ∧ (∀ a ∈ X, a.file = none) ∧
    ∀ a ∈ Y, a.change = none ∨ a.change = some .jmp := by
  unfold Cli.acts
  dsimp only
  refine ⟨Cli.one (Cli.idle g) .printTask ++ Cli.one (g.mprotAddr ≠ 0) (.mprotect g.mprotAddr g.mprotLen g.mprotProt) ++
    (match g.mapFile with | none => [] | some f => [.map f g.mapAddr g.mapRo g.mapNoexec]) ++
    Cli.one g.unmapIt (.unmap g.unmapAddr), _, by simp only [List.append_assoc]; rfl, ?_, ?_⟩
  · intro a ha
    simp only [List.mem_append] at ha
    rcases ha with ((h | h) | h) | h
    · rw [(mem_one h).2]; rfl
    · rw [(mem_one h).2]; rfl
    · cases hm : g.mapFile with
      | none => rw [hm] at h; cases h
      | some f => rw [hm] at h; rw [List.mem_singleton.1 h]; rfl
    · rw [(mem_one h).2]; rfl
  · intro a ha
    simp only [List.mem_append] at ha
    rcases ha with h | h | h | h | h | h | h | h | h | h | h <;> (rw [(mem_one h).2]; first | exact Or.inl rfl | exact Or.inr rfl)

/-- The first reading knows the lines and nothing else. -/
theorem first_read {j : Job} (hj : j.Fine) {vs : Vmas} (ev : readTaskVmas (initVmas j.info) false j.ls = some vs) :
    From vs (j.ls.map (·.1)) (j.ls.map fun x => areaOfLine x.2) ∧ ∀ ls, j.c.lines = some ls → Fresh (j.ls.map (·.1)) ls := by
  obtain ⟨h1, h2⟩ := hj
  unfold linesOf at h1 h2
  rw [List.map_append, List.nodup_cons, List.nodup_append] at h1
  obtain ⟨h0, ha, hb, hab⟩ := h1
  rw [List.mem_append, not_or] at h0
  obtain ⟨vs', e, hf⟩ := (From.init j.info).read false j.ls (prev := 0) (List.nodup_cons.2 ⟨h0.1, ha⟩) (by
    intro x hx
    refine ⟨fun e => h0.1 (by rw [← e]; exact List.mem_map_of_mem hx), by simp, h2 x (List.mem_append_left _ hx)⟩)
  have e' : readTaskVmas (initVmas j.info) false j.ls = some vs' := e
  rw [ev] at e'
  cases e'
  rw [List.append_nil, List.append_nil] at hf
  refine ⟨hf, ?_⟩
  intro ls hls
  rw [hls] at h0 hb hab h2
  refine ⟨List.nodup_cons.2 ⟨h0.2, hb⟩, fun x hx => ⟨fun e => h0.2 (by rw [← e]; exact List.mem_map_of_mem hx), ?_,
    h2 x (List.mem_append_right _ hx)⟩⟩
  intro hm
  exact hab _ hm _ (List.mem_map_of_mem hx) rfl

theorem mprotect_fds (hk : LawfulP pg k) {vs : Vmas} {addr len prot : BitVec 64} {r : Run (Proc State)}
    {x : Run (Proc State) × Int} (h : mprotectRegion k vs addr len prot r = some x) : x.1.w.w.fds = r.w.w.fds := by
  have hat : ∀ p, (k.ask p .attach).1.w.fds = p.w.fds := by
    intro p
    have := (hk p .attach).1
    simp only [Answers] at this
    rcases this with ⟨_, _, e⟩ | ⟨_, e⟩ <;> rw [e]
  have hde : ∀ p, (k.ask p .detach).1.w.fds = p.w.fds := by
    intro p
    have := (hk p .detach).1
    simp only [Answers] at this
    rw [this]
  have hmp : ∀ p a l q, (k.ask p (.mprotect a l q)).1.w.fds = p.w.fds := by
    intro p a l q
    have := (hk p (.mprotect a l q)).1
    simp only [Answers] at this
    rcases this with ⟨_, _, _, e⟩ | ⟨_, _, e⟩ <;> (rw [e]; rfl)
  unfold mprotectRegion at h
  by_cases h0 : addr = 0 ∨ len = 0
  · rw [if_pos h0] at h; cases h; rfl
  rw [if_neg h0] at h
  cases h1 : findVma vs addr with
  | none => rw [h1] at h; cases h
  | some v =>
    rw [h1, Option.bind_some] at h
    by_cases h2 : v = 0
    · rw [if_pos h2] at h; cases h; rfl
    rw [if_neg h2] at h
    cases h3 : findVma vs (addr + len) with
    | none => rw [h3] at h; cases h
    | some v =>
      rw [h3, Option.bind_some] at h
      by_cases h4 : v = 0
      · rw [if_pos h4] at h; cases h; rfl
      rw [if_neg h4] at h
      dsimp only [Run.ask] at h
      by_cases h5 : int (k.ask r.w .attach).2 ≠ 0
      · rw [if_pos h5] at h; cases h; exact hat _
      · rw [if_neg h5] at h; cases h
        dsimp only
        rw [hde, hmp, hat]

theorem acts_fds (hk : LawfulP pg k) {c : Circ} : ∀ (l : List Act) {s s' : Run' State}, doActs k arch c s l = some s' →
    (∀ a ∈ l, a.change = none ∨ a.change = some .mprotect) → s'.run.w.w.fds = s.run.w.w.fds
  | [], s, s', e, _ => by cases e; rfl
  | a :: l, s, s', e, hm => by
    unfold doActs at e
    cases h1 : act k arch c s a with
    | none => rw [h1] at e; cases e
    | some s1 =>
      rw [h1, Option.bind_some] at e
      refine (acts_fds hk l e fun x hx => hm x (by simp [hx])).trans ?_
      rcases hm a (by simp) with ha | ha
      · rw [(look_act ha h1).1]
      · cases a with
        | mprotect addr len prot =>
          unfold act at h1
          dsimp only at h1
          cases h2 : mprotectRegion k s.vs addr len prot s.run with
          | none => rw [h2] at h1; cases h1
          | some x => rw [h2] at h1; cases h1; exact mprotect_fds hk h2
        | _ => cases ha

/-- What the actions behind `--map` leave mapped. -/
theorem tail_act (hk : LawfulP pg k) {c : Circ} {maps : List Area} {u : List Nat} {a : Act} {s s' : Run' State}
    (hf : From s.vs u maps) (e : act k arch c s a = some s') (h1 : a.change ≠ some .mprotect) (h2 : a.change ≠ some .map)
    {n : Nat} (hu : ¬ Unmaps pg c.fs maps [a] n) {q : Page} (hq : s.run.w.w.space n = some q) :
    s'.vs = s.vs ∧ s'.run.w.w.space n = some q := by
  obtain ⟨k1, _, _, k4⟩ := act_keeps hk e h2
  refine ⟨k1, ?_⟩
  by_cases hc : a.change = none ∨ a.change = some .jmp
  · rw [k4 hc]; exact hq
  cases a with
  | unmap addr =>
    unfold act at e
    dsimp only at e
    cases h3 : munmapVma k c.fs s.vs addr s.run with
    | none => rw [h3] at e; cases e
    | some x =>
      rw [h3] at e; cases e
      have hin : Act.unmap addr ∈ [Act.unmap addr] := List.mem_singleton.2 rfl
      obtain ⟨qs, _, g2, g3⟩ := (goes_munmap (ok := Asked c.fs maps [.unmap addr]) hf h3 ⟨_, hin, by simp [Act.change]⟩
        ⟨_, hin, by simp [Act.change]⟩ (fun m hm hlo hhi len hlen => ⟨addr, m, hin, hm, hlo, hhi, rfl, hlen⟩)).ex
      dsimp only
      rw [g2]
      rcases (frame_via hk qs s.run.w g3).same n q hu hq with y | ⟨_, ⟨_, _, _, hx, _⟩, _⟩
      · exact y
      · cases List.mem_singleton.1 hx
  | mprotect _ _ _ => exact absurd rfl h1
  | map _ _ _ _ => exact absurd rfl h2
  | jmp _ _ => exact absurd (Or.inr rfl) hc
  | _ => exact absurd (Or.inl rfl) hc

theorem tail_acts (hk : LawfulP pg k) {c : Circ} {maps : List Area} {u : List Nat} {n : Nat} {q : Page} :
    ∀ (l : List Act) {s s' : Run' State}, From s.vs u maps → doActs k arch c s l = some s' →
    (∀ a ∈ l, a.change ≠ some .mprotect ∧ a.change ≠ some .map) → ¬ Unmaps pg c.fs maps l n → s.run.w.w.space n = some q →
    s'.run.w.w.space n = some q
  | [], s, s', _, e, _, _, hq => by cases e; exact hq
  | a :: l, s, s', hf, e, hm, hu, hq => by
    unfold doActs at e
    cases h1 : act k arch c s a with
    | none => rw [h1] at e; cases e
    | some s1 =>
      rw [h1, Option.bind_some] at e
      obtain ⟨v1, v2⟩ := tail_act hk hf h1 (hm a (by simp)).1 (hm a (by simp)).2 (n := n) (q := q) (by
        rintro ⟨x, m, hx, y⟩
        exact hu ⟨x, m, by rw [List.mem_singleton.1 hx]; simp, y⟩) hq
      exact tail_acts hk l (by rw [v1]; exact hf) e (fun x hx => hm x (by simp [hx])) (by
        rintro ⟨x, m, hx, y⟩
        exact hu ⟨x, m, by simp [hx], y⟩) v2

end Ulp.TaskRun
