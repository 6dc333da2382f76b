/-
What is known of the mappings stays known when they are read again.
-/
import Verif.Proof.TaskMap
namespace Ulp.TaskRun
open Ulp.Linux
open Ulp.Ultask
open Ulp.Vma
open Ulp.Rb.Tree (ids)
open Ulp.Range
open Ulp.Cli (Act)
open Ulp.Ptrace (shouldSkipRemoteFd)

variable {pg : Nat} {k : Kern (Proc State)} {arch : Arch}

/-- The structure `n` is known and has the address. -/
def Stay (vs : Vmas) (u : List Nat) (n : Nat) (a : BitVec 64) : Prop :=
  ∃ known t, Inv vs known t ∧ (∀ x ∈ ids t, x ∈ u) ∧ n ∈ ids t ∧ (rangeOf (vs.info n)).Has a.toNat

theorem Stay.find {vs : Vmas} {u : List Nat} {n : Nat} {a : BitVec 64} (h : Stay vs u n a) : findVma vs a = some n := by
  obtain ⟨known, t, h1, _, h3, h4⟩ := h
  obtain ⟨r, e, ⟨_, hr⟩ | ⟨_, hm, hr⟩⟩ := h1.find a
  · exact absurd h4 (hr (n, rangeOf (vs.info n)) ((h1.known _ _).2 ⟨h3, rfl⟩))
  · rw [e, h1.unique hm h3 hr h4]

theorem Stay.of_find {vs : Vmas} {u : List Nat} {maps : List Area} (h : From vs u maps) {n : Nat} {a : BitVec 64}
    (e : findVma vs a = some n) (h0 : n ≠ 0) : Stay vs u n a := by
  obtain ⟨known, t, h1, h2, _⟩ := h
  obtain ⟨r, er, ⟨r0, _⟩ | ⟨_, hm, hr⟩⟩ := h1.find a
  · rw [e] at er; cases er; exact absurd r0 h0
  · rw [e] at er; cases er; exact ⟨known, t, h1, h2, hm, hr⟩

theorem Stay.insert {vs vs' : Vmas} {u : List Nat} {n : Nat} {a : BitVec 64} (h : Stay vs u n a) {p prev : Nat} {l : Line}
    (hp0 : p ≠ 0) (hpu : p ∉ u) (hpp : prev ≠ p) (hlt : l.start < l.stop)
    (e : insertVma (allocVma vs p l.start l.stop l.name) p prev = some vs') :
    Stay vs' (p :: u) n a ∧ vs'.info n = vs.info n := by
  obtain ⟨known, t, h1, h2, h3, h4⟩ := h
  obtain ⟨s', t', e', _, _, hi, _, hc⟩ := h1.insert (nm := l.name) hp0 (fun hm => hpu (h2 p hm)) hpp hlt
  rw [e] at e'
  cases e'
  have hn : vs'.info n = vs.info n := by
    rw [hi, if_neg (fun (hq : n = p) => hpu (by rw [← hq]; exact h2 n h3))]
  refine ⟨?_, hn⟩
  rcases hc with ⟨_, ⟨x, y, e1, e2⟩, hv⟩ | ⟨_, rfl, hv, _⟩
  · refine ⟨_, t', hv, ?_, ?_, by rw [hn]; exact h4⟩
    · intro m hm
      rw [e2, List.mem_append, List.mem_cons] at hm
      rcases hm with hm | rfl | hm
      · exact List.mem_cons_of_mem _ (h2 m (by rw [e1]; simp [hm]))
      · exact List.mem_cons_self ..
      · exact List.mem_cons_of_mem _ (h2 m (by rw [e1]; simp [hm]))
    · rw [e1, List.mem_append] at h3
      rw [e2, List.mem_append, List.mem_cons]
      exact h3.imp id Or.inr
  · exact ⟨_, t', hv, fun m hm => List.mem_cons_of_mem _ (h2 m hm), h3, by rw [hn]; exact h4⟩

theorem Stay.read (upd : Bool) : ∀ (ls : List (Nat × Line)) {vs vs' : Vmas} {u : List Nat} {n : Nat} {a : BitVec 64} {prev : Nat},
    Stay vs u n a → (prev :: ls.map (·.1)).Nodup → (∀ x ∈ ls, x.1 ≠ 0 ∧ x.1 ∉ u ∧ x.2.start < x.2.stop) →
    readLines upd vs ls prev = some vs' → (∃ u', Stay vs' u' n a) ∧ vs'.info n = vs.info n
  | [], vs, vs', u, n, a, prev, h, _, _, e => by cases e; exact ⟨⟨u, h⟩, rfl⟩
  | (p, l) :: ls, vs, vs', u, n, a, prev, h, hn, hx, e => by
    obtain ⟨h0, hu, hlt⟩ := hx (p, l) (by simp)
    dsimp only at h0 hu hlt
    have hn' := List.nodup_cons.1 hn
    have hpp : prev ≠ p := fun e => hn'.1 (by simp [e])
    have hn2 : ((p :: ls.map (·.1)) : List Nat).Nodup := hn'.2
    have hins : (insertVma (allocVma vs p l.start l.stop l.name) p prev).bind (fun s => readLines upd s ls p) = some vs' →
        (∃ u', Stay vs' u' n a) ∧ vs'.info n = vs.info n := by
      intro e
      cases e1 : insertVma (allocVma vs p l.start l.stop l.name) p prev with
      | none => rw [e1] at e; cases e
      | some s1 =>
        rw [e1, Option.bind_some] at e
        obtain ⟨g1, g2⟩ := h.insert h0 hu hpp hlt e1
        obtain ⟨g3, g4⟩ := Stay.read upd ls g1 hn2 (by
          intro x hxl
          obtain ⟨a1, a2, a3⟩ := hx x (by simp [hxl])
          refine ⟨a1, ?_, a3⟩
          rw [List.mem_cons, not_or]
          exact ⟨fun ex => (List.nodup_cons.1 hn2).1 (by rw [← ex]; exact List.mem_map_of_mem hxl), a2⟩) e
        exact ⟨g3, g4.trans g2⟩
    rw [readLines] at e
    by_cases hupd : upd = true
    · rw [if_pos hupd] at e
      cases ev : findVma vs (l.start + 1) with
      | none => rw [ev] at e; cases e
      | some v =>
        rw [ev, Option.bind_some] at e
        by_cases hold : v ≠ 0 ∧ (vs.info v).start = l.start ∧ (vs.info v).stop = l.stop
        · rw [if_pos hold] at e
          have hn3 : (prev :: ls.map (·.1)).Nodup := by
            rw [List.nodup_cons]
            exact ⟨fun hm => hn'.1 (by simp only [List.map_cons, List.mem_cons]; exact Or.inr hm), (List.nodup_cons.1 hn2).2⟩
          exact Stay.read upd ls h hn3 (fun x hxl => hx x (by simp [hxl])) e
        · rw [if_neg hold] at e
          exact hins e
    · rw [if_neg hupd] at e
      exact hins e

/-- A line that has nothing in common with the others and with what is known becomes known. -/
theorem new_stay : ∀ (ls : List (Nat × Line)) {vs vs' : Vmas} {u : List Nat} {maps : List Area} {prev : Nat} {y : Nat × Line}
    {a : BitVec 64}, From vs u maps → (prev :: ls.map (·.1)).Nodup → (∀ x ∈ ls, x.1 ≠ 0 ∧ x.1 ∉ u ∧ x.2.start < x.2.stop) →
    y ∈ ls → (∀ m ∈ maps, m.hi ≤ y.2.start ∨ y.2.stop ≤ m.lo) → (∀ z ∈ ls, z ≠ y → z.2.stop ≤ y.2.start ∨ y.2.stop ≤ z.2.start) →
    y.2.start ≤ a → a < y.2.stop → readLines true vs ls prev = some vs' →
    (∃ u', Stay vs' u' y.1 a) ∧ areaOf (vs'.info y.1) = areaOfLine y.2
  | [], vs, vs', u, maps, prev, y, a, _, _, _, hy, _, _, _, _, _ => by cases hy
  | (p, l) :: ls, vs, vs', u, maps, prev, y, a, h, hn, hx, hy, hm, hz, ha1, ha2, e => by
    obtain ⟨h0, hu, hlt⟩ := hx (p, l) (by simp)
    dsimp only at h0 hu hlt
    have hn' := List.nodup_cons.1 hn
    have hpp : prev ≠ p := fun e => hn'.1 (by simp [e])
    have hn2 : ((p :: ls.map (·.1)) : List Nat).Nodup := hn'.2
    have hx2 : ∀ x ∈ ls, x.1 ≠ 0 ∧ x.1 ∉ p :: u ∧ x.2.start < x.2.stop := by
      intro x hxl
      obtain ⟨a1, a2, a3⟩ := hx x (by simp [hxl])
      refine ⟨a1, ?_, a3⟩
      rw [List.mem_cons, not_or]
      exact ⟨fun ex => (List.nodup_cons.1 hn2).1 (by rw [← ex]; exact List.mem_map_of_mem hxl), a2⟩
    rw [readLines, if_pos rfl] at e
    obtain ⟨v, ev, hv⟩ := h.find (l.start + 1)
    rw [ev, Option.bind_some] at e
    obtain ⟨s1, e1, hs1⟩ := h.insert (prev := prev) h0 hu hpp hlt
    by_cases hyp : (p, l) = y
    · subst hyp
      dsimp only at hm ha1 ha2 ⊢
      have hno : ¬ (v ≠ 0 ∧ (vs.info v).start = l.start ∧ (vs.info v).stop = l.stop) := by
        rintro ⟨v0, v1, v2⟩
        have := hm _ (hv v0).1
        simp only [areaOf] at this
        rw [v1, v2, BitVec.le_def] at this
        rw [BitVec.lt_def] at hlt
        omega
      rw [if_neg hno, e1, Option.bind_some] at e
      obtain ⟨known, t, h1, h2, h3⟩ := h
      obtain ⟨s', t', e', _, _, hi, _, hc⟩ := h1.insert (nm := l.name) h0 (fun hm => hu (h2 p hm)) hpp hlt
      rw [e1] at e'
      cases e'
      have hip : areaOf (s1.info p) = areaOfLine l := by rw [hi, if_pos rfl]; rfl
      have hst : Stay s1 (p :: u) p a := by
        rcases hc with ⟨_, ⟨x, w, g1, g2⟩, hv⟩ | ⟨⟨q, hq, hap⟩, _⟩
        · refine ⟨_, t', hv, ?_, by rw [g2]; simp, ?_⟩
          · intro m hm
            rw [g2, List.mem_append, List.mem_cons] at hm
            rcases hm with hm | rfl | hm
            · exact List.mem_cons_of_mem _ (h2 m (by rw [g1]; simp [hm]))
            · exact List.mem_cons_self ..
            · exact List.mem_cons_of_mem _ (h2 m (by rw [g1]; simp [hm]))
          · have i1 : (s1.info p).start = l.start := congrArg Area.lo hip
            have i2 : (s1.info p).stop = l.stop := congrArg Area.hi hip
            simp only [Range.Has, rangeOf, i1, i2]
            exact ⟨ha1, ha2⟩
        · exfalso
          apply hap
          obtain ⟨p', r'⟩ := q
          obtain ⟨q1, rfl⟩ := (h1.known p' r').1 hq
          have := hm _ (h3 p' q1)
          simp only [areaOf, BitVec.le_def] at this
          intro b
          simp only [Range.Has, rangeOf]
          omega
      obtain ⟨g1, g2⟩ := Stay.read true ls hst hn2 hx2 e
      exact ⟨g1, by rw [g2]; exact hip⟩
    · have hyl : y ∈ ls := by
        rcases List.mem_cons.1 hy with q | q
        · exact absurd q.symm hyp
        · exact q
      by_cases hold : v ≠ 0 ∧ (vs.info v).start = l.start ∧ (vs.info v).stop = l.stop
      · rw [if_pos hold] at e
        have hn3 : (prev :: ls.map (·.1)).Nodup := by
          rw [List.nodup_cons]
          exact ⟨fun hm => hn'.1 (by simp only [List.map_cons, List.mem_cons]; exact Or.inr hm), (List.nodup_cons.1 hn2).2⟩
        exact new_stay ls h hn3 (fun x hxl => hx x (by simp [hxl])) hyl hm (fun z hzl => hz z (by simp [hzl])) ha1 ha2 e
      · rw [if_neg hold, e1, Option.bind_some] at e
        refine new_stay ls hs1 hn2 hx2 hyl ?_ (fun z hzl => hz z (by simp [hzl])) ha1 ha2 e
        intro m hml
        rcases List.mem_cons.1 hml with rfl | hml
        · exact hz (p, l) (by simp) hyp
        · exact hm m hml

/-- An action, `--map` too, leaves what is known known. -/
theorem act_stay (hk : LawfulP pg k) {c : Circ} {a : Act} {s s' : Run' State} {u : List Nat} {n : Nat} {b : BitVec 64}
    (h : Stay s.vs u n b) (e : act k arch c s a = some s') (hfr : isMap a = true → ∀ ls, c.lines = some ls → Fresh u ls) :
    (∃ u', Stay s'.vs u' n b ∧ (isMap a = false → u' = u)) ∧ s'.vs.info n = s.vs.info n := by
  by_cases hm : a.change = some .map
  · cases a with
    | map path addr ro nx =>
      unfold act at e
      dsimp only at e
      cases h1 : mmapFile k c.fs s.vs path addr ro nx ⟨s.run.w, []⟩ with
      | none => rw [h1] at e; cases e
      | some x =>
        rw [h1, Option.bind_some] at e
        by_cases hl : x.1.log.getLast? = some .detach
        · rw [if_pos hl] at e
          cases h2 : reread s.vs c.lines with
          | none => rw [h2] at e; cases e
          | some vs =>
            rw [h2] at e
            cases e
            dsimp only
            cases hls : c.lines with
            | none => rw [hls] at h2; cases h2; exact ⟨⟨u, h, fun _ => rfl⟩, rfl⟩
            | some ls =>
              rw [hls] at h2
              obtain ⟨f1, f2⟩ := hfr rfl ls hls
              obtain ⟨⟨u', g1⟩, g2⟩ := Stay.read true ls h f1 f2 h2
              exact ⟨⟨u', g1, fun q => by cases q⟩, g2⟩
        · rw [if_neg hl] at e; cases e; exact ⟨⟨u, h, fun _ => rfl⟩, rfl⟩
    | _ => cases hm
  · have k1 := (act_keeps hk e hm).1
    rw [k1]
    exact ⟨⟨u, h, fun _ => rfl⟩, rfl⟩

theorem acts_stay (hk : LawfulP pg k) {c : Circ} {n : Nat} {b : BitVec 64} : ∀ (l : List Act) {s s' : Run' State} {u : List Nat},
    Stay s.vs u n b → doActs k arch c s l = some s' → (l.any isMap = true → ∀ ls, c.lines = some ls → Fresh u ls) →
    (l.filter isMap).length ≤ 1 → (∃ u', Stay s'.vs u' n b) ∧ s'.vs.info n = s.vs.info n
  | [], s, s', u, h, e, _, _ => by cases e; exact ⟨⟨u, h⟩, rfl⟩
  | a :: l, s, s', u, h, e, hfr, hone => by
    unfold doActs at e
    cases h1 : act k arch c s a with
    | none => rw [h1] at e; cases e
    | some s1 =>
      rw [h1, Option.bind_some] at e
      obtain ⟨⟨u', g1, g2⟩, g3⟩ := act_stay hk h h1 (fun q => hfr (by simp [q]))
      obtain ⟨g4, g5⟩ := acts_stay hk l g1 e (by
        intro q
        cases hm : isMap a with
        | false => rw [g2 hm]; exact hfr (by simp [q])
        | true =>
          rw [List.filter_cons, if_pos hm, List.length_cons] at hone
          have : l.filter isMap = [] := List.length_eq_zero_iff.1 (by omega)
          rw [List.filter_eq_nil_iff] at this
          obtain ⟨x, hx, hxm⟩ := List.any_eq_true.1 q
          exact absurd hxm (this x hx)) (by
        rw [List.filter_cons] at hone
        split at hone
        · rw [List.length_cons] at hone; omega
        · exact hone)
      exact ⟨g4, g5.trans g3⟩

/-- Before a point of a run, every address of a line is found in the structure of its line. -/
theorem stay_found (hk : LawfulP pg k) {j : Job} (hj : j.Fine) (ha : j.Apart) {vs : Vmas}
    (e : readTaskVmas (initVmas j.info) false j.ls = some vs) {l : List Act} (hone : (l.filter isMap).length ≤ 1) {p : Proc State}
    {s : Run' State} (es : doActs k arch j.c ⟨⟨p, []⟩, vs, j.out, 0⟩ l = some s) {x : Nat × Line} (hx : x ∈ j.ls) {a : BitVec 64}
    (h1 : x.2.start ≤ a) (h2 : a < x.2.stop) :
    findVma s.vs a = some x.1 ∧ x.1 ≠ 0 ∧ areaOf (s.vs.info x.1) = areaOfLine x.2 := by
  obtain ⟨f1, f2, f3⟩ := found hj ha e hx h1 h2
  obtain ⟨vs', ev', u, hf, hfresh⟩ := fine_read hj
  rw [e] at ev'
  cases ev'
  obtain ⟨⟨u', g1⟩, g2⟩ := acts_stay hk l (s := ⟨⟨p, []⟩, vs, j.out, 0⟩) (Stay.of_find hf f1 f2) es (fun _ => hfresh) hone
  exact ⟨g1.find, f2, by rw [g2]; exact f3⟩

/-! ## The process runs again behind `--map` -/

theorem close_stopped (hk : LawfulP pg k) (fd : BitVec 32) (ret : Int) (r : Run (Proc State)) :
    (closeRet k fd ret r).1.w.w.stopped = false := by
  unfold closeRet
  dsimp only [Run.ask]
  exact stopped_detach hk _

theorem map_stopped (hk : LawfulP pg k) (hg : Grants pg k) (hgm : GrantsMap pg k) {fs : Fs} {vs : Vmas} {path : List Byte}
    {addr : BitVec 64} {ro nx : Bool} {p : Proc State} {x : Run (Proc State) × Int}
    (h : mmapFile k fs vs path addr ro nx ⟨p, []⟩ = some x) (hp : p.w.stopped = false) (hstd : 0#32 ∈ p.w.fds)
    (hfd : ∃ n, n < 1024 ∧ BitVec.ofNat 32 n ∉ p.w.fds) : x.1.w.w.stopped = false := by
  unfold mmapFile at h
  dsimp only at h
  cases hu : mapInUse vs addr ((fsize fs path).signExtend 64) with
  | none => rw [hu] at h; cases h
  | some b =>
    rw [hu, Option.map_some] at h
    cases b with
    | true => cases h; exact hp
    | false =>
      have h := Option.some.inj h
      rw [if_neg (by simp)] at h
      have hat : int (k.ask p .attach).2 = 0 := hg.1 _ hp
      have wat : (k.ask p .attach).1.w = { p.w with stopped := true } := by
        have := (hk p .attach).1
        simp only [Answers] at this
        rcases this with ⟨_, _, e⟩ | ⟨e, _⟩
        · exact e
        · exact absurd hat e
      rw [if_neg (show ¬ int (Run.ask k ⟨p, []⟩ .attach).2 ≠ 0 from fun q => q hat)] at h
      generalize ep1 : (k.ask p .attach).1 = p1 at wat
      have hop : 0 ≤ int (k.ask p1 (.open path 2)).2 := hgm.1 p1 path (by rw [wat]; exact hfd)
      have hnew : (k.ask p1 (.open path 2)).2.setWidth 32 ∉ p1.w.fds := by
        have := (hk p1 (.open path 2)).1
        simp only [Answers] at this
        rcases this with ⟨_, q, _⟩ | ⟨e, _⟩
        · exact q
        · omega
      rw [wat] at hnew
      dsimp only at hnew
      have hpos : ¬ ((k.ask p1 (.open path 2)).2.setWidth 32).toInt ≤ 0 := by
        intro q
        have : ((k.ask p1 (.open path 2)).2.setWidth 32).toInt = 0 := by
          have : int (k.ask p1 (.open path 2)).2 = ((k.ask p1 (.open path 2)).2.setWidth 32).toInt := rfl
          omega
        refine hnew ?_
        rw [show (k.ask p1 (.open path 2)).2.setWidth 32 = 0#32 from BitVec.eq_of_toInt_eq (by rw [this]; rfl)]
        exact hstd
      rw [← ep1] at hpos
      rw [if_neg (show ¬ ((Run.ask k (Run.ask k ⟨p, []⟩ .attach).1 (.open path 2)).2.setWidth 32).toInt ≤ 0 from hpos)] at h
      split at h <;> (rw [← h]; exact close_stopped hk _ _ _)

theorem acts_unmap {g : Cli.Cfg} {addr : BitVec 64} (h : .unmap addr ∈ Cli.acts g) :
    ∃ A B, Cli.acts g = A ++ .unmap addr :: B ∧ (∀ a ∈ A, a.change = none ∨ a.change = some .mprotect ∨ a.change = some .map) ∧
      ∀ a ∈ B, a.change = none ∨ a.change = some .jmp := by
  have hj : g.unmapIt = true ∧ Act.unmap addr = .unmap g.unmapAddr := by
    unfold Cli.acts at h
    dsimp only at h
    simp only [List.mem_append] at h
    rcases h with ((((((((((((((h | h) | h) | h) | h) | h) | h) | h) | h) | h) | h) | h) | h) | h) | h)
    all_goals first
      | exact mem_one h
      | (cases (mem_one h).2; done)
      | (cases hm : g.mapFile with
        | none => rw [hm] at h; cases h
        | some f => rw [hm] at h; cases List.mem_singleton.1 h)
  obtain ⟨h1, h2⟩ := hj
  cases h2
  unfold Cli.acts
  dsimp only
  rw [show Cli.one g.unmapIt (.unmap g.unmapAddr) = [.unmap g.unmapAddr] by rw [h1]; rfl]
  cases g.mapFile with
  | none =>
    refine ⟨Cli.one (Cli.idle g) .printTask ++ Cli.one (g.mprotAddr ≠ 0) (.mprotect g.mprotAddr g.mprotLen g.mprotProt), _, by
      simp only [List.append_assoc, List.cons_append, List.nil_append]; rfl, ?_, ?_⟩
    · intro a ha
      simp only [List.mem_append] at ha
      rcases ha with h | h <;> (rw [(mem_one h).2]; first | exact Or.inl rfl | exact Or.inr (Or.inl rfl))
    · intro a ha
      simp only [List.mem_append] at ha
      rcases ha with h | h | h | h | h | h | h | h | h | h | h <;> (rw [(mem_one h).2]; first | exact Or.inl rfl | exact Or.inr rfl)
  | some f =>
    refine ⟨Cli.one (Cli.idle g) .printTask ++ Cli.one (g.mprotAddr ≠ 0) (.mprotect g.mprotAddr g.mprotLen g.mprotProt) ++
      [.map f g.mapAddr g.mapRo g.mapNoexec], _, by
      simp only [List.append_assoc, List.cons_append, List.nil_append]; rfl, ?_, ?_⟩
    · intro a ha
      simp only [List.mem_append] at ha
      rcases ha with (h | h) | h
      · rw [(mem_one h).2]; exact Or.inl rfl
      · rw [(mem_one h).2]; exact Or.inr (Or.inl rfl)
      · rw [List.mem_singleton.1 h]; exact Or.inr (Or.inr rfl)
    · intro a ha
      simp only [List.mem_append] at ha
      rcases ha with h | h | h | h | h | h | h | h | h | h | h <;> (rw [(mem_one h).2]; first | exact Or.inl rfl | exact Or.inr rfl)

/-- Before `--unmap` the process is not traced, if `--map` could open its file. -/
theorem acts_stopped (hk : LawfulP pg k) (hg : Grants pg k) {c : Circ} {l : List Act} {s s' : Run' State}
    (e : doActs k arch c s l = some s') (hl : ∀ a ∈ l, a.change = none ∨ a.change = some .mprotect ∨ a.change = some .map)
    (hone : (l.filter isMap).length ≤ 1) (hp : s.run.w.w.stopped = false)
    (hm : (∀ a ∈ l, a.change ≠ some .map) ∨
      (GrantsMap pg k ∧ 0#32 ∈ s.run.w.w.fds ∧ ∃ n, n < 1024 ∧ BitVec.ofNat 32 n ∉ s.run.w.w.fds)) :
    s'.run.w.w.stopped = false := by
  by_cases hno : ∀ a ∈ l, a.change ≠ some .map
  · exact (acts_keep hk l e hno).2.1 hp
  · obtain ⟨hgm, hstd, hfd⟩ := hm.resolve_left hno
    have hex : ∃ a ∈ l, a.change = some .map := by
      apply Classical.byContradiction
      intro q
      exact hno fun a ha hc => q ⟨a, ha, hc⟩
    obtain ⟨a, ha, hc⟩ := hex
    obtain ⟨A, B, rfl⟩ := List.append_of_mem ha
    have hma : isMap a = true := by simp [isMap, hc]
    rw [List.filter_append, List.filter_cons, if_pos hma, List.length_append, List.length_cons] at hone
    have hz : ∀ l : List Act, (l.filter isMap).length = 0 → ∀ b ∈ l, b.change ≠ some .map := by
      intro l hl b hb hbc
      have := List.length_eq_zero_iff.1 hl
      rw [List.filter_eq_nil_iff] at this
      exact this b hb (by simp [isMap, hbc])
    have hA := hz A (by omega)
    have hB := hz B (by omega)
    obtain ⟨s1, s2, e1, e2, e3⟩ := doActs_mid e
    have hs1 := (acts_keep hk A e1 hA).2.1 hp
    have hf1 := acts_fds hk A e1 (fun b hb => by
      rcases hl b (by simp [hb]) with q | q | q
      · exact Or.inl q
      · exact Or.inr q
      · exact absurd q (hA b hb))
    refine (acts_keep hk B e3 hB).2.1 ?_
    cases a with
    | map path addr ro nx =>
      unfold act at e2
      dsimp only at e2
      cases h1 : mmapFile k c.fs s1.vs path addr ro nx ⟨s1.run.w, []⟩ with
      | none => rw [h1] at e2; cases e2
      | some x =>
        have hx := map_stopped hk hg hgm h1 hs1 (by rw [hf1]; exact hstd) (by rw [hf1]; exact hfd)
        rw [h1, Option.bind_some] at e2
        by_cases hll : x.1.log.getLast? = some .detach
        · rw [if_pos hll] at e2
          cases h2 : reread s1.vs c.lines with
          | none => rw [h2] at e2; cases e2
          | some vs => rw [h2] at e2; cases e2; exact hx
        · rw [if_neg hll] at e2; cases e2; exact hx
    | _ => cases hc

end Ulp.TaskRun
