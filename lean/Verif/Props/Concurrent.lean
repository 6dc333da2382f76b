/-
C116: several commands for one process at the same time.
-/
import Verif.Model.Concurrent
import Verif.Props.Patch
namespace Ulp.Patch

/-- A command by itself: so many stages one after the other. -/
def stepsCmd (c : Cmd) (w : World) (st : Stage) : Nat → World × Stage
  | 0 => (w, st)
  | n + 1 => stepsCmd c (stepCmd c w st).1 (stepCmd c w st).2 n

theorem steps_ended (c : Cmd) (w : World) (r : Int) (n : Nat) : stepsCmd c w (.ended r) n = (w, .ended r) := by
  induction n with
  | zero => rfl
  | succ n ih => cases c <;> exact ih

theorem steps_crashed (c : Cmd) (w : World) (n : Nat) : stepsCmd c w .crashed n = (w, .crashed) := by
  induction n with
  | zero => rfl
  | succ n ih => cases c <;> exact ih

theorem steps_failed (rd : Mapping → ReadRes) (e : PatchEnv) (w : World) (hdr : Addr) (r : Int) (n : Nat) :
    stepsCmd (.patch rd e) w (.failed hdr r) (n + 1) = (deleteMmap w e hdr, .ended r) :=
  steps_ended _ _ _ _

/-- What `init_patch` makes of the result of `load_patch`. -/
def finish (e : PatchEnv) (hdr : Addr) (l : World × Int) : World × Stage :=
  if l.2 ≠ 0 then (deleteMmap l.1 e hdr, .ended l.2) else (l.1, .ended 0)

theorem finish_ne (e : PatchEnv) (hdr : Addr) (w : World) (r : Int) (h : r ≠ 0) :
    finish e hdr (w, r) = (deleteMmap w e hdr, .ended r) := if_pos h

theorem neg_ne (n : Nat) : neg n ≠ 0 := by unfold neg; omega

theorem steps_copied (rd : Mapping → ReadRes) (e : PatchEnv) (w : World) (hdr : Addr) (info : Info) (n : Nat) :
    stepsCmd (.patch rd e) w (.copied hdr info) (n + 2) = finish e hdr (kickEntry w e info) := by
  show stepsCmd (.patch rd e) (entryStage w e hdr info).1 (entryStage w e hdr info).2 (n + 1) = _
  unfold entryStage finish
  dsimp only
  by_cases h : (kickEntry w e info).2 ≠ 0
  · rw [if_pos h, if_pos h, steps_failed]
  · rw [if_neg h, if_neg h, steps_ended]

theorem steps_saved (rd : Mapping → ReadRes) (e : PatchEnv) (w : World) (hdr : Addr) (info : Info) (n : Nat) :
    stepsCmd (.patch rd e) w (.saved hdr info) (n + 3) = finish e hdr (kickImage w e hdr info) := by
  show stepsCmd (.patch rd e) (copyStage w e hdr info).1 (copyStage w e hdr info).2 (n + 2) = _
  unfold copyStage kickImage
  dsimp only
  by_cases h : (writeTask w hdr (e.image info) (if w.mapped hdr = true then e.imageN else none)).2 = true
  · rw [if_pos h, if_pos h, steps_copied]
  · rw [if_neg h, if_neg h, steps_failed, finish_ne _ _ _ _ (by decide)]

theorem steps_checked (rd : Mapping → ReadRes) (e : PatchEnv) (w : World) (s : Session) (hdr : Addr) (n : Nat) :
    stepsCmd (.patch rd e) w (.checked s hdr) (n + 4) =
      finish e hdr ((solveAndKick w s e hdr).1, (solveAndKick w s e hdr).2.2) := by
  show stepsCmd (.patch rd e) (saveStage w s e hdr).1 (saveStage w s e hdr).2 (n + 3) = _
  unfold saveStage solveAndKick
  cases e.target with
  | none => dsimp only; rw [steps_failed, finish_ne _ _ _ _ (by decide)]
  | some t =>
    cases e.source with
    | none => dsimp only; rw [steps_failed, finish_ne _ _ _ _ (by decide)]
    | some p =>
      dsimp only
      unfold kick
      cases e.preadN with
      | none => dsimp only; rw [steps_failed, finish_ne _ _ _ _ (by decide)]
      | some k =>
        dsimp only
        by_cases hk : k < jmpEntrySize
        · rw [if_pos hk, if_pos hk, steps_failed, finish_ne _ _ _ _ enoexec_ne]
        · rw [if_neg hk, if_neg hk, steps_saved]

theorem steps_mapped (rd : Mapping → ReadRes) (e : PatchEnv) (w : World) (s : Session) (hdr : Addr) (n : Nat) :
    stepsCmd (.patch rd e) w (.mapped s hdr) (n + 5) =
      finish e hdr ((loadPatch w s e hdr).1, (loadPatch w s e hdr).2.2) := by
  show stepsCmd (.patch rd e) (checkStage w s e hdr).1 (checkStage w s e hdr).2 (n + 4) = _
  unfold checkStage loadPatch
  cases e.setup with
  | some m => dsimp only; rw [steps_failed, finish_ne _ _ _ _ (neg_ne m)]
  | none =>
    dsimp only
    by_cases hd : (s.ulps.any fun u => decide (u.bid = e.bid)) = true
    · rw [if_pos hd, if_pos hd, steps_failed, finish_ne _ _ _ _ ealready_ne]
    rw [if_neg hd, if_neg hd]
    cases e.rewrite with
    | some m => dsimp only; rw [steps_failed, finish_ne _ _ _ _ (neg_ne m)]
    | none =>
      dsimp only
      cases e.simplify with
      | some m => dsimp only; rw [steps_failed, finish_ne _ _ _ _ (neg_ne m)]
      | none =>
        dsimp only
        cases e.apply with
        | some m => dsimp only; rw [steps_failed, finish_ne _ _ _ _ (neg_ne m)]
        | none => dsimp only; rw [steps_checked]

/-- What a command leaves and how it ends. -/
def outcome (w : World) : Option (World × Int) → World × Stage
  | none => (w, .crashed)
  | some r => (r.1, .ended r.2)

theorem steps_opened (rd : Mapping → ReadRes) (e : PatchEnv) (w : World) (s : Session) (n : Nat) :
    stepsCmd (.patch rd e) w (.opened s) (n + 6) =
      ((initPatch w s e).1, .ended (initPatch w s e).2.2) := by
  show stepsCmd (.patch rd e) (mapStage w s e).1 (mapStage w s e).2 (n + 5) = _
  unfold mapStage initPatch
  by_cases hf : s.ftoProc = false
  · rw [if_pos hf, if_pos hf]; exact steps_ended _ _ _ _
  rw [if_neg hf, if_neg hf]
  cases e.alloc with
  | some m => exact steps_ended _ _ _ _
  | none =>
    dsimp only
    cases e.chown with
    | some m => exact steps_ended _ _ _ _
    | none =>
      dsimp only
      generalize createMmap w e = x
      obtain ⟨w', x⟩ := x
      cases x with
      | error r => exact steps_ended _ _ _ _
      | ok hdr =>
        dsimp only
        rw [steps_mapped]
        unfold finish
        dsimp only
        by_cases h : (loadPatch w' s e hdr).2.2 ≠ 0
        · rw [if_pos h, if_pos h]
        · rw [if_neg h, if_neg h]

/-- **C116.**  A command during which no other runs has done after its stages what the command of the
model without other commands does; so what is proved about histories of commands holds for commands that
do not overlap. -/
theorem C116_alone (c : Cmd) (w : World) (n : Nat) :
    stepsCmd c w .start (n + 7) = outcome w (runCmd w c) := by
  cases c with
  | patch rd e =>
    show stepsCmd (.patch rd e) w (openStage rd w) (n + 6) = _
    unfold openStage runCmd
    dsimp only
    cases openTask true rd w with
    | none => exact steps_crashed _ _ _
    | some s => exact steps_opened rd e w s n
  | unpatch rd e =>
    show stepsCmd (.unpatch rd e) w (openStage rd w) (n + 6) = _
    unfold openStage runCmd
    dsimp only
    cases openTask true rd w with
    | none => exact steps_crashed _ _ _
    | some s => exact steps_ended _ _ _ _

theorem run_append (cmds : Nat → Cmd) (l l' : List Nat) : ∀ c : Conc,
    c.run cmds (l ++ l') = (c.run cmds l).run cmds l' := by
  induction l with
  | nil => intro c; rfl
  | cons i l ih => intro c; exact ih _

theorem run_one (cmds : Nat → Cmd) (i : Nat) (n : Nat) : ∀ c : Conc,
    c.run cmds (List.replicate n i) =
      ⟨(stepsCmd (cmds i) c.world (c.stage i) n).1,
        fun j => if j = i then (stepsCmd (cmds i) c.world (c.stage i) n).2 else c.stage j⟩ := by
  induction n with
  | zero =>
    intro c
    obtain ⟨cw, cs⟩ := c
    show (⟨cw, cs⟩ : Conc) = ⟨cw, fun j => if j = i then cs i else cs j⟩
    congr 1
    funext j
    by_cases h : j = i
    · rw [if_pos h, h]
    · rw [if_neg h]
  | succ n ih =>
    intro c
    rw [List.replicate_succ, Conc.run]
    rw [ih]
    dsimp only
    rw [if_pos rfl]
    congr 1
    funext j
    by_cases h : j = i
    · rw [if_pos h, if_pos h]; rfl
    · rw [if_neg h, if_neg h, if_neg h]

/-- **C116.**  Commands that take turns: if each is run to its end before the next one starts, then
they leave the process as the history of these commands does. -/
theorem C116_turns (cmds : Nat → Cmd) (ids : List Nat) (hn : ids.Nodup) : ∀ (c : Conc) (w' : World),
    (∀ i ∈ ids, c.stage i = .start) → runHist c.world (ids.map cmds) = some w' →
    (c.run cmds (ids.flatMap (List.replicate 7))).world = w' := by
  induction ids with
  | nil => intro c w' _ h; exact Option.some.inj h
  | cons i ids ih =>
    intro c w' hs h
    have hn := List.nodup_cons.1 hn
    rw [List.flatMap_cons, run_append, run_one, hs i List.mem_cons_self, C116_alone]
    rw [List.map_cons, runHist] at h
    cases hr : runCmd c.world (cmds i) with
    | none => rw [hr] at h; cases h
    | some r =>
      rw [hr] at h
      refine ih hn.2 _ w' (fun j hj => ?_) h
      show (if j = i then _ else _) = _
      rw [if_neg (by rintro rfl; exact hn.1 hj)]
      exact hs j (List.mem_cons_of_mem _ hj)

/-! ### Patches of different functions -/

/-- A patch command that has opened the process: what it found, and where things will be. -/
structure Job where
  rd : Mapping → ReadRes
  env : PatchEnv
  session : Session
  /-- where its image will be -/
  hdr : Addr
  /-- the function and its replacement -/
  fn : Addr
  src : Addr

/-- Every system call succeeds, and no patch with this Build ID was there. -/
structure Job.Works (j : Job) : Prop where
  fto : j.session.ftoProc = true
  fresh : (j.session.ulps.any fun u => decide (u.bid = j.env.bid)) = false
  alloc : j.env.alloc = none
  chown : j.env.chown = none
  attach1 : j.env.attach1 = .ok
  fd : 0 < j.env.fd
  ftruncate : j.env.ftruncate = 0
  mmap : j.env.mmap = .created j.hdr
  setup : j.env.setup = none
  rewrite : j.env.rewrite = none
  simplify : j.env.simplify = none
  apply : j.env.apply = none
  target : j.env.target = some j.fn
  source : j.env.source = some j.src
  orig : j.env.info0.orig.length = 16
  pread : j.env.preadN = some 16
  image : ∀ i, (j.env.image i).length = j.env.len
  imageN : j.env.imageN = some j.env.len
  small : j.env.len ≤ 2 ^ 64
  attach2 : j.env.attach2 = .ok
  entryN : j.env.entryN = some 16

/-- The jobs do not meet: other functions, other mappings. -/
structure Apart (jobs : Nat → Job) (n : Nat) (w : World) : Prop where
  works : ∀ i < n, (jobs i).Works
  new : ∀ i < n, ∀ m ∈ w.maps, m.start ≠ (jobs i).hdr
  hdrs : ∀ i < n, ∀ j < n, i ≠ j → (jobs i).hdr ≠ (jobs j).hdr
  fns : ∀ i < n, ∀ j < n, i ≠ j → Disjoint (jobs i).fn 16 (jobs j).fn 16
  images : ∀ i < n, ∀ j < n, i ≠ j →
    Disjoint (jobs i).hdr (jobs i).env.len (jobs j).hdr (jobs j).env.len
  cross : ∀ i < n, ∀ j < n, Disjoint (jobs i).fn 16 (jobs j).hdr (jobs j).env.len

/-- The metadata of the patch: the number after the greatest one that was found, the function, the
replacement, and the first 16 bytes of the function. -/
def Job.info (w : World) (j : Job) : Info :=
  ⟨j.session.maxId + 1, j.fn, j.src, j.fn, w.mem.read j.fn 16⟩

/-- Where a job is after `k` stages. -/
def Job.at (w : World) (j : Job) : Nat → Stage
  | 0 => .opened j.session
  | 1 => .mapped j.session j.hdr
  | 2 => .checked j.session j.hdr
  | 3 => .saved j.hdr (j.info w)
  | 4 => .copied j.hdr (j.info w)
  | _ => .ended 0

/-- The memory when job `i` has done `k i` stages. -/
structure InvM (jobs : Nat → Job) (n : Nat) (w : World) (k : Nat → Nat) (m : Mem) : Prop where
  before : ∀ i < n, k i ≤ 4 → m.read (jobs i).fn 16 = w.mem.read (jobs i).fn 16
  after : ∀ i < n, 5 ≤ k i → m.read (jobs i).fn 16 = jmpEntry w.arch (jobs i).src
  image : ∀ i < n, 4 ≤ k i → m.read (jobs i).hdr (jobs i).env.len = (jobs i).env.image ((jobs i).info w)
  other : ∀ a, (∀ i < n, 16 ≤ (a - (jobs i).fn).toNat ∧ (jobs i).env.len ≤ (a - (jobs i).hdr).toNat) →
    m a = w.mem a

/-- The mappings. -/
structure InvP (jobs : Nat → Job) (n : Nat) (w : World) (k : Nat → Nat) (maps : List Mapping) : Prop where
  before : ∀ i < n, k i = 0 → ∀ m ∈ maps, m.start ≠ (jobs i).hdr
  there : ∀ i < n, 1 ≤ k i → ∃ m ∈ maps, m.start = (jobs i).hdr
  after : ∀ i < n, ∀ m ∈ maps, m.start = (jobs i).hdr →
    m.len = (jobs i).env.len ∧ m.bid = (jobs i).env.bid ∧ (2 ≤ k i → m.ready = true) ∧
      (3 ≤ k i → m.info = (jobs i).info w)
  other : ∀ m, (∀ i < n, m.start ≠ (jobs i).hdr) → (m ∈ maps ↔ m ∈ w.maps)

def bump (k : Nat → Nat) (i : Nat) : Nat → Nat := fun j => if j = i then k j + 1 else k j

theorem bump_self (k : Nat → Nat) (i : Nat) : bump k i i = k i + 1 := if_pos rfl

theorem bump_other (k : Nat → Nat) {i j : Nat} (h : j ≠ i) : bump k i j = k j := if_neg h

/-- A stage that does not write memory. -/
theorem InvM.same {jobs : Nat → Job} {n : Nat} {w : World} {k : Nat → Nat} {m : Mem}
    (h : InvM jobs n w k m) (i : Nat) (hk : k i ≤ 2 ∨ 5 ≤ k i) : InvM jobs n w (bump k i) m := by
  constructor
  · intro j hj hkj
    by_cases e : j = i
    · subst e; rw [bump_self] at hkj; exact h.before j hj (by omega)
    · rw [bump_other k e] at hkj; exact h.before j hj hkj
  · intro j hj hkj
    by_cases e : j = i
    · subst e; rw [bump_self] at hkj; exact h.after j hj (by omega)
    · rw [bump_other k e] at hkj; exact h.after j hj hkj
  · intro j hj hkj
    by_cases e : j = i
    · subst e; rw [bump_self] at hkj; exact h.image j hj (by omega)
    · rw [bump_other k e] at hkj; exact h.image j hj hkj
  · exact h.other

theorem InvM.copy {jobs : Nat → Job} {n : Nat} {w : World} {k : Nat → Nat} {m : Mem}
    (ha : Apart jobs n w) (h : InvM jobs n w k m) (i : Nat) (hi : i < n) (hk : k i = 3) :
    InvM jobs n w (bump k i) (m.write (jobs i).hdr ((jobs i).env.image ((jobs i).info w))) := by
  have hl := (ha.works i hi).image ((jobs i).info w)
  have hfn : ∀ j < n, (m.write (jobs i).hdr ((jobs i).env.image ((jobs i).info w))).read (jobs j).fn 16 =
      m.read (jobs j).fn 16 := fun j hj =>
    Mem.read_write_disjoint _ _ _ _ _ (by rw [hl]; exact (ha.cross j hj i hi).symm)
  constructor
  · intro j hj hkj
    rw [hfn j hj]
    by_cases e : j = i
    · subst e; exact h.before j hj (by omega)
    · rw [bump_other k e] at hkj; exact h.before j hj hkj
  · intro j hj hkj
    rw [hfn j hj]
    by_cases e : j = i
    · subst e; rw [bump_self] at hkj; omega
    · rw [bump_other k e] at hkj; exact h.after j hj hkj
  · intro j hj hkj
    by_cases e : j = i
    · subst e
      have := Mem.read_write_self m (jobs j).hdr ((jobs j).env.image ((jobs j).info w))
        (by rw [hl]; exact (ha.works j hj).small)
      rwa [hl] at this
    · rw [bump_other k e] at hkj
      rw [Mem.read_write_disjoint _ _ _ _ _ (by rw [hl]; exact ha.images i hi j hj (Ne.symm e))]
      exact h.image j hj hkj
  · intro a hout
    rw [Mem.write_out _ _ _ _ (by rw [hl]; exact (hout i hi).2)]
    exact h.other a hout

theorem InvM.entry {jobs : Nat → Job} {n : Nat} {w : World} {k : Nat → Nat} {m : Mem}
    (ha : Apart jobs n w) (h : InvM jobs n w k m) (i : Nat) (hi : i < n) (hk : k i = 4) :
    InvM jobs n w (bump k i) (m.write (jobs i).fn (jmpEntry w.arch (jobs i).src)) := by
  have hl := jmpEntry_length w.arch (jobs i).src
  constructor
  · intro j hj hkj
    by_cases e : j = i
    · subst e; rw [bump_self] at hkj; omega
    · rw [bump_other k e] at hkj
      rw [Mem.read_write_disjoint _ _ _ _ _ (by rw [hl]; exact ha.fns i hi j hj (Ne.symm e))]
      exact h.before j hj hkj
  · intro j hj hkj
    by_cases e : j = i
    · subst e
      have := Mem.read_write_self m (jobs j).fn (jmpEntry w.arch (jobs j).src) (by rw [hl]; decide)
      rwa [hl] at this
    · rw [bump_other k e] at hkj
      rw [Mem.read_write_disjoint _ _ _ _ _ (by rw [hl]; exact ha.fns i hi j hj (Ne.symm e))]
      exact h.after j hj hkj
  · intro j hj hkj
    rw [Mem.read_write_disjoint _ _ _ _ _ (by rw [hl]; exact ha.cross i hi j hj)]
    by_cases e : j = i
    · subst e; exact h.image j hj (by omega)
    · rw [bump_other k e] at hkj; exact h.image j hj hkj
  · intro a hout
    rw [Mem.write_out _ _ _ _ (by rw [hl]; exact (hout i hi).1)]
    exact h.other a hout

theorem InvP.same {jobs : Nat → Job} {n : Nat} {w : World} {k : Nat → Nat} {l : List Mapping}
    (h : InvP jobs n w k l) (i : Nat) (hk : 3 ≤ k i) : InvP jobs n w (bump k i) l := by
  constructor
  · intro j hj hkj
    by_cases e : j = i
    · subst e; rw [bump_self] at hkj; omega
    · rw [bump_other k e] at hkj; exact h.before j hj hkj
  · intro j hj hkj
    by_cases e : j = i
    · subst e; exact h.there j hj (by omega)
    · rw [bump_other k e] at hkj; exact h.there j hj hkj
  · intro j hj m hm hs
    obtain ⟨h1, h2, h3, h4⟩ := h.after j hj m hm hs
    by_cases e : j = i
    · subst e; exact ⟨h1, h2, fun _ => h3 (by omega), fun _ => h4 (by omega)⟩
    · rw [bump_other k e]; exact ⟨h1, h2, h3, h4⟩
  · exact h.other

theorem InvP.insert {jobs : Nat → Job} {n : Nat} {w : World} {k : Nat → Nat} {l : List Mapping}
    (ha : Apart jobs n w) (h : InvP jobs n w k l) (i : Nat) (hi : i < n) (hk : k i = 0) (x : Mapping)
    (hx : x.start = (jobs i).hdr) (hlen : x.len = (jobs i).env.len) (hbid : x.bid = (jobs i).env.bid) :
    InvP jobs n w (bump k i) (insertMap x l) := by
  constructor
  · intro j hj hkj m hm
    by_cases e : j = i
    · subst e; rw [bump_self] at hkj; omega
    · rw [bump_other k e] at hkj
      rcases (mem_insertMap x m l).1 hm with rfl | hm
      · rw [hx]; exact ha.hdrs i hi j hj (Ne.symm e)
      · exact h.before j hj hkj m hm
  · intro j hj hkj
    by_cases e : j = i
    · subst e; exact ⟨x, (mem_insertMap x x l).2 (Or.inl rfl), hx⟩
    · rw [bump_other k e] at hkj
      obtain ⟨m, hm, hs⟩ := h.there j hj hkj
      exact ⟨m, (mem_insertMap x m l).2 (Or.inr hm), hs⟩
  · intro j hj m hm hs
    by_cases e : j = i
    · subst e
      rw [bump_self]
      rcases (mem_insertMap x m l).1 hm with rfl | hm
      · exact ⟨hlen, hbid, fun h => by omega, fun h => by omega⟩
      · exact absurd hs (h.before j hj hk m hm)
    · rw [bump_other k e]
      rcases (mem_insertMap x m l).1 hm with rfl | hm
      · rw [hx] at hs; exact absurd hs (ha.hdrs i hi j hj (Ne.symm e))
      · exact h.after j hj m hm hs
  · intro m hm
    rw [mem_insertMap, h.other m hm]
    constructor
    · rintro (rfl | h)
      · exact absurd hx (hm i hi)
      · exact h
    · exact Or.inr

theorem mem_updMap (w : World) (hdr : Addr) (f : Mapping → Mapping) (hf : ∀ m, (f m).start = m.start)
    (x : Mapping) : x ∈ (updMap w hdr f).maps ↔
      (x.start ≠ hdr ∧ x ∈ w.maps) ∨ (x.start = hdr ∧ ∃ m ∈ w.maps, m.start = hdr ∧ f m = x) := by
  show x ∈ w.maps.map _ ↔ _
  rw [List.mem_map]
  constructor
  · rintro ⟨m, hm, e⟩
    by_cases h : m.start = hdr
    · rw [if_pos h] at e
      exact Or.inr ⟨by rw [← e, hf]; exact h, m, hm, h, e⟩
    · rw [if_neg h] at e
      subst e
      exact Or.inl ⟨h, hm⟩
  · rintro (⟨h, hm⟩ | ⟨-, m, hm, hs, e⟩)
    · exact ⟨x, hm, if_neg h⟩
    · exact ⟨m, hm, by rw [if_pos hs]; exact e⟩

theorem InvP.upd {jobs : Nat → Job} {n : Nat} {w v : World} {k : Nat → Nat}
    (ha : Apart jobs n w) (h : InvP jobs n w k v.maps) (i : Nat) (hi : i < n) (f : Mapping → Mapping)
    (hf : ∀ m, (f m).start = m.start) (hk : 1 ≤ k i) (k' : Nat) (hk' : 1 ≤ k')
    (hg : ∀ m ∈ v.maps, m.start = (jobs i).hdr → (f m).len = m.len ∧ (f m).bid = m.bid ∧
      (2 ≤ k' → (f m).ready = true) ∧ (3 ≤ k' → (f m).info = (jobs i).info w)) :
    InvP jobs n w (fun j => if j = i then k' else k j) (updMap v (jobs i).hdr f).maps := by
  constructor
  · intro j hj hkj m hm
    by_cases e : j = i
    · rw [if_pos e] at hkj; omega
    · rw [if_neg e] at hkj
      rcases (mem_updMap v _ f hf m).1 hm with ⟨_, hm⟩ | ⟨hs, -⟩
      · exact h.before j hj hkj m hm
      · rw [hs]; exact ha.hdrs i hi j hj (Ne.symm e)
  · intro j hj hkj
    by_cases e : j = i
    · subst e
      obtain ⟨m, hm, hs⟩ := h.there j hj hk
      exact ⟨f m, (mem_updMap v _ f hf _).2 (Or.inr ⟨by rw [hf]; exact hs, m, hm, hs, rfl⟩),
        by rw [hf]; exact hs⟩
    · rw [if_neg e] at hkj
      obtain ⟨m, hm, hs⟩ := h.there j hj hkj
      exact ⟨m, (mem_updMap v _ f hf _).2 (Or.inl ⟨by rw [hs]; exact ha.hdrs j hj i hi e, hm⟩), hs⟩
  · intro j hj m hm hs
    by_cases e : j = i
    · subst e
      rw [if_pos rfl]
      rcases (mem_updMap v _ f hf m).1 hm with ⟨h1, -⟩ | ⟨-, m0, hm0, hs0, rfl⟩
      · exact absurd hs h1
      · obtain ⟨g1, g2, g3, g4⟩ := hg m0 hm0 hs0
        obtain ⟨h1, h2, -⟩ := h.after j hj m0 hm0 hs0
        exact ⟨g1.trans h1, g2.trans h2, g3, g4⟩
    · rw [if_neg e]
      rcases (mem_updMap v _ f hf m).1 hm with ⟨_, hm⟩ | ⟨h1, -⟩
      · exact h.after j hj m hm hs
      · rw [h1] at hs; exact absurd hs (ha.hdrs i hi j hj (Ne.symm e))
  · intro m hm
    rw [← h.other m hm, mem_updMap v _ f hf]
    constructor
    · rintro (⟨-, h⟩ | ⟨h, -⟩)
      · exact h
      · exact absurd h (hm i hi)
    · exact fun h => Or.inl ⟨hm i hi, h⟩

theorem bump_eq (k : Nat → Nat) (i : Nat) : bump k i = fun j => if j = i then k i + 1 else k j := by
  funext j
  unfold bump
  by_cases e : j = i
  · rw [if_pos e, if_pos e, e]
  · rw [if_neg e, if_neg e]

theorem writeTask_full (w : World) (a : Addr) (bs : List Byte) (k : Nat) (h : bs.length ≤ k) :
    writeTask w a bs (some k) = ({ w with mem := w.mem.write a bs }, true) := by
  unfold writeTask
  dsimp only
  rw [List.take_of_length_le h, decide_eq_true h]

/-- The whole state. -/
structure InvJ (jobs : Nat → Job) (n : Nat) (w : World) (k : Nat → Nat) (c : Conc) : Prop where
  arch : c.world.arch = w.arch
  attached : c.world.attached = false
  mem : InvM jobs n w k c.world.mem
  maps : InvP jobs n w k c.world.maps
  stage : ∀ i < n, c.stage i = (jobs i).at w (k i)

theorem job_step (jobs : Nat → Job) (n : Nat) (w : World) (ha : Apart jobs n w) (k : Nat → Nat)
    (v : World) (harch : v.arch = w.arch) (hatt : v.attached = false) (hm : InvM jobs n w k v.mem)
    (hp : InvP jobs n w k v.maps) (i : Nat) (hi : i < n) :
    ∃ v', stepCmd (.patch (jobs i).rd (jobs i).env) v ((jobs i).at w (k i)) =
        (v', (jobs i).at w (k i + 1)) ∧ v'.arch = w.arch ∧ v'.attached = false ∧
      InvM jobs n w (bump k i) v'.mem ∧ InvP jobs n w (bump k i) v'.maps := by
  have hw := ha.works i hi
  rcases hk : k i with _ | _ | _ | _ | _ | k0
  · refine ⟨{ v with maps := insertMap ⟨(jobs i).hdr, (jobs i).env.len, (jobs i).env.bid, false,
      (jobs i).env.info0⟩ v.maps, attached := false }, ?_, harch, rfl, hm.same i (Or.inl (by omega)),
      hp.insert ha i hi hk _ rfl rfl rfl⟩
    show mapStage v (jobs i).session (jobs i).env = _
    unfold mapStage createMmap
    have hfd : ¬ (jobs i).env.fd ≤ 0 := by have := hw.fd; omega
    rw [hw.fto, if_neg (by simp), hw.alloc, hw.chown, hw.attach1]
    dsimp only
    rw [if_neg hfd, hw.ftruncate, if_neg (by simp), hw.mmap]
    rfl
  · refine ⟨updMap v (jobs i).hdr fun m => { m with ready := true }, ?_, harch, hatt,
      hm.same i (Or.inl (by omega)), ?_⟩
    · show checkStage v (jobs i).session (jobs i).env (jobs i).hdr = _
      unfold checkStage
      rw [hw.setup, hw.fresh, hw.rewrite, hw.simplify, hw.apply]
      rfl
    · rw [bump_eq, hk]
      exact hp.upd ha i hi (fun m => { m with ready := true }) (fun _ => rfl) (by omega) 2 (by omega)
        fun m _ _ => ⟨rfl, rfl, fun _ => rfl, fun h => by omega⟩
  · generalize hi0 : (⟨(jobs i).session.maxId + 1, (jobs i).fn, (jobs i).src, (jobs i).fn,
      (jobs i).env.info0.orig⟩ : Info) = info0
    refine ⟨updMap (updMap v (jobs i).hdr fun m => { m with info := info0 }) (jobs i).hdr
      fun m => { m with info := (jobs i).info w }, ?_, harch, hatt, hm.same i (Or.inl (by omega)), ?_⟩
    · show saveStage v (jobs i).session (jobs i).env (jobs i).hdr = _
      unfold saveStage
      rw [hw.target, hw.source, hw.pread]
      dsimp only
      have hd : (jobs i).env.info0.orig.drop (min 16 16) = [] :=
        List.drop_eq_nil_of_le (by rw [hw.orig]; decide)
      rw [if_neg (by decide), hd, List.append_nil]
      show (_, Stage.saved _ _) = (_, Stage.saved _ _)
      have hr : v.mem.read (jobs i).fn (min 16 16) = w.mem.read (jobs i).fn 16 := hm.before i hi (by omega)
      have he : ({ (⟨(jobs i).session.maxId + 1, (jobs i).fn, (jobs i).src, (jobs i).fn,
          (jobs i).env.info0.orig⟩ : Info) with orig := v.mem.read (jobs i).fn (min 16 16) } : Info) =
          (jobs i).info w := by
        rw [hr]; rfl
      rw [← hi0, ← he]
      rfl
    · have h1 : InvP jobs n w (fun j => if j = i then 2 else k j)
          (updMap v (jobs i).hdr fun m => { m with info := info0 }).maps :=
        hp.upd ha i hi (fun m => { m with info := info0 }) (fun _ => rfl) (by omega) 2 (by omega)
          fun m hm' hs => ⟨rfl, rfl, fun _ => (hp.after i hi m hm' hs).2.2.1 (by omega), fun h => by omega⟩
      have h2 := h1.upd ha i hi (fun m => { m with info := (jobs i).info w }) (fun _ => rfl)
        (by rw [if_pos rfl]; omega) 3 (by omega)
        fun m hm' hs => ⟨rfl, rfl,
          fun _ => (h1.after i hi m hm' hs).2.2.1 (by rw [if_pos rfl]; omega), fun _ => rfl⟩
      have e : bump k i = fun j => if j = i then 3 else if j = i then 2 else k j := by
        rw [bump_eq, hk]
        funext j
        by_cases e : j = i
        · rw [if_pos e, if_pos e]
        · rw [if_neg e, if_neg e, if_neg e]
      rw [e]
      exact h2
  · refine ⟨{ v with mem := v.mem.write (jobs i).hdr ((jobs i).env.image ((jobs i).info w)) }, ?_, harch, hatt,
      hm.copy ha i hi hk, hp.same i (by omega)⟩
    show copyStage v (jobs i).env (jobs i).hdr ((jobs i).info w) = _
    obtain ⟨m, hmm, hs⟩ := hp.there i hi (by omega)
    have hmap : v.mapped (jobs i).hdr = true := List.any_eq_true.2 ⟨m, hmm, decide_eq_true hs⟩
    have hl := hw.image ((jobs i).info w)
    unfold copyStage
    rw [hmap, if_pos rfl, hw.imageN]
    rw [writeTask_full _ _ _ _ (by omega)]
    rfl
  · refine ⟨{ v with mem := v.mem.write (jobs i).fn (jmpEntry w.arch (jobs i).src), attached := false }, ?_,
      harch, rfl, hm.entry ha i hi hk, hp.same i (by omega)⟩
    show entryStage v (jobs i).env (jobs i).hdr ((jobs i).info w) = _
    have hl := jmpEntry_length w.arch (jobs i).src
    have hke : kickEntry v (jobs i).env ((jobs i).info w) =
        ({ v with mem := v.mem.write (jobs i).fn (jmpEntry w.arch (jobs i).src), attached := false }, 0) := by
      unfold kickEntry
      rw [hw.attach2]
      dsimp only
      rw [hw.entryN, writeTask_full _ _ _ _ (by rw [jmpEntry_length]; omega), ← harch]
      rfl
    unfold entryStage
    rw [hke]
    rfl
  · exact ⟨v, rfl, harch, hatt, hm.same i (Or.inr (by omega)), hp.same i (by omega)⟩

theorem run_jobs (jobs : Nat → Job) (n : Nat) (w : World) (ha : Apart jobs n w) (sched : List Nat)
    (hs : ∀ i ∈ sched, i < n) : ∀ (k : Nat → Nat) (c : Conc), InvJ jobs n w k c →
      InvJ jobs n w (fun i => k i + sched.count i)
        (c.run (fun i => .patch (jobs i).rd (jobs i).env) sched) := by
  induction sched with
  | nil => intro k c h; simpa [Conc.run] using h
  | cons i l ih =>
    intro k c h
    have hi := hs i List.mem_cons_self
    obtain ⟨v', e, h1, h2, h3, h4⟩ := job_step jobs n w ha k c.world h.arch h.attached h.mem h.maps i hi
    have hn := ih (fun j hj => hs j (List.mem_cons_of_mem _ hj)) (bump k i)
      ⟨v', fun j => if j = i then (jobs i).at w (k i + 1) else c.stage j⟩
      ⟨h1, h2, h3, h4, fun j hj => by
        dsimp only
        by_cases e : j = i
        · rw [if_pos e, e, bump_self]
        · rw [if_neg e, bump_other k e]; exact h.stage j hj⟩
    have hk : (fun j => bump k i j + l.count j) = fun j => k j + (i :: l).count j := by
      funext j
      rw [List.count_cons]
      by_cases e : j = i
      · subst e; rw [bump_self, beq_self_eq_true, if_pos rfl]; omega
      · rw [bump_other k e, if_neg (by simpa using fun h => e h.symm)]; omega
    rw [hk] at hn
    rw [Conc.run]
    rw [h.stage i hi, e]
    exact hn

/-- **C116.**  Patch commands at the same time, of any number and in any order of their stages, which
have opened the process, patch different functions and find their system calls succeed: at every
moment each function has its own code or jumps to its own replacement, whose image is then in
place; a command that has been given five turns has ended with success; the bytes saved for taking
a patch back are those that the function had before; nothing else in the process has changed and it
is not left stopped.

Missing: their numbers, see `C116_same_number`; the same function, see `C116_dangling`; the same patch, see
`C116_twice`; opening the process while another command is at work, see `C116_crash`. -/
theorem C116_patches_partial (jobs : Nat → Job) (n : Nat) (c : Conc) (hnot : c.world.attached = false)
    (ha : Apart jobs n c.world) (hopen : ∀ i < n, c.stage i = .opened (jobs i).session)
    (sched : List Nat) (hs : ∀ i ∈ sched, i < n) (c' : Conc)
    (hc' : c.run (fun i => .patch (jobs i).rd (jobs i).env) sched = c') :
    (∀ i < n, c'.world.mem.read (jobs i).fn 16 = c.world.mem.read (jobs i).fn 16 ∨
      c'.stage i = .ended 0 ∧ c'.world.mem.read (jobs i).fn 16 = jmpEntry c.world.arch (jobs i).src) ∧
    (∀ i < n, 5 ≤ sched.count i → c'.stage i = .ended 0) ∧
    (∀ i < n, ∀ r, c'.stage i = .ended r →
      c'.world.mem.read (jobs i).fn 16 = jmpEntry c.world.arch (jobs i).src ∧
      c'.world.mem.read (jobs i).hdr (jobs i).env.len = (jobs i).env.image ((jobs i).info c.world) ∧
      ∃ m ∈ c'.world.maps, m.start = (jobs i).hdr ∧ m.len = (jobs i).env.len ∧ m.bid = (jobs i).env.bid ∧
        m.ready = true ∧ m.info = (jobs i).info c.world) ∧
    (∀ i < n, c'.stage i ≠ .crashed) ∧
    (∀ a, (∀ i < n, 16 ≤ (a - (jobs i).fn).toNat ∧ (jobs i).env.len ≤ (a - (jobs i).hdr).toNat) →
      c'.world.mem a = c.world.mem a) ∧
    (∀ m, (∀ i < n, m.start ≠ (jobs i).hdr) → (m ∈ c'.world.maps ↔ m ∈ c.world.maps)) ∧
    c'.world.attached = false := by
  have h := run_jobs jobs n c.world ha sched hs (fun _ => 0) c
    ⟨rfl, hnot, ⟨fun _ _ _ => rfl, fun _ _ h => by omega, fun _ _ h => by omega, fun _ _ => rfl⟩,
      ⟨fun i hi _ => ha.new i hi, fun _ _ h => by omega,
        fun i hi m hm hs => absurd hs (ha.new i hi m hm), fun _ _ => Iff.rfl⟩, hopen⟩
  rw [hc'] at h
  simp only [Nat.zero_add] at h
  have hend : ∀ i < n, 5 ≤ sched.count i → c'.stage i = .ended 0 := by
    intro i hi h5
    rw [h.stage i hi]
    obtain ⟨m, hm⟩ : ∃ m, sched.count i = m + 5 := ⟨sched.count i - 5, by omega⟩
    rw [hm]
    rfl
  refine ⟨fun i hi => ?_, hend, fun i hi r hr => ?_, fun i hi => ?_, h.mem.other, h.maps.other, h.attached⟩
  · by_cases h5 : 5 ≤ sched.count i
    · exact Or.inr ⟨hend i hi h5, h.mem.after i hi h5⟩
    · exact Or.inl (h.mem.before i hi (by omega))
  · have h5 : 5 ≤ sched.count i := by
      rw [h.stage i hi] at hr
      rcases hk : sched.count i with _ | _ | _ | _ | _ | k0
      all_goals first | omega | (rw [hk] at hr; cases hr)
    obtain ⟨m, hm, hs⟩ := h.maps.there i hi (by omega)
    obtain ⟨g1, g2, g3, g4⟩ := h.maps.after i hi m hm hs
    exact ⟨h.mem.after i hi h5, h.mem.image i hi (by omega), m, hm, hs, g1, g2, g3 (by omega), g4 (by omega)⟩
  · rw [h.stage i hi]
    rcases sched.count i with _ | _ | _ | _ | _ | k0 <;> exact fun h => by cases h

/-- Another patch, for another function. -/
def exEnv3 : PatchEnv := { exEnv with
  bid := "c3", target := some 0x402000, mmap := .created 0x10001000, source := some 0x10001010 }

def exJobs : Nat → Job
  | 0 => ⟨allOk, exEnv, ⟨[], 0, true⟩, 0x10000000, 0x401000, 0x10000010⟩
  | _ => ⟨allOk, exEnv3, ⟨[], 0, true⟩, 0x10001000, 0x402000, 0x10001010⟩

theorem apart_of_far {a b : Addr} {n k : Nat} (h : a.toNat + n ≤ b.toNat) (hb : b.toNat + k < 2 ^ 64) :
    Disjoint a n b k := by
  intro i j hi hj e
  have := congrArg BitVec.toNat e
  rw [BitVec.toNat_add, BitVec.toNat_add, BitVec.toNat_ofNat, BitVec.toNat_ofNat] at this
  omega

example : Apart exJobs 2 exWorld := by
  have h01 : ∀ i, i < 2 → i = 0 ∨ i = 1 := fun i h => by omega
  refine ⟨?_, fun _ _ _ h => (by cases h), ?_, ?_, ?_, ?_⟩
  · intro i hi
    rcases h01 i hi with rfl | rfl <;>
      exact ⟨rfl, rfl, rfl, rfl, rfl, by decide, rfl, rfl, rfl, rfl, rfl, rfl, rfl, rfl, rfl, rfl,
        fun _ => rfl, rfl, by decide, rfl, rfl⟩
  · intro i hi j hj hij
    rcases h01 i hi with rfl | rfl <;> rcases h01 j hj with rfl | rfl <;>
      first | exact absurd rfl hij | decide
  · intro i hi j hj hij
    rcases h01 i hi with rfl | rfl <;> rcases h01 j hj with rfl | rfl
    · exact absurd rfl hij
    · exact apart_of_far (by decide) (by decide)
    · exact (apart_of_far (by decide) (by decide)).symm
    · exact absurd rfl hij
  · intro i hi j hj hij
    rcases h01 i hi with rfl | rfl <;> rcases h01 j hj with rfl | rfl
    · exact absurd rfl hij
    · exact apart_of_far (by decide) (by decide)
    · exact (apart_of_far (by decide) (by decide)).symm
    · exact absurd rfl hij
  · intro i hi j hj
    rcases h01 i hi with rfl | rfl <;> rcases h01 j hj with rfl | rfl <;>
      exact apart_of_far (by decide) (by decide)

/-- Nobody has begun. -/
def exStart : Conc := ⟨exWorld, fun _ => .start⟩

/-- Two patch commands and then two commands that take patches back. -/
def exCmds (e0 e1 : PatchEnv) : Nat → Cmd
  | 0 => .patch allOk e0
  | 1 => .patch allOk e1
  | _ => .unpatch allOk exDel

/-- The second command opens the process before the first one has mapped its image. -/
def exOverlap : List Nat := [0, 1] ++ List.replicate 6 0 ++ List.replicate 6 1

/-- **C116, finding.**  Two patches of different functions at the same time get the same number. -/
theorem C116_same_number : ((exStart.run (exCmds exEnv exEnv3) exOverlap).world.maps.map fun m => m.info.id) = [1, 1] := by
  decide +kernel

/-- **C116, finding.**  The same patch twice at the same time: the second one is not refused. -/
theorem C116_twice :
    ((exStart.run (exCmds exEnv { exEnv with mmap := .created 0x10001000, source := some 0x10001010 })
      exOverlap).world.maps.map fun m => m.bid) = ["a1", "a1"] := by
  decide +kernel

/-- How a command has ended. -/
def Stage.result : Stage → Option Int
  | .ended r => some r
  | _ => none

/-- **C116, finding.**  Two patches of the same function at the same time, and then both are taken
back, one command after the other: all four commands succeed and no patch is left, but the function
jumps to the first replacement, which is not there any more. -/
theorem C116_dangling : ∃ c, c = exStart.run (exCmds exEnv { exEnv with
      bid := "d4", mmap := .created 0x10001000, source := some 0x10001010 })
      (exOverlap ++ List.replicate 7 2 ++ List.replicate 7 3) ∧
    [0, 1, 2, 3].map (fun i => (c.stage i).result) = [some 0, some 0, some 0, some 0] ∧
    c.world.maps = [] ∧ c.world.mem.read 0x401000 16 = jmpEntry .x86_64 0x10000010 := by
  refine ⟨_, rfl, ?_, ?_, ?_⟩ <;> decide +kernel

/-- **C116, finding.**  A command that opens the process after another one has mapped its image and
before its headers are complete follows wild pointers. -/
theorem C116_crash : (exStart.run (exCmds exEnv exEnv3) [0, 0, 1]).stage 1 = .crashed := rfl

/-- Taking turns instead: different numbers, and nothing is left. -/
example : ((exStart.run (exCmds exEnv exEnv3) ([0, 1].flatMap (List.replicate 7))).world.maps.map
      fun m => m.info.id) = [1, 2] ∧
    runHist exWorld ([0, 1, 2, 3].map (exCmds exEnv exEnv3)) ≠ none := by
  constructor
  · decide +kernel
  · exact fun h => nomatch h

end Ulp.Patch
