import Verif.Spec.LateFail
import Verif.Props.FileHist
namespace Ulp.Patch

theorem kickEntry_late {w : World} {e : PatchEnv} {info : Info} (h : (kickEntry w e info).2 ≠ 0) (hat : e.EntryAtomic) :
    (kickEntry w e info).1.mem = w.mem ∧ (kickEntry w e info).1.maps = w.maps ∧
    (kickEntry w e.entryWorks info).1.mem = w.mem.write info.virt (jmpEntry w.arch info.patchFn) ∧
    (kickEntry w e.entryWorks info).1.maps = w.maps := by
  have hmem : (kickEntry w e info).1.mem = w.mem := by
    unfold kickEntry at h ⊢
    cases h2 : e.attach2 with
    | fail n left => rfl
    | ok =>
      rw [h2] at h
      dsimp only at h ⊢
      rcases hat with hn | hn | ⟨k, hk, hn⟩
      · rw [hn]
        rfl
      · rw [hn]
        show w.mem.write info.virt [] = _
        funext x
        exact Mem.write_out _ _ _ _ (Nat.zero_le _)
      · rw [hn] at h
        refine absurd ?_ h
        unfold writeTask
        dsimp only
        rw [jmpEntry_length, if_pos (decide_eq_true hk)]
  refine ⟨hmem, (kickEntry_good (R := fun _ => False) (w := w) (e := e) info).1, ?_,
    (kickEntry_good (R := fun _ => False) (w := w) (e := e.entryWorks) info).1⟩
  show w.mem.write info.virt (List.take 16 _) = _
  rw [List.take_of_length_le (by rw [jmpEntry_length]; omega)]

/-- The worlds after two commands that differ in their last step only. -/
structure Twin (arch : Arch) (t p : Addr) (w' w1 : World) : Prop where
  mem : w1.mem = w'.mem.write t (jmpEntry arch p)
  maps : w'.maps = w1.maps

theorem kickImage_late {w : World} {e : PatchEnv} {hdr : Addr} {info : Info} (hat : e.EntryAtomic)
    (h1 : (kickImage w e.entryWorks hdr info).2 = 0) (h : (kickImage w e hdr info).2 ≠ 0) :
    Twin w.arch info.virt info.patchFn (kickImage w e hdr info).1 (kickImage w e.entryWorks hdr info).1 := by
  unfold kickImage at h1 h ⊢
  have he : (e.entryWorks).image = e.image ∧ (e.entryWorks).imageN = e.imageN := ⟨rfl, rfl⟩
  rw [he.1, he.2] at h1 ⊢
  have harch := writeTask_arch w hdr (e.image info) (if w.mapped hdr then e.imageN else none)
  generalize writeTask w hdr (e.image info) (if w.mapped hdr then e.imageN else none) = wt at h1 h harch ⊢
  dsimp only at h1 h ⊢
  by_cases c : wt.2 = true
  · rw [if_pos c] at h
    rw [if_pos c, if_pos c]
    obtain ⟨a, b, c', d⟩ := kickEntry_late h hat
    exact ⟨by rw [c', a, harch], by rw [b, d]⟩
  · rw [if_neg c] at h1
    exact absurd h1 enoexec_ne

theorem kick_late {w : World} {e : PatchEnv} {hdr : Addr} {info : Info} (hat : e.EntryAtomic)
    (h1 : (kick w e.entryWorks hdr info).2 = 0) (h : (kick w e hdr info).2 ≠ 0) :
    Twin w.arch info.virt info.patchFn (kick w e hdr info).1 (kick w e.entryWorks hdr info).1 := by
  unfold kick at h1 h ⊢
  have he : (e.entryWorks).preadN = e.preadN := rfl
  rw [he] at h1 ⊢
  cases hp : e.preadN with
  | none => rw [hp] at h1; exact absurd h1 enoexec_ne
  | some k =>
    rw [hp] at h1 h
    dsimp only at h1 h ⊢
    by_cases c : k < jmpEntrySize
    · rw [if_pos c] at h1; exact absurd h1 enoexec_ne
    · rw [if_neg c] at h1 h
      rw [if_neg c, if_neg c]
      exact kickImage_late hat h1 h

theorem loadPatch_late {w : World} {s : Session} {e : PatchEnv} {hdr : Addr} (hat : e.EntryAtomic)
    (h1 : (loadPatch w s e.entryWorks hdr).2.2 = 0) (h : (loadPatch w s e hdr).2.2 ≠ 0) :
    ∃ t p, e.target = some t ∧ e.source = some p ∧
      Twin w.arch t p (loadPatch w s e hdr).1 (loadPatch w s e.entryWorks hdr).1 := by
  unfold loadPatch at h1 h ⊢
  have he : (e.entryWorks).setup = e.setup ∧ (e.entryWorks).bid = e.bid ∧ (e.entryWorks).rewrite = e.rewrite ∧
    (e.entryWorks).simplify = e.simplify ∧ (e.entryWorks).apply = e.apply := ⟨rfl, rfl, rfl, rfl, rfl⟩
  rw [he.1, he.2.1, he.2.2.1, he.2.2.2.1, he.2.2.2.2] at h1 ⊢
  cases c1 : e.setup with
  | some n => rw [c1] at h1; exact absurd h1 (neg_ne_zero n)
  | none =>
  rw [c1] at h1 h
  dsimp only at h1 h ⊢
  by_cases c2 : (s.ulps.any fun u => decide (u.bid = e.bid)) = true
  · rw [if_pos c2] at h1; exact absurd h1 ealready_ne
  rw [if_neg c2] at h1 h
  rw [if_neg c2, if_neg c2]
  cases c3 : e.rewrite with
  | some n => rw [c3] at h1; exact absurd h1 (neg_ne_zero n)
  | none =>
  rw [c3] at h1 h
  dsimp only at h1 h ⊢
  cases c4 : e.simplify with
  | some n => rw [c4] at h1; exact absurd h1 (neg_ne_zero n)
  | none =>
  rw [c4] at h1 h
  dsimp only at h1 h ⊢
  cases c5 : e.apply with
  | some n => rw [c5] at h1; exact absurd h1 (neg_ne_zero n)
  | none =>
  rw [c5] at h1 h
  dsimp only at h1 h ⊢
  unfold solveAndKick at h1 h ⊢
  have he : (e.entryWorks).target = e.target ∧ (e.entryWorks).source = e.source ∧ (e.entryWorks).info0 = e.info0 := ⟨rfl, rfl, rfl⟩
  rw [he.1, he.2.1, he.2.2] at h1 ⊢
  cases c6 : e.target with
  | none => rw [c6] at h1; exact absurd h1 enoent_ne
  | some t =>
  rw [c6] at h1 h
  dsimp only at h1 h ⊢
  cases c7 : e.source with
  | none => rw [c7] at h1; exact absurd h1 enoent_ne
  | some p =>
  rw [c7] at h1 h
  dsimp only at h1 h ⊢
  exact ⟨t, p, rfl, rfl, kick_late hat h1 h⟩

theorem deleteMmap_mem (w : World) (e : PatchEnv) (hdr : Addr) : (deleteMmap w e hdr).mem = w.mem := by
  unfold deleteMmap
  cases e.attach3 with
  | fail n left => rfl
  | ok =>
    cases e.munmap3 with
    | done => rfl
    | failed gone => cases gone <;> rfl

theorem initPatch_late {w : World} {s : Session} {e : PatchEnv} (hat : e.EntryAtomic)
    (h1 : (initPatch w s e.entryWorks).2.2 = 0) (h : (initPatch w s e).2.2 ≠ 0) :
    ∃ t p, e.target = some t ∧ e.source = some p ∧
      (initPatch w s e.entryWorks).1.mem = (initPatch w s e).1.mem.write t (jmpEntry w.arch p) ∧
      (¬ e.CleanupOk → (initPatch w s e).1.maps = (initPatch w s e.entryWorks).1.maps) := by
  unfold initPatch at h1 h ⊢
  have he : (e.entryWorks).alloc = e.alloc ∧ (e.entryWorks).chown = e.chown ∧ createMmap w e.entryWorks = createMmap w e := ⟨rfl, rfl, rfl⟩
  rw [he.1, he.2.1, he.2.2] at h1 ⊢
  by_cases c0 : s.ftoProc = false
  · rw [if_pos c0] at h1; exact absurd h1 m1_ne
  rw [if_neg c0] at h1 h
  rw [if_neg c0, if_neg c0]
  cases c1 : e.alloc with
  | some n => rw [c1] at h1; exact absurd h1 (neg_ne_zero n)
  | none =>
  rw [c1] at h1 h
  dsimp only at h1 h ⊢
  cases c2 : e.chown with
  | some n => rw [c2] at h1; exact absurd h1 (neg_ne_zero n)
  | none =>
  rw [c2] at h1 h
  dsimp only at h1 h ⊢
  have harch := createMmap_arch w e
  cases c3 : createMmap w e with
  | mk wc x =>
  rw [c3] at h1 h harch
  cases x with
  | error r => exact absurd h1 h
  | ok hdr =>
  dsimp only at h1 h harch ⊢
  by_cases c4 : (loadPatch wc s e.entryWorks hdr).2.2 ≠ 0
  · rw [if_pos c4] at h1; exact absurd h1 c4
  rw [if_neg c4]
  have c4 := Decidable.not_not.1 c4
  by_cases c5 : (loadPatch wc s e hdr).2.2 ≠ 0
  · rw [if_pos c5]
    obtain ⟨t, p, q1, q2, q3⟩ := loadPatch_late hat c4 c5
    refine ⟨t, p, q1, q2, ?_, ?_⟩
    · dsimp only
      rw [deleteMmap_mem, ← harch]
      exact q3.mem
    · intro hcl
      dsimp only
      rw [← q3.maps]
      unfold deleteMmap
      cases c6 : e.attach3 with
      | fail n left => rfl
      | ok =>
        cases c7 : e.munmap3 with
        | done => exact absurd ⟨c6, by rw [c7]; exact nofun⟩ hcl
        | failed gone =>
          cases gone with
          | true => exact absurd ⟨c6, by rw [c7]; exact nofun⟩ hcl
          | false => rfl
  · rw [if_neg c5] at h
    exact absurd rfl h

/-- Without a failure the clean-up does not matter. -/
theorem initPatch_noclean {w : World} {s : Session} {e : PatchEnv} (h : (initPatch w s e).2.2 = 0) :
    initPatch w s { e with attach3 := .ok, munmap3 := .done } = initPatch w s e := by
  unfold initPatch at h ⊢
  by_cases c0 : s.ftoProc = false
  · rw [if_pos c0, if_pos c0]
  rw [if_neg c0] at h
  rw [if_neg c0, if_neg c0]
  dsimp only
  cases c1 : e.alloc with
  | some n => rfl
  | none =>
  rw [c1] at h
  dsimp only at h ⊢
  cases c2 : e.chown with
  | some n => rfl
  | none =>
  rw [c2] at h
  dsimp only at h ⊢
  have he : createMmap w { e with attach3 := .ok, munmap3 := .done } = createMmap w e := rfl
  rw [c2, c1] at he
  rw [he]
  cases c3 : createMmap w e with
  | mk wc x =>
  rw [c3] at h
  cases x with
  | error r => rfl
  | ok hdr =>
  dsimp only at h ⊢
  by_cases c5 : (loadPatch wc s e hdr).2.2 ≠ 0
  · rw [if_pos c5] at h
    exact absurd h c5
  · rw [if_neg c5, if_neg]
    · rfl
    · exact c5

theorem kickEntry_zero {w : World} {e : PatchEnv} {info : Info} (h : (kickEntry w e info).2 = 0) :
    e.attach2 = .ok ∧ ∃ k, 16 ≤ k ∧ e.entryN = some k := by
  unfold kickEntry at h
  cases h2 : e.attach2 with
  | fail n left => rw [h2] at h; exact absurd h (neg_ne_zero n)
  | ok =>
    rw [h2] at h
    dsimp only at h
    refine ⟨rfl, ?_⟩
    cases hn : e.entryN with
    | none => rw [hn] at h; exact absurd h enoexec_ne
    | some k =>
      refine ⟨k, ?_, rfl⟩
      rw [hn] at h
      unfold writeTask at h
      dsimp only at h
      rw [jmpEntry_length] at h
      by_cases hk : 16 ≤ k
      · exact hk
      · rw [if_neg (by rw [decide_eq_true_eq]; exact hk)] at h
        exact absurd h enoexec_ne

theorem kickImage_zero {w : World} {e : PatchEnv} {hdr : Addr} {info : Info} (h : (kickImage w e hdr info).2 = 0) :
    e.attach2 = .ok ∧ ∃ k, 16 ≤ k ∧ e.entryN = some k := by
  unfold kickImage at h
  generalize writeTask w hdr (e.image info) (if w.mapped hdr then e.imageN else none) = wt at h
  dsimp only at h
  split at h
  · exact kickEntry_zero h
  · exact absurd h enoexec_ne

theorem kick_zero {w : World} {e : PatchEnv} {hdr : Addr} {info : Info} (h : (kick w e hdr info).2 = 0) :
    e.attach2 = .ok ∧ ∃ k, 16 ≤ k ∧ e.entryN = some k := by
  unfold kick at h
  cases hp : e.preadN with
  | none => rw [hp] at h; exact absurd h enoexec_ne
  | some k =>
    rw [hp] at h
    dsimp only at h
    split at h
    · exact absurd h enoexec_ne
    · exact kickImage_zero h

theorem loadPatch_zero {w : World} {s : Session} {e : PatchEnv} {hdr : Addr} (h : (loadPatch w s e hdr).2.2 = 0) :
    (e.attach2 = .ok ∧ ∃ k, 16 ≤ k ∧ e.entryN = some k) ∧ ∀ u ∈ s.ulps, u.bid ≠ e.bid := by
  unfold loadPatch at h
  cases c1 : e.setup with
  | some n => rw [c1] at h; exact absurd h (neg_ne_zero n)
  | none =>
  rw [c1] at h
  dsimp only at h
  by_cases c2 : (s.ulps.any fun u => decide (u.bid = e.bid)) = true
  · rw [if_pos c2] at h; exact absurd h ealready_ne
  rw [if_neg c2] at h
  cases c3 : e.rewrite with
  | some n => rw [c3] at h; exact absurd h (neg_ne_zero n)
  | none =>
  rw [c3] at h
  dsimp only at h
  cases c4 : e.simplify with
  | some n => rw [c4] at h; exact absurd h (neg_ne_zero n)
  | none =>
  rw [c4] at h
  dsimp only at h
  cases c5 : e.apply with
  | some n => rw [c5] at h; exact absurd h (neg_ne_zero n)
  | none =>
  rw [c5] at h
  dsimp only at h
  unfold solveAndKick at h
  cases c6 : e.target with
  | none => rw [c6] at h; exact absurd h enoent_ne
  | some t =>
  rw [c6] at h
  dsimp only at h
  cases c7 : e.source with
  | none => rw [c7] at h; exact absurd h enoent_ne
  | some p =>
  rw [c7] at h
  dsimp only at h
  refine ⟨kick_zero h, fun u hu hb => c2 ?_⟩
  rw [List.any_eq_true]
  exact ⟨u, hu, decide_eq_true hb⟩

/-- A command that succeeds has attached to the process and written the whole entry, and no live patch has its Build ID. -/
theorem initPatch_zero {w : World} {s : Session} {e : PatchEnv} {hdr : Addr} {wc : World} (hc : createMmap w e = (wc, .ok hdr))
    (h : (initPatch w s e).2.2 = 0) : (e.attach2 = .ok ∧ ∃ k, 16 ≤ k ∧ e.entryN = some k) ∧ ∀ u ∈ s.ulps, u.bid ≠ e.bid := by
  unfold initPatch at h
  by_cases c0 : s.ftoProc = false
  · rw [if_pos c0] at h; exact absurd h m1_ne
  rw [if_neg c0] at h
  cases c1 : e.alloc with
  | some n => rw [c1] at h; exact absurd h (neg_ne_zero n)
  | none =>
  rw [c1] at h
  dsimp only at h
  cases c2 : e.chown with
  | some n => rw [c2] at h; exact absurd h (neg_ne_zero n)
  | none =>
  rw [c2] at h
  dsimp only at h
  rw [hc] at h
  dsimp only at h
  by_cases c5 : (loadPatch wc s e hdr).2.2 ≠ 0
  · rw [if_pos c5] at h
    exact absurd h c5
  · exact loadPatch_zero (Decidable.not_not.1 c5)

/-- A command that succeeds has found or made a mapping. -/
theorem initPatch_made {w : World} {s : Session} {e : PatchEnv} (h : (initPatch w s e).2.2 = 0) :
    ∃ wc hdr, createMmap w e = (wc, .ok hdr) := by
  unfold initPatch at h
  by_cases c0 : s.ftoProc = false
  · rw [if_pos c0] at h; exact absurd h m1_ne
  rw [if_neg c0] at h
  cases c1 : e.alloc with
  | some n => rw [c1] at h; exact absurd h (neg_ne_zero n)
  | none =>
  rw [c1] at h
  dsimp only at h
  cases c2 : e.chown with
  | some n => rw [c2] at h; exact absurd h (neg_ne_zero n)
  | none =>
  rw [c2] at h
  dsimp only at h
  cases c3 : createMmap w e with
  | mk wc x =>
  cases x with
  | ok hdr => exact ⟨wc, hdr, rfl⟩
  | error r =>
    rw [c3] at h
    dsimp only at h
    subst h
    unfold createMmap at c3
    revert c3
    cases e.attach1 with
    | fail k l => intro hc; injection hc with _ hc; injection hc with hc; exact absurd hc (neg_ne_zero k)
    | ok =>
      dsimp only
      split
      · intro hc; injection hc with _ hc; injection hc with hc; exact absurd hc (by decide)
      · split
        · intro hc; injection hc with _ hc; injection hc with hc; exact absurd hc (by decide)
        · cases e.mmap with
          | created a => intro hc; cases hc
          | errno v => intro hc; cases hc
          | inject l => cases l <;> (intro hc; injection hc with _ hc; injection hc with hc; exact absurd hc (by decide))

end Ulp.Patch

namespace Ulp.LoadBytes
open Load PatchFile
variable {width : Nat → Nat}
  {value : Nat → BitVec 64 → BitVec 64 → BitVec 64 → Option (Nat × BitVec 64)}

theorem layers_unique {arch : Arch} {R : Addr → Prop} {base m m' : Mem} {st : List Patch.Layer}
    (h : Patch.Layers arch R base st m) (h' : Patch.Layers arch R base st m') : EqOff R m m' :=
  h.overlay.trans h'.overlay.symm

/-- The newest patch is there, but not in effect. -/
theorem FInv.idle {R base n n1 w w1 w' st v} (h : FInv width value R base n w st)
    (h1 : FInv width value R base n1 w1 (v :: st)) (hm : w'.maps = w1.maps) (harch : w'.arch = w.arch) (harch1 : w1.arch = w.arch)
    (he : EqOff R w'.mem w.mem) (hs : ∀ x, R x → w'.mem x = w1.mem x) :
    FInv width value R base n1 w' ({ v with active := false } :: st) := by
  have hI := h1.inv
  refine ⟨?_, ?_, ?_, ?_⟩
  · exact {
      perm := by rw [hm]; exact hI.perm
      ids := hI.ids
      bound := by
        intro x hx
        rcases List.mem_cons.1 hx with rfl | hx
        · exact hI.bound v.layer (by simp)
        · exact hI.bound x (List.mem_cons_of_mem _ hx)
      starts := by rw [hm]; exact hI.starts
      bids := by rw [hm]; exact hI.bids
      ready := by rw [hm]; exact hI.ready
      nums := by
        intro k x hx
        cases k with
        | zero =>
          rw [List.map_cons, List.getElem?_cons_zero] at hx
          injection hx with hx
          subst hx
          exact hI.nums 0 v.layer rfl
        | succ k => exact hI.nums (k + 1) x hx
      win := by
        intro x hx
        rcases List.mem_cons.1 hx with rfl | hx
        · exact hI.win v.layer (by simp)
        · exact hI.win x (List.mem_cons_of_mem _ hx)
      layers := by
        obtain ⟨m0, q1, q2, -⟩ := hI.layers
        rw [harch1] at q1
        rw [harch]
        refine ⟨w.mem, h.inv.layers, ?_, he⟩
        change v.layer.map.info.orig = w.mem.read v.layer.map.info.virt 16
        rw [← (layers_unique q1 h.inv.layers).read _ _ (hI.win v.layer (by simp))]
        exact q2 }
  · intro u hu
    rcases List.mem_cons.1 hu with rfl | hu
    · exact ((h1.whole v (List.mem_cons_self ..)).congr fun i hi => hs _ (h1.area v (List.mem_cons_self ..) i hi)).inactive
    · exact (h1.whole u (List.mem_cons_of_mem _ hu)).congr fun i hi => hs _ (h1.area u (List.mem_cons_of_mem _ hu) i hi)
  · have := h1.apart
    rw [List.pairwise_cons] at this ⊢
    exact this
  · intro u hu
    rcases List.mem_cons.1 hu with rfl | hu
    · exact h1.area v (List.mem_cons_self ..)
    · exact h1.area u (List.mem_cons_of_mem _ hu)

theorem late_file {M : Machine} (hM : Links M width value) {R base n w st}
    (h : FInv width value R base n w st) (hn : n + 1 < 2 ^ 32) {c : FileCmd} (hl : LateFile M width R w c) :
    ∃ w' r st', runFile M w c = some (w', r) ∧ w'.arch = w.arch ∧ LateDoes st c r st' ∧
      (c.EntryFails → r ≠ 0 ∧ ∃ v, c.Gives v ∧ st' = { v with active := false } :: st) ∧
      FInv width value R base (n + 1) w' st' := by
  obtain ⟨⟨rd, hdr, find, now, f, e, rfl, hat⟩, hg, w1, hw1⟩ := hl
  have hg' := hg
  obtain ⟨hr, hwf, -, -, harea, p, hp, hbid, htext⟩ := hg
  change match e.mmap with
      | .created a => (∀ i, i < f.length → R (a + BitVec.ofNat 64 i)) ∧
          ∀ m ∈ w.maps, ∀ i j, i < f.length → j < m.len → a + BitVec.ofNat 64 i ≠ m.start + BitVec.ofNat 64 j
      | .errno v => ∀ m ∈ w.maps, m.start ≠ v
      | .inject l => l = none at harea
  by_cases hcl : e.CleanupOk
  · obtain ⟨w', r, st', q1, q2, q3, -, q4⟩ := patch_file hM h hn (rd := rd) (hdr := hdr) (find := find) (now := now) (f := f) (e := e)
      ⟨hr, hwf, hat, hcl, harea, p, hp, hbid, htext⟩
    exact ⟨w', r, st', q1, q2, .does q3, fun hf => absurd hcl hf.1, q4⟩
  -- the twin that works
  obtain ⟨w1', r1, st1, q1, q2, q3, -, q4⟩ := patch_file hM h hn hg'
  have hw1' : patchFile M w rd hdr find now f e.entryWorks = some (w1, 0) := hw1
  rw [hw1'] at q1
  cases q1
  cases q3 with
  | refused hne => exact absurd rfl hne
  | @patched _ _ v hgv =>
  have hgv' : (FileCmd.patch rd hdr find now f e).Gives v := by
    obtain ⟨_, _, e', a1, a2, a3, a4⟩ := hgv
    change FileCmd.patch rd hdr find now f e.entryWorks = _ at a1
    injection a1 with a5 a6 a7 a8 a9 a10
    refine ⟨rd, hdr, e, by rw [a7, a8, a9], ?_, ?_, a4⟩
    · rw [← a2, ← a10]; rfl
    · rw [← a3, ← a10]; rfl
  have hopen := Patch.openTask_ok rd w true (fun m _ => hr m) h.inv.ready
  obtain ⟨res, hload, hgood⟩ := hM f p hp (sessionEnv { ulps := w.maps, maxId := Patch.maxOf w.maps 0, ftoProc := true }
    hdr (mmapAddr e.mmap) find now)
  change patchFile M w rd hdr find now f e.entryWorks = some (w1, 0) at hw1
  have hrf : runFile M w (.patch rd hdr find now f e) = patchFile M w rd hdr find now f e := rfl
  rw [hrf]
  unfold patchFile at hw1 ⊢
  rw [hopen] at hw1 ⊢
  dsimp only at hw1 ⊢
  have hload' : load M (sessionEnv { ulps := w.maps, maxId := Patch.maxOf w.maps 0, ftoProc := true }
    hdr (mmapAddr e.entryWorks.mmap) find now) f = some res := hload
  rw [hload'] at hw1
  rw [hload]
  cases res with
  | error k =>
    dsimp only at hw1
    have hset := initPatch_setup w { ulps := w.maps, maxId := Patch.maxOf w.maps 0, ftoProc := true }
      _ (stops_refused e.entryWorks f (headersDone (sessionEnv { ulps := w.maps, maxId := Patch.maxOf w.maps 0, ftoProc := true }
        hdr (mmapAddr e.entryWorks.mmap) find now) f) k)
    rw [Option.some.injEq, Prod.mk.injEq] at hw1
    exact absurd hw1.2 hset.1
  | ok L =>
  dsimp only at hw1 ⊢
  rw [Option.some.injEq, Prod.mk.injEq] at hw1
  have hwith : withFile e.entryWorks f L = (withFile e f L).entryWorks := rfl
  rw [hwith] at hw1
  have harch := Patch.initPatch_arch w { ulps := w.maps, maxId := Patch.maxOf w.maps 0, ftoProc := true } (withFile e f L)
  by_cases h0 : (Patch.initPatch w { ulps := w.maps, maxId := Patch.maxOf w.maps 0, ftoProc := true } (withFile e f L)).2.2 = 0
  · -- nothing fails
    have hno := Patch.initPatch_noclean h0
    obtain ⟨w2, r2, st2, b1, b2, b3, -, b4⟩ := patch_file hM h hn (rd := rd) (hdr := hdr) (find := find) (now := now) (f := f)
      (e := { e with attach3 := .ok, munmap3 := .done })
      ⟨hr, hwf, hat, ⟨rfl, by exact nofun⟩, harea, p, hp, hbid, htext⟩
    unfold patchFile at b1
    rw [hopen] at b1
    dsimp only at b1
    rw [hload] at b1
    dsimp only at b1
    have hwith2 : withFile { e with attach3 := .ok, munmap3 := .done } f L =
      { withFile e f L with attach3 := .ok, munmap3 := .done } := rfl
    rw [hwith2, hno, Option.some.injEq, Prod.mk.injEq] at b1
    obtain ⟨rfl, rfl⟩ := b1
    obtain ⟨wc, hd, hcm⟩ := Patch.initPatch_made h0
    have hz := (Patch.initPatch_zero hcm h0).1
    refine ⟨_, _, st2, rfl, b2, .does ?_, ?_, b4⟩
    rotate_left
    · rintro ⟨-, hf⟩
      obtain ⟨z1, k, z2, z3⟩ := hz
      change e.attach2 = .ok at z1
      change e.entryN = some k at z3
      rcases hf with hf | hf | hf
      · exact absurd z1 hf
      · rw [z3] at hf; cases hf
      · rw [z3] at hf; cases hf; omega
    rw [h0] at b3 ⊢
    cases b3 with
    | refused hne => exact absurd rfl hne
    | @patched _ _ u hgu =>
    refine .patched ?_
    obtain ⟨_, _, e', a1, a2, a3, a4⟩ := hgu
    injection a1 with a5 a6 a7 a8 a9 a10
    refine ⟨rd, hdr, e, by rw [a7, a8, a9], ?_, ?_, a4⟩
    · rw [← a2, ← a10]
    · rw [← a3, ← a10]
  · obtain ⟨t, p', a1, a2, a3, a4⟩ := Patch.initPatch_late (e := withFile e f L) hat hw1.2 h0
    rw [hw1.1] at a3 a4
    obtain ⟨hc, inf, t', k, s, S, k1, k2, k3, k4, k5, k6, k7, k8, k9⟩ := hgood L rfl
    have hlen := k9.length
    have himg : ∀ i, ((withFile e f L).image i).length ≤ (withFile e f L).len := by
      intro i
      change (store L.img _ _).length ≤ f.length
      have : (i.orig.take 16).length ≤ 16 := by rw [List.length_take]; omega
      rw [store_length (by omega)]
      omega
    have hwt : WindowOff R t' 16 := htext t' k2
    have htgt : ∀ t1, (withFile e f L).target = some t1 → WindowOff R t1 16 := by
      intro t1 ht1
      have : L.record.target = t1 := Option.some.inj ht1
      rw [k5] at this
      subst this
      exact hwt
    have hpl : (withFile e f L).Placed R w := by
      refine ⟨hwf, himg, ?_, htgt⟩
      change match e.mmap with
        | .created a => (∀ i, i < f.length → R (a + BitVec.ofNat 64 i)) ∧ ∀ m ∈ w.maps, m.start ≠ a
        | .errno v => ∀ m ∈ w.maps, m.start ≠ v
        | .inject l => l = none
      cases hmm : e.mmap with
      | created a =>
        rw [hmm] at harea
        refine ⟨harea.1, ?_⟩
        intro m hm hc
        obtain ⟨v, hv, rfl⟩ := h.of_map hm
        have h1 := hp.len
        have h2 := (h.whole v hv).made.len
        refine harea.2 _ hm 0 0 (by omega) ?_ ?_
        · change 0 < v.file.length
          omega
        · rw [hc]
      | errno v => rw [hmm] at harea; exact harea
      | inject l => rw [hmm] at harea; exact harea
    rcases Patch.initPatch_good (s := { ulps := w.maps, maxId := Patch.maxOf w.maps 0, ftoProc := true }) hpl with
      ⟨_, _, hf⟩ | ⟨hf, _⟩
    · refine ⟨_, _, _, rfl, harch, .left h0 hgv', fun _ => ⟨h0, v, hgv', rfl⟩, h.idle q4 (a4 hcl) harch q2 (hf hat) ?_⟩
      intro x hx
      rw [a3, Mem.write_out]
      rw [jmpEntry_length]
      apply out_image
      rintro i hi rfl
      exact htgt t a1 i hi hx
    · exact absurd hf h0

theorem good_file {M : Machine} (hM : Links M width value) {R base n w st}
    (h : FInv width value R base n w st) (hn : n + 1 < 2 ^ 32) {c : FileCmd} (hg : GoodFile width R w c) :
    ∃ w' r st', runFile M w c = some (w', r) ∧ w'.arch = w.arch ∧ Does st c r st' ∧
      FInv width value R base (n + 1) w' st' := by
  cases c with
  | patch rd hdr find now f e =>
    obtain ⟨w', r, st', h1, h2, h3, -, h4⟩ := patch_file hM h hn hg
    exact ⟨w', r, st', h1, h2, h3, h4⟩
  | unpatch rd d =>
    obtain ⟨w', r, st', h1, h2, h3, h4⟩ := unpatch_file h rd hg.1 d hg.2
    exact ⟨w', r, st', h1, h2, h3, h4.mono (by omega)⟩
  | trace rd hdr find now func f e d => exact trace_file hM h hn hg

theorem files_late {M : Machine} (hM : Links M width value) {R base} (cs : List FileCmd) : ∀ {n w st},
    FInv width value R base n w st → n + cs.length < 2 ^ 32 → LateFiles M width R w cs →
    ∃ w' rs st', runFiles M w cs = some (w', rs) ∧ w'.arch = w.arch ∧ AllLateDo st cs rs st' ∧
      FInv width value R base (n + cs.length) w' st' := by
  induction cs with
  | nil => intro n w st h _ _; exact ⟨w, [], st, rfl, rfl, .nil, h⟩
  | cons c cs ih =>
    intro n w st h hn hg
    rw [List.length_cons] at hn
    have hstep : ∃ w' r st', runFile M w c = some (w', r) ∧ w'.arch = w.arch ∧ LateDoes st c r st' ∧
        FInv width value R base (n + 1) w' st' := by
      rcases hg.1 with hg1 | hg1
      · obtain ⟨w', r, st', h1, h2, h3, h4⟩ := good_file hM h (by omega) hg1
        exact ⟨w', r, st', h1, h2, .does h3, h4⟩
      · obtain ⟨w', r, st', h1, h2, h3, -, h4⟩ := late_file hM h (by omega) hg1
        exact ⟨w', r, st', h1, h2, h3, h4⟩
    obtain ⟨w1, r, st1, hrun, ha, hd, hinv⟩ := hstep
    obtain ⟨w2, rs, st2, hrun2, ha2, hd2, hinv2⟩ := ih hinv (by omega) (hg.2 w1 r hrun)
    refine ⟨w2, r :: rs, st2, ?_, ha2.trans ha, .cons hd hd2, ?_⟩
    · unfold runFiles
      rw [hrun]
      dsimp only
      rw [hrun2]
    · rw [show n + (c :: cs).length = n + 1 + cs.length by rw [List.length_cons]; omega]
      exact hinv2

end Ulp.LoadBytes
