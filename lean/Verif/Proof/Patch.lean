import Verif.Proof.JmpTable
import Verif.Spec.Patch
namespace Ulp

theorem EqOff.refl {R} (m : Mem) : EqOff R m m := fun _ _ => rfl
theorem EqOff.symm {R} {m m' : Mem} (h : EqOff R m m') : EqOff R m' m := fun x hx => (h x hx).symm
theorem EqOff.trans {R} {a b c : Mem} (h : EqOff R a b) (h' : EqOff R b c) : EqOff R a c :=
  fun x hx => (h x hx).trans (h' x hx)

/-- Writing inside the area changes nothing outside. -/
theorem EqOff.write_in {R} (m : Mem) (a : Addr) (bs : List Byte)
    (h : ∀ i, i < bs.length → R (a + BitVec.ofNat 64 i)) : EqOff R (m.write a bs) m := by
  intro x hx
  apply Mem.write_out
  apply Nat.le_of_not_lt
  intro hlt
  apply hx
  rw [addr_eq_add_sub a x]
  exact h _ hlt

theorem EqOff.write {R} {m m' : Mem} (h : EqOff R m m') (a : Addr) (bs : List Byte) :
    EqOff R (m.write a bs) (m'.write a bs) := by
  intro x hx
  rw [Mem.write_apply, Mem.write_apply, h x hx]

theorem EqOff.read {R} {m m' : Mem} (h : EqOff R m m') (a : Addr) (n : Nat)
    (hw : WindowOff R a n) : m.read a n = m'.read a n :=
  Mem.read_congr _ _ _ _ fun i hi => h _ (hw i hi)

namespace Patch

/-! ### Sessions -/

/-- Largest id of a list of mappings (0 when empty). -/
def maxOf : List Mapping → BitVec 32 → BitVec 32
  | [], b => b
  | m :: ms, b => maxOf ms (if b < m.info.id then m.info.id else b)

theorem loadUlps_ok (rd : Mapping → ReadRes) (ms : List Mapping) (s : Session)
    (hr : ∀ m ∈ ms, rd m = .ok) (hready : ∀ m ∈ ms, m.ready = true) :
    loadUlps rd ms s = some { s with ulps := s.ulps ++ ms, maxId := maxOf ms s.maxId } := by
  induction ms generalizing s with
  | nil => simp [loadUlps, maxOf]
  | cons m ms ih =>
    simp only [loadUlps, hr m (by simp), hready m (by simp), if_true]
    rw [ih _ (fun x hx => hr x (by simp [hx])) (fun x hx => hready x (by simp [hx]))]
    simp [maxOf]

theorem maxOf_ge_init (ms : List Mapping) (b : BitVec 32) : b.toNat ≤ (maxOf ms b).toNat := by
  induction ms generalizing b with
  | nil => simp [maxOf]
  | cons m ms ih =>
    simp only [maxOf]
    refine Nat.le_trans ?_ (ih _)
    split
    · next h => rw [BitVec.lt_def] at h; omega
    · omega

theorem maxOf_ge (ms : List Mapping) (b : BitVec 32) : ∀ m ∈ ms, m.info.id.toNat ≤ (maxOf ms b).toNat := by
  induction ms generalizing b with
  | nil => simp
  | cons m ms ih =>
    intro x hx
    simp only [maxOf]
    rcases List.mem_cons.1 hx with rfl | hx
    · refine Nat.le_trans ?_ (maxOf_ge_init ms _)
      split
      · omega
      · next h => rw [BitVec.lt_def] at h; omega
    · exact ih _ x hx

theorem maxOf_mem (ms : List Mapping) (b : BitVec 32) :
    maxOf ms b = b ∨ ∃ m ∈ ms, m.info.id = maxOf ms b := by
  induction ms generalizing b with
  | nil => simp [maxOf]
  | cons m ms ih =>
    simp only [maxOf]
    rcases ih (if b < m.info.id then m.info.id else b) with h | ⟨x, hx, h⟩
    · split at h
      · next hlt => right; exact ⟨m, by simp, by rw [if_pos hlt]; exact h.symm⟩
      · next hlt => left; rw [if_neg hlt]; exact h
    · right; exact ⟨x, by simp [hx], h⟩

theorem openTask_ok (rd : Mapping → ReadRes) (w : World) (b : Bool)
    (hr : ∀ m ∈ w.maps, rd m = .ok) (hready : ∀ m ∈ w.maps, m.ready = true) :
    openTask b rd w = some { ulps := w.maps, maxId := maxOf w.maps 0, ftoProc := b } := by
  unfold openTask
  rw [loadUlps_ok rd w.maps _ hr hready]; simp

/-! ### Mapping lists -/

theorem insertMap_perm (m : Mapping) (l : List Mapping) : (insertMap m l).Perm (m :: l) := by
  induction l with
  | nil => simp [insertMap]
  | cons a l ih =>
    simp only [insertMap]
    split
    · exact List.Perm.refl _
    · exact (List.Perm.cons a ih).trans (List.Perm.swap m a l)

theorem mem_insertMap (m x : Mapping) (l : List Mapping) : x ∈ insertMap m l ↔ x = m ∨ x ∈ l := by
  rw [(insertMap_perm m l).mem_iff, List.mem_cons]

/-- Updating the freshly inserted mapping. -/
theorem map_insertMap (m : Mapping) (l : List Mapping) (f : Mapping → Mapping)
    (hf : (f m).start = m.start) (hfresh : ∀ x ∈ l, x.start ≠ m.start) :
    (insertMap m l).map (fun x => if x.start = m.start then f x else x) = insertMap (f m) l := by
  induction l with
  | nil => simp [insertMap]
  | cons a l ih =>
    have ha := hfresh a (by simp)
    have hl : ∀ x ∈ l, x.start ≠ m.start := fun x hx => hfresh x (by simp [hx])
    have hmap : l.map (fun x => if x.start = m.start then f x else x) = l := by
      conv => rhs; rw [← List.map_id l]
      apply List.map_congr_left
      intro x hx; simp [hl x hx]
    simp only [insertMap, hf]
    split
    · simp [hmap, ha]
    · simp only [List.map_cons, if_neg ha]; rw [ih hl]

theorem filter_insertMap (m : Mapping) (l : List Mapping)
    (hfresh : ∀ x ∈ l, x.start ≠ m.start) :
    (insertMap m l).filter (fun x => x.start ≠ m.start) = l := by
  induction l with
  | nil => simp [insertMap]
  | cons a l ih =>
    have ha := hfresh a (by simp)
    have hl : ∀ x ∈ l, x.start ≠ m.start := fun x hx => hfresh x (by simp [hx])
    have hfil : l.filter (fun x => x.start ≠ m.start) = l := by
      rw [List.filter_eq_self]; intro x hx; simp [hl x hx]
    simp only [insertMap]
    split
    · simp only [List.filter_cons]; simp [ha]; simpa using hfil
    · simp only [List.filter_cons]; simp [ha]; simpa using ih hl

theorem neg_ne_zero (n : Nat) : neg n ≠ 0 := by unfold neg; omega

theorem enoexec_ne : ENOEXEC ≠ 0 := by decide
theorem enoent_ne : ENOENT ≠ 0 := by decide
theorem efault_ne : EFAULT ≠ 0 := by decide
theorem ealready_ne : EALREADY ≠ 0 := by decide
theorem m1_ne : (-1 : Int) ≠ 0 := by decide

/-- Closes `code ≠ 0` goals up to reduction. -/
macro "errne" : tactic => `(tactic| first
  | exact enoexec_ne | exact enoent_ne | exact efault_ne | exact ealready_ne | exact m1_ne)

theorem attach_mem (a : AttachRes) (w : World) : (attach a w).1.mem = w.mem := by
  cases a <;> rfl
theorem attach_maps (a : AttachRes) (w : World) : (attach a w).1.maps = w.maps := by
  cases a <;> rfl
theorem attach_res (a : AttachRes) (w : World) : (attach a w).2 = 0 ↔ a = .ok := by
  cases a <;> simp [attach, neg_ne_zero]

/-- What a world looks like while the mapping of the new patch is present
(`some m`) or absent. -/
def withNew (l : List Mapping) : Option Mapping → List Mapping
  | none => l
  | some m => insertMap m l

theorem updMap_withNew (w : World) (l : List Mapping) (o : Option Mapping) (hdr : Addr)
    (f : Mapping → Mapping) (hm : w.maps = withNew l o)
    (hstart : ∀ m, o = some m → m.start = hdr) (hf : ∀ m, (f m).start = m.start)
    (hfresh : ∀ x ∈ l, x.start ≠ hdr) :
    (updMap w hdr f).maps = withNew l (o.map f) ∧ (updMap w hdr f).mem = w.mem := by
  constructor
  · simp only [updMap, hm]
    cases o with
    | none =>
      simp only [withNew, Option.map_none]
      conv => rhs; rw [← List.map_id l]
      apply List.map_congr_left
      intro x hx; simp [hfresh x hx]
    | some m =>
      have := hstart m rfl
      subst this
      simp only [withNew, Option.map_some]
      exact map_insertMap m l f (hf m) hfresh
  · rfl

theorem removeMap_withNew (w : World) (l : List Mapping) (o : Option Mapping) (hdr : Addr)
    (hm : w.maps = withNew l o) (hstart : ∀ m, o = some m → m.start = hdr)
    (hfresh : ∀ x ∈ l, x.start ≠ hdr) :
    (removeMap w hdr).maps = l := by
  simp only [removeMap, hm]
  cases o with
  | none =>
    simp only [withNew]; rw [List.filter_eq_self]; intro x hx; simp [hfresh x hx]
  | some m =>
    have := hstart m rfl
    subst this
    exact filter_insertMap m l hfresh

theorem mapped_withNew (w : World) (l : List Mapping) (o : Option Mapping) (hdr : Addr)
    (hm : w.maps = withNew l o) (hfresh : ∀ x ∈ l, x.start ≠ hdr) (h : w.mapped hdr = true) :
    ∃ m, o = some m := by
  cases o with
  | some m => exact ⟨m, rfl⟩
  | none =>
    simp only [World.mapped, hm, withNew, List.any_eq_true, decide_eq_true_eq] at h
    obtain ⟨x, hx, hxe⟩ := h
    exact absurd hxe (hfresh x hx)

theorem writeTask_maps (w : World) (a bs n) : (writeTask w a bs n).1.maps = w.maps := by
  cases n <;> rfl

theorem writeTask_arch (w : World) (a bs n) : (writeTask w a bs n).1.arch = w.arch := by
  cases n <;> rfl

theorem kickEntry_arch (w : World) (e : PatchEnv) (info : Info) :
    (kickEntry w e info).1.arch = w.arch := by
  unfold kickEntry
  cases e.attach2 with
  | fail n left => rfl
  | ok => exact writeTask_arch _ _ _ _

theorem kickImage_arch (w : World) (e : PatchEnv) (hdr : Addr) (info : Info) :
    (kickImage w e hdr info).1.arch = w.arch := by
  unfold kickImage
  have := writeTask_arch w hdr (e.image info) (if w.mapped hdr then e.imageN else none)
  generalize writeTask w hdr (e.image info) (if w.mapped hdr then e.imageN else none) = wt at *
  cases h : wt.2 with
  | true => simp only [h, if_true]; rw [kickEntry_arch]; exact this
  | false => simp only [h, Bool.false_eq_true, if_false]; exact this

theorem kick_arch (w : World) (e : PatchEnv) (hdr : Addr) (info : Info) :
    (kick w e hdr info).1.arch = w.arch := by
  unfold kick
  cases e.preadN with
  | none => rfl
  | some k =>
    dsimp only
    split
    · rfl
    · rw [kickImage_arch]; rfl

theorem loadPatch_arch (w : World) (s : Session) (e : PatchEnv) (hdr : Addr) :
    (loadPatch w s e hdr).1.arch = w.arch := by
  unfold loadPatch
  cases e.setup <;> dsimp only
  split
  · rfl
  · cases e.rewrite <;> dsimp only
    cases e.simplify <;> cases e.apply <;> dsimp only <;> try rfl
    unfold solveAndKick
    cases e.target <;> dsimp only <;> try rfl
    cases e.source <;> dsimp only <;> try rfl
    rw [kick_arch]; rfl

theorem createMmap_arch (w : World) (e : PatchEnv) : (createMmap w e).1.arch = w.arch := by
  unfold createMmap
  cases e.attach1 <;> dsimp only <;> try rfl
  split
  · rfl
  · split
    · rfl
    · cases e.mmap with
      | created a => rfl
      | errno v => rfl
      | inject l => cases l <;> rfl

theorem deleteMmap_arch (w : World) (e : PatchEnv) (hdr : Addr) :
    (deleteMmap w e hdr).arch = w.arch := by
  unfold deleteMmap
  cases e.attach3 <;> dsimp only <;> try rfl
  cases e.munmap3 with
  | done => rfl
  | failed g => cases g <;> rfl

theorem initPatch_arch (w : World) (s : Session) (e : PatchEnv) :
    (initPatch w s e).1.arch = w.arch := by
  unfold initPatch
  split
  · rfl
  · cases e.alloc <;> dsimp only <;> try rfl
    cases e.chown <;> dsimp only <;> try rfl
    have hc := createMmap_arch w e
    generalize createMmap w e = c at hc
    obtain ⟨w', r⟩ := c
    cases r with
    | error r => exact hc
    | ok hdr =>
      dsimp only
      split
      · rw [deleteMmap_arch, loadPatch_arch]; exact hc
      · rw [loadPatch_arch]; exact hc

theorem deletePatch_arch (w : World) (s : Session) (e : DeleteEnv) :
    (deletePatch w s e).1.arch = w.arch := by
  unfold deletePatch
  split
  · rfl
  · cases e.attach <;> dsimp only <;> try rfl
    split
    · cases e.munmap with
      | done => exact writeTask_arch _ _ _ _
      | failed g => cases g <;> exact writeTask_arch _ _ _ _
    · exact writeTask_arch _ _ _ _

theorem kickEntry_good {R} {w : World} {e : PatchEnv} (info : Info) :
    let r := kickEntry w e info
    r.1.maps = w.maps ∧
    ((r.2 ≠ 0 ∧ (e.EntryAtomic → EqOff R r.1.mem w.mem)) ∨
     (r.2 = 0 ∧ r.1.mem = w.mem.write info.virt (jmpEntry w.arch info.patchFn))) := by
  unfold kickEntry
  cases e.attach2 with
  | fail n left => exact ⟨rfl, .inl ⟨neg_ne_zero n, fun _ => EqOff.refl _⟩⟩
  | ok =>
    refine ⟨writeTask_maps _ _ _ _, ?_⟩
    cases hn : e.entryN with
    | none => left; exact ⟨by errne, fun _ => EqOff.refl _⟩
    | some k =>
      by_cases hk : 16 ≤ k
      · right
        refine ⟨by simp [writeTask, jmpEntry_length, hk], ?_⟩
        show w.mem.write info.virt (List.take k _) = _
        rw [List.take_of_length_le (by rw [jmpEntry_length]; exact hk)]
      · left
        refine ⟨by simp [writeTask, jmpEntry_length, hk, ENOEXEC], ?_⟩
        intro hat
        have hk0 : k = 0 := by
          rcases hat with h | h | ⟨k', h1, h2⟩
          · rw [hn] at h; simp at h
          · rw [hn] at h; simpa using h
          · rw [hn] at h2; simp at h2; omega
        subst hk0
        show EqOff R (w.mem.write info.virt []) w.mem
        intro x _; apply Mem.write_out; simp

theorem kickImage_good {R} {w0 w : World} {e : PatchEnv} (g : e.Placed R w0) (hdr : Addr) (info : Info)
    (harea : w.mapped hdr = true → ∀ i, i < e.len → R (hdr + BitVec.ofNat 64 i)) :
    let r := kickImage w e hdr info
    r.1.maps = w.maps ∧
    ((r.2 ≠ 0 ∧ (e.EntryAtomic → EqOff R r.1.mem w.mem)) ∨
     (r.2 = 0 ∧ w.mapped hdr = true ∧
      EqOff R r.1.mem (w.mem.write info.virt (jmpEntry w.arch info.patchFn)))) := by
  intro r
  have hr : r = kickImage w e hdr info := rfl
  clear_value r
  unfold kickImage at hr
  cases hmp : w.mapped hdr with
  | false =>
    simp only [hmp, writeTask] at hr
    subst hr
    exact ⟨rfl, .inl ⟨by errne, fun _ => EqOff.refl _⟩⟩
  | true =>
    simp only [hmp, if_true] at hr
    have hmem : EqOff R (writeTask w hdr (e.image info) e.imageN).1.mem w.mem := by
      cases e.imageN with
      | none => exact EqOff.refl _
      | some k =>
        apply EqOff.write_in
        intro i hi
        apply harea hmp
        have := g.img info
        simp at hi; omega
    have hmaps := writeTask_maps w hdr (e.image info) e.imageN
    have harch := writeTask_arch w hdr (e.image info) e.imageN
    generalize writeTask w hdr (e.image info) e.imageN = wt at hr hmem hmaps harch
    split at hr
    · obtain ⟨h1, h2⟩ := kickEntry_good (R := R) (w := wt.1) (e := e) info
      rw [← hr] at h1 h2
      refine ⟨h1.trans hmaps, ?_⟩
      rcases h2 with ⟨a, b⟩ | ⟨a, b⟩
      · exact .inl ⟨a, fun h => (b h).trans hmem⟩
      · exact .inr ⟨a, rfl, by rw [b, harch]; exact hmem.write _ _⟩
    · subst hr
      exact ⟨hmaps, .inl ⟨by errne, fun _ => hmem⟩⟩

/-- Shape of a world in the middle of `init_patch`: the old mappings plus
possibly the new one at `hdr`. -/
structure Mid (R : Addr → Prop) (l : List Mapping) (hdr : Addr) (n : Nat) (o : Option Mapping)
    (w : World) : Prop where
  maps : w.maps = withNew l o
  start : ∀ m, o = some m → m.start = hdr
  fresh : ∀ x ∈ l, x.start ≠ hdr
  area : ∀ m, o = some m → ∀ i, i < n → R (hdr + BitVec.ofNat 64 i)

theorem Mid.upd {R l hdr n o w} (h : Mid R l hdr n o w) (f : Mapping → Mapping)
    (hf : ∀ m, (f m).start = m.start) : Mid R l hdr n (o.map f) (updMap w hdr f) where
  maps := (updMap_withNew w l o hdr f h.maps h.start hf h.fresh).1
  start := by
    intro m hm
    cases o with
    | none => simp at hm
    | some m0 => simp at hm; subst hm; rw [hf]; exact h.start m0 rfl
  fresh := h.fresh
  area := by
    intro m hm
    cases o with
    | none => simp at hm
    | some m0 => exact h.area m0 rfl

theorem Mid.congr {R l hdr n o w w'} (h : Mid R l hdr n o w) (hm : w'.maps = w.maps) :
    Mid R l hdr n o w' := { h with maps := hm.trans h.maps }

theorem Mid.mapped_area {R l hdr n o w} (h : Mid R l hdr n o w) (hm : w.mapped hdr = true) :
    (∃ m, o = some m) ∧ ∀ i, i < n → R (hdr + BitVec.ofNat 64 i) := by
  obtain ⟨m, hm'⟩ := mapped_withNew w l o hdr h.maps h.fresh hm
  exact ⟨⟨m, hm'⟩, h.area m hm'⟩

/-- `kick` under a good environment. -/
theorem kick_good {R} {w0 w : World} {e : PatchEnv} (g : e.Placed R w0)
    {hdr : Addr} {info : Info} {l : List Mapping} {o : Option Mapping}
    (hmid : Mid R l hdr e.len o w) (hinfo : info.orig.length = 16) :
    let r := kick w e hdr info
    let info' := { info with orig := w.mem.read info.virt 16 }
    (r.2 ≠ 0 ∧ (∃ o', Mid R l hdr e.len o' r.1) ∧ (e.EntryAtomic → EqOff R r.1.mem w.mem)) ∨
    (r.2 = 0 ∧ (∃ m, o = some m ∧ r.1.maps = withNew l (some { m with info := info' })) ∧
        EqOff R r.1.mem (w.mem.write info.virt (jmpEntry w.arch info.patchFn))) := by
  intro r info'
  have hr : r = kick w e hdr info := rfl
  clear_value r
  unfold kick at hr
  cases hp : e.preadN with
  | none =>
    rw [hp] at hr; subst hr
    left; exact ⟨by errne, ⟨o, hmid⟩, fun _ => EqOff.refl _⟩
  | some k =>
    rw [hp] at hr
    dsimp only at hr
    generalize hi : ({ info with orig := w.mem.read info.virt (min k 16) ++ info.orig.drop (min k 16) } : Info) = info1 at hr
    have hmid1 := hmid.upd (fun m => { m with info := info1 }) (fun _ => rfl)
    have hmem1 : (updMap w hdr (fun m => { m with info := info1 })).mem = w.mem := rfl
    have harch1 : (updMap w hdr (fun m => { m with info := info1 })).arch = w.arch := rfl
    generalize updMap w hdr (fun m => { m with info := info1 }) = w1 at hr hmid1 hmem1 harch1
    by_cases hk : k < jmpEntrySize
    · rw [if_pos hk] at hr; subst hr
      left; exact ⟨by errne, ⟨_, hmid1⟩, fun _ => by rw [hmem1]; exact EqOff.refl _⟩
    · rw [if_neg hk] at hr
      have hk16 : min k 16 = 16 := by simp only [jmpEntrySize] at hk; omega
      have hinfo1 : info1 = info' := by
        rw [← hi, hk16]
        show _ = ({ info with orig := w.mem.read info.virt 16 } : Info)
        simp [hinfo]
      obtain ⟨h1, h2⟩ := kickImage_good (w := w1) g hdr info1 (fun h => (hmid1.mapped_area h).2)
      rw [← hr] at h1 h2
      rcases h2 with ⟨a, b⟩ | ⟨a, b, c⟩
      · left; exact ⟨a, ⟨_, hmid1.congr h1⟩, by rw [← hmem1]; exact b⟩
      · right
        obtain ⟨⟨m, hm⟩, _⟩ := hmid1.mapped_area b
        cases o with
        | none => simp at hm
        | some m0 =>
          refine ⟨a, ⟨m0, rfl, ?_⟩, ?_⟩
          · rw [h1, hmid1.maps, hinfo1]; rfl
          · rw [← hmem1, ← harch1]; rw [hinfo1] at c; exact c

theorem solveAndKick_good {R} {w0 w : World} {e : PatchEnv} {s : Session} (g : e.Placed R w0)
    {hdr : Addr} {l : List Mapping} {o : Option Mapping}
    (hmid : Mid R l hdr e.len o w) :
    let r := solveAndKick w s e hdr
    (r.2.2 ≠ 0 ∧ (∃ o', Mid R l hdr e.len o' r.1) ∧ (e.EntryAtomic → EqOff R r.1.mem w.mem)) ∨
    (r.2.2 = 0 ∧ ∃ t p m, e.target = some t ∧ e.source = some p ∧ o = some m ∧
      r.2.1.maxId = s.maxId + 1 ∧
      r.1.maps = withNew l (some { m with info :=
        { id := s.maxId + 1, target := t, patchFn := p, virt := t, orig := w.mem.read t 16 } }) ∧
      EqOff R r.1.mem (w.mem.write t (jmpEntry w.arch p))) := by
  unfold solveAndKick
  cases ht : e.target with
  | none => left; exact ⟨by errne, ⟨o, hmid⟩, fun _ => EqOff.refl _⟩
  | some t =>
    cases hp : e.source with
    | none => left; exact ⟨by errne, ⟨o, hmid⟩, fun _ => EqOff.refl _⟩
    | some p =>
      dsimp only
      generalize hi : ({ id := s.maxId + 1, target := t, patchFn := p, virt := t, orig := e.info0.orig } : Info) = info
      have hmid1 := hmid.upd (fun m => { m with info := info }) (fun _ => rfl)
      have := kick_good (w := updMap w hdr fun m => { m with info := info }) (info := info) g hmid1
        (by rw [← hi]; exact g.wf)
      rcases this with ⟨a, b, c⟩ | ⟨a, ⟨m, hm, hmm⟩, c⟩
      · left; exact ⟨a, b, c⟩
      · right
        cases o with
        | none => simp at hm
        | some m0 =>
          simp at hm
          refine ⟨a, t, p, m0, rfl, rfl, rfl, rfl, ?_, ?_⟩
          · rw [hmm]; subst hm; subst hi; rfl
          · subst hi; exact c

theorem loadPatch_good {R} {w0 w : World} {e : PatchEnv} {s : Session} (g : e.Placed R w0)
    {hdr : Addr} {l : List Mapping} {o : Option Mapping}
    (hmid : Mid R l hdr e.len o w) :
    let r := loadPatch w s e hdr
    (r.2.2 ≠ 0 ∧ (∃ o', Mid R l hdr e.len o' r.1) ∧ (e.EntryAtomic → EqOff R r.1.mem w.mem)) ∨
    (r.2.2 = 0 ∧ (∀ u ∈ s.ulps, u.bid ≠ e.bid) ∧
      ∃ t p m, e.target = some t ∧ e.source = some p ∧ o = some m ∧
      r.2.1.maxId = s.maxId + 1 ∧
      r.1.maps = withNew l (some { m with ready := true, info :=
        { id := s.maxId + 1, target := t, patchFn := p, virt := t, orig := w.mem.read t 16 } }) ∧
      EqOff R r.1.mem (w.mem.write t (jmpEntry w.arch p))) := by
  unfold loadPatch
  cases e.setup with
  | some n => left; exact ⟨neg_ne_zero n, ⟨o, hmid⟩, fun _ => EqOff.refl _⟩
  | none =>
    dsimp only
    by_cases hb : s.ulps.any (fun u => decide (u.bid = e.bid)) = true
    · rw [if_pos hb]; left; exact ⟨by errne, ⟨o, hmid⟩, fun _ => EqOff.refl _⟩
    · rw [if_neg hb]
      have hb' : ∀ u ∈ s.ulps, u.bid ≠ e.bid := by
        intro u hu hc
        exact hb (List.any_eq_true.2 ⟨u, hu, by simpa using hc⟩)
      cases e.rewrite with
      | some n => left; exact ⟨neg_ne_zero n, ⟨o, hmid⟩, fun _ => EqOff.refl _⟩
      | none =>
        dsimp only
        have hmid1 := hmid.upd (fun m => { m with ready := true }) (fun _ => rfl)
        cases e.simplify with
        | some n => left; exact ⟨neg_ne_zero n, ⟨_, hmid1⟩, fun _ => EqOff.refl _⟩
        | none =>
          cases e.apply with
          | some n => left; exact ⟨neg_ne_zero n, ⟨_, hmid1⟩, fun _ => EqOff.refl _⟩
          | none =>
            dsimp only
            rcases solveAndKick_good (s := s) g hmid1 with h | ⟨a, t, p, m, ht, hp, hm, hid, hmm, hc⟩
            · left; exact h
            · right
              cases o with
              | none => simp at hm
              | some m0 =>
                simp at hm
                refine ⟨a, hb', t, p, m0, ht, hp, rfl, hid, ?_, hc⟩
                rw [hmm]; subst hm; rfl

/-- `init_patch` under a good environment: all or nothing. -/
theorem initPatch_good {R} {w : World} {e : PatchEnv} {s : Session} (g : e.Placed R w) :
    let r := initPatch w s e
    (r.2.2 ≠ 0 ∧ (e.CleanupOk → r.1.maps = w.maps) ∧ (e.EntryAtomic → EqOff R r.1.mem w.mem)) ∨
    (r.2.2 = 0 ∧ (∀ u ∈ s.ulps, u.bid ≠ e.bid) ∧
      ∃ hdr t p, e.mmap = .created hdr ∧ e.target = some t ∧ e.source = some p ∧
      r.2.1.maxId = s.maxId + 1 ∧
      r.1.maps = insertMap { start := hdr, len := e.len, bid := e.bid, ready := true, info :=
        { id := s.maxId + 1, target := t, patchFn := p, virt := t, orig := w.mem.read t 16 } } w.maps ∧
      EqOff R r.1.mem (w.mem.write t (jmpEntry w.arch p))) := by
  unfold initPatch
  by_cases hf : s.ftoProc = false
  · rw [if_pos hf]; left; exact ⟨by errne, fun _ => rfl, fun _ => EqOff.refl _⟩
  · rw [if_neg hf]
    cases e.alloc with
    | some n => left; exact ⟨neg_ne_zero n, fun _ => rfl, fun _ => EqOff.refl _⟩
    | none =>
      cases e.chown with
      | some n => left; exact ⟨neg_ne_zero n, fun _ => rfl, fun _ => EqOff.refl _⟩
      | none =>
        dsimp only
        have key : (∃ wc r, createMmap w e = (wc, .error r) ∧ r ≠ 0 ∧ wc.maps = w.maps ∧ wc.mem = w.mem) ∨
            (∃ wc hdr o, createMmap w e = (wc, .ok hdr) ∧ Mid R w.maps hdr e.len o wc ∧ wc.mem = w.mem ∧
              (∀ m, o = some m → e.mmap = .created hdr ∧
                m = { start := hdr, len := e.len, bid := e.bid, ready := false, info := e.info0 })) := by
          unfold createMmap
          cases e.attach1 with
          | fail n left => left; exact ⟨_, _, rfl, neg_ne_zero n, rfl, rfl⟩
          | ok =>
            dsimp only
            by_cases h1 : e.fd ≤ 0
            · rw [if_pos h1]; left; exact ⟨_, _, rfl, by errne, rfl, rfl⟩
            · rw [if_neg h1]
              by_cases h2 : e.ftruncate ≠ 0
              · rw [if_pos h2]; left; exact ⟨_, _, rfl, by errne, rfl, rfl⟩
              · rw [if_neg h2]
                have ga := g.area
                cases hmm : e.mmap with
                | created a =>
                  rw [hmm] at ga
                  right
                  refine ⟨_, _, some _, rfl, ⟨rfl, ?_, ga.2, fun _ _ => ga.1⟩, rfl, ?_⟩
                  · intro m hm; injection hm with hm; subst hm; rfl
                  · intro m hm; injection hm with hm; exact ⟨rfl, hm.symm⟩
                | errno v =>
                  rw [hmm] at ga
                  right
                  exact ⟨_, _, none, rfl, ⟨rfl, by simp, ga, by simp⟩, rfl, by simp⟩
                | inject l =>
                  rw [hmm] at ga
                  subst ga
                  left; exact ⟨_, _, rfl, by errne, rfl, rfl⟩
        rcases key with ⟨wc, r, hc, hr, hm, hme⟩ | ⟨wc, hdr, o, hc, hmid, hme, ho⟩
        · rw [hc]; left; exact ⟨hr, fun _ => hm, fun _ => by rw [hme]; exact EqOff.refl _⟩
        · rw [hc]; dsimp only
          rcases loadPatch_good (s := s) g hmid with ⟨a, ⟨o', hmid'⟩, c⟩ | ⟨a, hb, t, p, m, ht, hp, hm, hid, hmm, c⟩
          · rw [if_pos a]; left
            refine ⟨a, ?_, ?_⟩
            · intro hcl
              dsimp only
              unfold deleteMmap
              rw [hcl.1]
              cases hmu : e.munmap3 with
              | done => exact removeMap_withNew _ w.maps o' hdr hmid'.maps hmid'.start hmid'.fresh
              | failed gone =>
                cases gone with
                | true => exact removeMap_withNew _ w.maps o' hdr hmid'.maps hmid'.start hmid'.fresh
                | false => exact absurd hmu hcl.2
            · intro hat
              dsimp only
              have hd : (deleteMmap (loadPatch wc s e hdr).1 e hdr).mem = (loadPatch wc s e hdr).1.mem := by
                unfold deleteMmap
                cases e.attach3 with
                | fail n left => rfl
                | ok =>
                  cases e.munmap3 with
                  | done => rfl
                  | failed gone => cases gone <;> rfl
              rw [hd, ← hme]; exact c hat
          · rw [if_neg (by rw [a]; simp)]; right
            obtain ⟨hcr, hmeq⟩ := ho m hm
            refine ⟨rfl, hb, hdr, t, p, hcr, ht, hp, hid, ?_, ?_⟩
            · dsimp only
              rw [hmm, hmeq, hme]; rfl
            · dsimp only
              have := createMmap_arch w e
              rw [hc] at this
              rw [← hme, ← this]; exact c

end Patch
end Ulp
