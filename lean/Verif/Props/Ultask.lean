/-
C64, C65, C66: changing the protection of a region, mapping a file, unmapping
(src/ultask.c:595-722).
-/
import Verif.Model.Ultask
import Verif.Spec.LinuxEx
import Verif.Props.Vma
namespace Ulp.Ultask
open Ulp.Vma (Vmas findVma Reach Abs rangeOf)
open Ulp.Range
open Ulp.Linux
open Ulp.Ptrace (shouldSkipRemoteFd)

/-- An address is in one of the known mappings. -/
def InMap (known : Known) (a : BitVec 64) : Prop := ∃ q ∈ known, q.2.Has a.toNat

theorem find_cases {vs : Vmas} {abs : Abs} (h : Reach vs abs) (a : BitVec 64) :
    (findVma vs a = some 0 ∧ ¬ InMap abs.known a) ∨
    ∃ v, v ≠ 0 ∧ findVma vs a = some v ∧ (v, rangeOf (vs.info v)) ∈ abs.known ∧ (rangeOf (vs.info v)).Has a.toNat := by
  obtain ⟨t, hg⟩ := h.good
  obtain ⟨r, er, hr⟩ := hg.inv.find a
  rcases hr with ⟨rfl, hr⟩ | ⟨h0, h1, h2⟩
  · exact Or.inl ⟨er, fun ⟨q, hq, hh⟩ => hr q hq hh⟩
  · exact Or.inr ⟨r, h0, er, (hg.inv.known _ _).2 ⟨h1, rfl⟩, h2⟩

theorem find_in {vs : Vmas} {abs : Abs} (h : Reach vs abs) {a : BitVec 64} (hi : InMap abs.known a) :
    ∃ v, v ≠ 0 ∧ findVma vs a = some v := by
  rcases find_cases h a with ⟨_, hn⟩ | ⟨v, h0, e, _⟩
  · exact absurd hi hn
  · exact ⟨v, h0, e⟩

theorem find_out {vs : Vmas} {abs : Abs} (h : Reach vs abs) {a : BitVec 64} (hi : ¬ InMap abs.known a) :
    findVma vs a = some 0 := by
  rcases find_cases h a with ⟨e, _⟩ | ⟨v, _, _, hm, hh⟩
  · exact e
  · exact absurd ⟨_, hm, hh⟩ hi

/-! ## C64: changing the protection of a region -/

/-- **C64**, refusals: if the first address, or the address behind the last, is in no
known mapping, nothing is asked of the process. -/
theorem C64_refused {W : Type} (k : Kern W) {vs : Vmas} {abs : Abs} (h : Reach vs abs) (addr len prot : BitVec 64)
    (r : Run W) (hb : addr = 0 ∨ len = 0 ∨ ¬ InMap abs.known addr ∨ ¬ InMap abs.known (addr + len)) :
    mprotectRegion k vs addr len prot r = some (r, -22) := by
  unfold mprotectRegion
  by_cases h0 : addr = 0 ∨ len = 0
  · rw [if_pos h0]
  rw [if_neg h0]
  by_cases ha : InMap abs.known addr
  · obtain ⟨v, v0, ev⟩ := find_in h ha
    rw [ev, Option.bind_some, if_neg v0]
    have hl : ¬ InMap abs.known (addr + len) := by
      rcases hb with hb | hb | hb | hb
      · exact absurd (Or.inl hb) h0
      · exact absurd (Or.inr hb) h0
      · exact absurd ha hb
      · exact hb
    rw [find_out h hl, Option.bind_some, if_pos rfl]
  · rw [find_out h ha, Option.bind_some, if_pos rfl]

/-- A region that is not refused, in a process that cannot be attached to. -/
theorem mprotect_noattach {W : Type} (k : Kern W) {vs : Vmas} {abs : Abs} (h : Reach vs abs) (addr len prot : BitVec 64)
    (r : Run W) (h0 : addr ≠ 0) (h1 : len ≠ 0) (ha : InMap abs.known addr) (hl : InMap abs.known (addr + len))
    (e : int (k.ask r.w .attach).2 ≠ 0) :
    mprotectRegion k vs addr len prot r =
      some (⟨(k.ask r.w .attach).1, r.log ++ [.attach]⟩, int (k.ask r.w .attach).2) := by
  obtain ⟨v, v0, ev⟩ := find_in h ha
  obtain ⟨u, u0, eu⟩ := find_in h hl
  unfold mprotectRegion
  rw [if_neg (fun q => q.elim h0 h1), ev, Option.bind_some, if_neg v0, eu, Option.bind_some, if_neg u0]
  dsimp only
  rw [if_pos (show int (r.ask k .attach).2 ≠ 0 from e)]
  rfl

/-- A region that is not refused, in a process that can be attached to. -/
theorem mprotect_attached {W : Type} (k : Kern W) {vs : Vmas} {abs : Abs} (h : Reach vs abs) (addr len prot : BitVec 64)
    (r : Run W) (h0 : addr ≠ 0) (h1 : len ≠ 0) (ha : InMap abs.known addr) (hl : InMap abs.known (addr + len))
    (e : int (k.ask r.w .attach).2 = 0) :
    let w1 := (k.ask r.w .attach).1
    let m := k.ask w1 (.mprotect addr len (prot.setWidth 32))
    mprotectRegion k vs addr len prot r =
      some (⟨(k.ask m.1 .detach).1, r.log ++ [.attach] ++ [.mprotect addr len (prot.setWidth 32)] ++ [.detach]⟩,
        int m.2) := by
  obtain ⟨v, v0, ev⟩ := find_in h ha
  obtain ⟨u, u0, eu⟩ := find_in h hl
  unfold mprotectRegion
  rw [if_neg (fun q => q.elim h0 h1), ev, Option.bind_some, if_neg v0, eu, Option.bind_some, if_neg u0]
  dsimp only
  rw [if_neg (show ¬ int (r.ask k .attach).2 ≠ 0 from fun hn => hn e)]
  rfl

/-- **C64**, partial: on every kernel, for every process that is not being traced, any
known mappings, region and protection.  The command ends, does not leave the process
stopped, and if it reports success every page of the region has the protection asked
for and no other page has changed.  If it reports an error, no page outside the region
has changed, and inside only the protection.  The requests are made in this order, and
none but these.  Missing: that a region is refused exactly if it is not all mapped
(`C64_end_refused`, `C64_hole`). -/
theorem C64_protect_partial {pg : Nat} {k : Kern State} (hk : Lawful pg k) {vs : Vmas} {abs : Abs} (h : Reach vs abs)
    (addr len prot : BitVec 64) (s : State) (hs : s.stopped = false) :
    ∃ r ret, mprotectRegion k vs addr len prot ⟨s, []⟩ = some (r, ret) ∧ r.w.stopped = false ∧
      (ret = 0 → Protected pg s r.w addr.toNat len.toNat (prot.setWidth 32)) ∧
      (ret ≠ 0 → PartProtected pg s r.w addr.toNat len.toNat (prot.setWidth 32)) ∧
      (r.log = [] ∨ r.log = [.attach] ∨
        r.log = [.attach, .mprotect addr len (prot.setWidth 32), .detach]) := by
  have hpart : PartProtected pg s s addr.toNat len.toNat (prot.setWidth 32) := ⟨fun _ => false, by simp [State.change]⟩
  by_cases hb : addr = 0 ∨ len = 0 ∨ ¬ InMap abs.known addr ∨ ¬ InMap abs.known (addr + len)
  · refine ⟨_, _, C64_refused k h addr len prot _ hb, hs, by simp, fun _ => hpart, Or.inl rfl⟩
  · simp only [not_or, Classical.not_not] at hb
    obtain ⟨h0, h1, ha, hl⟩ := hb
    rcases hk s .attach with ⟨e0, _, e1⟩ | ⟨e0, e1⟩
    · have hm := hk { s with stopped := true } (.mprotect addr len (prot.setWidth 32))
      have hd := hk (k.ask { s with stopped := true } (.mprotect addr len (prot.setWidth 32))).1 .detach
      simp only [Answers] at hd
      refine ⟨_, _, mprotect_attached k h addr len prot _ h0 h1 ha hl e0, ?_⟩
      dsimp only
      rw [e1]
      refine ⟨by rw [hd], ?_, ?_, Or.inr (Or.inr rfl)⟩
      · intro he
        rcases hm with ⟨_, m1, m2, m3⟩ | ⟨m0, _⟩
        · refine ⟨m1, m2, ?_⟩
          rw [hd, m3]
          cases s
          simp_all [State.change]
        · exact absurd he m0
      · intro he
        rcases hm with ⟨m0, _⟩ | ⟨_, done, m3⟩
        · exact absurd m0 he
        · refine ⟨done, ?_⟩
          rw [hd, m3]
          cases s
          simp_all [State.change]
    · refine ⟨_, _, mprotect_noattach k h addr len prot _ h0 h1 ha hl e0, ?_⟩
      dsimp only
      rw [e1]
      exact ⟨hs, fun he => absurd he e0, fun _ => hpart, Or.inr (Or.inl rfl)⟩

/-- **C64**, what is missing: a region that is exactly one known mapping is refused if
nothing is mapped behind it. -/
theorem C64_end_refused {W : Type} (k : Kern W) {vs : Vmas} {abs : Abs} (h : Reach vs abs) (v : Nat) (prot : BitVec 64)
    (r : Run W) (_ : (v, rangeOf (vs.info v)) ∈ abs.known) (hend : ¬ InMap abs.known (vs.info v).stop) :
    mprotectRegion k vs (vs.info v).start ((vs.info v).stop - (vs.info v).start) prot r = some (r, -22) := by
  apply C64_refused k h
  right; right; right
  have : (vs.info v).start + ((vs.info v).stop - (vs.info v).start) = (vs.info v).stop := by
    rw [BitVec.add_comm, BitVec.sub_add_cancel]
  rwa [this]

/-- **C64**, what is missing: a region with a hole in it, of any size, is not refused
if it begins and ends in known mappings: the process is stopped and the call made. -/
theorem C64_hole {W : Type} (k : Kern W) {vs : Vmas} {abs : Abs} (h : Reach vs abs) (addr len prot : BitVec 64)
    (w : W) (h0 : addr ≠ 0) (h1 : len ≠ 0) (ha : InMap abs.known addr) (hl : InMap abs.known (addr + len))
    (e : int (k.ask w .attach).2 = 0) :
    ∃ r ret, mprotectRegion k vs addr len prot ⟨w, []⟩ = some (r, ret) ∧
      r.log = [.attach, .mprotect addr len (prot.setWidth 32), .detach] :=
  ⟨_, _, mprotect_attached k h addr len prot _ h0 h1 ha hl e, rfl⟩

/-! ## C66: unmapping -/

theorem munmap_found {W : Type} (k : Kern W) (fs : Fs) {vs : Vmas} {v : Nat} {addr : BitVec 64} (v0 : v ≠ 0)
    (ev : findVma vs addr = some v) (r : Run W) (e : int (k.ask r.w .attach).2 = 0) {size : BitVec 64}
    (hsize : size = if fs.exist (vs.info v).name then (fsize fs (vs.info v).name).signExtend 64
      else (vs.info v).stop - (vs.info v).start) :
    let m := k.ask (k.ask r.w .attach).1 (.munmap (vs.info v).start size)
    munmapVma k fs vs addr r =
      some (⟨(k.ask m.1 .detach).1, r.log ++ [.attach] ++ [.munmap (vs.info v).start size] ++ [.detach]⟩, 0) := by
  subst hsize
  unfold munmapVma
  rw [ev, Option.bind_some, if_neg v0]
  dsimp only
  rw [if_neg (show ¬ int (r.ask k .attach).2 ≠ 0 from fun hn => hn e)]
  rfl

theorem munmap_noattach {W : Type} (k : Kern W) (fs : Fs) {vs : Vmas} {v : Nat} {addr : BitVec 64} (v0 : v ≠ 0)
    (ev : findVma vs addr = some v) (r : Run W) (e : int (k.ask r.w .attach).2 ≠ 0) :
    munmapVma k fs vs addr r =
      some (⟨(k.ask r.w .attach).1, r.log ++ [.attach]⟩, int (k.ask r.w .attach).2) := by
  unfold munmapVma
  rw [ev, Option.bind_some, if_neg v0]
  dsimp only
  rw [if_pos (show int (r.ask k .attach).2 ≠ 0 from e)]
  rfl

/-- **C66**, an address in no mapping: nothing is asked of the process. -/
theorem C66_refused {W : Type} (k : Kern W) (fs : Fs) {vs : Vmas} {abs : Abs} (h : Reach vs abs) (addr : BitVec 64)
    (r : Run W) (hn : ¬ InMap abs.known addr) : munmapVma k fs vs addr r = some (r, -1) := by
  unfold munmapVma
  rw [find_out h hn, Option.bind_some, if_pos rfl]

/-- The pages a region of `n` bytes from the beginning of a page touches depend only on
the number of pages. -/
theorem touches_congr {pg addr m n : Nat} (hpg : 0 < pg) (ha : addr % pg = 0)
    (h : (m + pg - 1) / pg = (n + pg - 1) / pg) (p : Nat) : Touches pg addr m p ↔ Touches pg addr n p := by
  have key : ∀ x, (addr + x + pg - 1) / pg = addr / pg + (x + pg - 1) / pg := by
    intro x
    have e : addr + x + pg - 1 = x + pg - 1 + pg * (addr / pg) := by
      have := Nat.div_add_mod addr pg
      omega
    rw [e, Nat.add_mul_div_left _ _ hpg, Nat.add_comm]
  unfold Touches
  rw [key, key, h]

theorem change_congr {pg a m n : Nat} (s : State) (f : Nat → Option Page → Option Page)
    (h : ∀ p, Touches pg a m p ↔ Touches pg a n p) : s.change pg a m f = s.change pg a n f := by
  unfold State.change
  congr 1
  funext p
  by_cases hp : Touches pg a m p
  · rw [if_pos hp, if_pos ((h p).1 hp)]
  · rw [if_neg hp, if_neg (fun hq => hp ((h p).2 hq))]

/-- **C66**, partial: on every kernel, for every process that is not being traced and
any known mappings, an address in a mapping.  If the name of the mapping is no file,
or a file of as many pages as the mapping has, then exactly the pages of the mapping
are gone, or the process is as before; it is not left stopped.  Missing: mappings of
a part of a file (`C66_neighbour`), and that a failure is reported (`C66_silent`). -/
theorem C66_unmap_partial {pg : Nat} (hpg : 0 < pg) {k : Kern State} (hk : Lawful pg k) (fs : Fs) {vs : Vmas} {abs : Abs}
    (h : Reach vs abs) (addr : BitVec 64) (s : State) (hs : s.stopped = false) {p : Nat} {q : Range}
    (hp : (p, q) ∈ abs.known) (hq : q.Has addr.toNat)
    (hfile : ∀ v, (v, rangeOf (vs.info v)) ∈ abs.known → fs.exist (vs.info v).name = true →
      ∃ n, fs.size (vs.info v).name = some n ∧ n < 2 ^ 31 ∧
        (n + pg - 1) / pg = ((vs.info v).stop.toNat - (vs.info v).start.toNat + pg - 1) / pg) :
    ∃ v r ret, (v, rangeOf (vs.info v)) ∈ abs.known ∧ (rangeOf (vs.info v)).Has addr.toNat ∧
      munmapVma k fs vs addr ⟨s, []⟩ = some (r, ret) ∧
      (r.w = s ∨ r.w = s.change pg (vs.info v).start.toNat
        ((vs.info v).stop.toNat - (vs.info v).start.toNat) fun _ _ => none) := by
  rcases find_cases h addr with ⟨_, hn⟩ | ⟨v, v0, ev, hm, hh⟩
  · exact absurd ⟨_, hp, hq⟩ hn
  rcases hk s .attach with ⟨e0, _, e1⟩ | ⟨e0, e1⟩
  · refine ⟨v, _, _, hm, hh, munmap_found k fs v0 ev ⟨s, []⟩ e0 rfl, ?_⟩
    dsimp only
    rw [e1]
    generalize hsz : (if fs.exist (vs.info v).name then (fsize fs (vs.info v).name).signExtend 64
      else (vs.info v).stop - (vs.info v).start) = size
    have hd := hk (k.ask { s with stopped := true } (.munmap (vs.info v).start size)).1 .detach
    simp only [Answers] at hd
    rw [hd]
    rcases hk { s with stopped := true } (.munmap (vs.info v).start size) with ⟨_, m1, m2, m3⟩ | ⟨_, m3⟩
    · right
      rw [m3]
      have hlt : (vs.info v).start.toNat ≤ (vs.info v).stop.toNat := by
        have := hh
        simp only [Range.Has, rangeOf] at this
        omega
      have hpages : (size.toNat + pg - 1) / pg =
          ((vs.info v).stop.toNat - (vs.info v).start.toNat + pg - 1) / pg := by
        by_cases hx : fs.exist (vs.info v).name = true
        · rw [if_pos hx] at hsz
          obtain ⟨n, en, hn, hr⟩ := hfile v hm hx
          rw [← hr, ← hsz, fsize, en]
          congr 2
          have hb : (BitVec.ofNat 32 n).toNat = n := by rw [BitVec.toNat_ofNat]; omega
          have hmsb : (BitVec.ofNat 32 n).msb = false := by
            rw [BitVec.msb_eq_decide, hb]; simp; omega
          rw [BitVec.signExtend_eq_setWidth_of_msb_false hmsb, BitVec.toNat_setWidth, hb]
          omega
        · rw [if_neg hx] at hsz
          rw [← hsz, BitVec.toNat_sub_of_le (by rwa [BitVec.le_def])]
      rw [change_congr _ _ (touches_congr hpg m1 hpages)]
      cases s
      simp_all [State.change]
    · left
      rw [m3]
      cases s
      simp_all
  · refine ⟨v, _, _, hm, hh, munmap_noattach k fs v0 ev ⟨s, []⟩ e0, Or.inl ?_⟩
    exact e1

/-- **C66**, what is missing: if the name of the mapping is a file of `n` bytes, then
the pages of the first `n` bytes from its beginning are gone if the call succeeds,
whatever the length of the mapping and whatever is mapped behind it. -/
theorem C66_neighbour {pg : Nat} {k : Kern State} (hk : Lawful pg k) (fs : Fs) {vs : Vmas} {abs : Abs}
    (h : Reach vs abs) (addr : BitVec 64) (s : State) (hi : InMap abs.known addr)
    (hok : int (k.ask s .attach).2 = 0)
    (hun : ∀ s' a l, int (k.ask s' (.munmap a l)).2 = 0) :
    ∃ v r, (rangeOf (vs.info v)).Has addr.toNat ∧ munmapVma k fs vs addr ⟨s, []⟩ = some (r, 0) ∧
      ∀ n, fs.exist (vs.info v).name = true → fs.size (vs.info v).name = some n → n < 2 ^ 31 →
        ∀ p, Touches pg (vs.info v).start.toNat n p → r.w.space p = none := by
  rcases find_cases h addr with ⟨_, hn⟩ | ⟨v, v0, ev, _, hh⟩
  · exact absurd hi hn
  refine ⟨v, _, hh, munmap_found k fs v0 ev ⟨s, []⟩ hok rfl, ?_⟩
  intro n hx hn hlt p hp
  dsimp only
  rw [if_pos hx, fsize, hn]
  have hd := hk (k.ask (k.ask s .attach).1 (.munmap (vs.info v).start ((BitVec.ofNat 32 n).signExtend 64))).1 .detach
  simp only [Answers] at hd
  rw [hd]
  have hb : (BitVec.ofNat 32 n).toNat = n := by rw [BitVec.toNat_ofNat]; omega
  have hmsb : (BitVec.ofNat 32 n).msb = false := by
    rw [BitVec.msb_eq_decide, hb]; simp; omega
  have hl : ((BitVec.ofNat 32 n).signExtend 64).toNat = n := by
    rw [BitVec.signExtend_eq_setWidth_of_msb_false hmsb, BitVec.toNat_setWidth, hb]
    omega
  rcases hk (k.ask s .attach).1 (.munmap (vs.info v).start ((BitVec.ofNat 32 n).signExtend 64)) with
    ⟨_, _, _, m3⟩ | ⟨m0, _⟩
  · rw [m3, hl]
    simp only [State.change]
    rw [if_pos hp]
  · exact absurd (hun _ _ _) m0

/-- **C66**, what is missing: success is reported although the call has failed and
nothing is unmapped. -/
theorem C66_silent {pg : Nat} {k : Kern State} (hk : Lawful pg k) (fs : Fs) {vs : Vmas} {abs : Abs}
    (h : Reach vs abs) (addr : BitVec 64) (s : State) (hs : s.stopped = false) (hi : InMap abs.known addr)
    (hok : int (k.ask s .attach).2 = 0)
    (hun : ∀ s' a l, int (k.ask s' (.munmap a l)).2 ≠ 0) :
    ∃ r, munmapVma k fs vs addr ⟨s, []⟩ = some (r, 0) ∧ r.w = s := by
  rcases find_cases h addr with ⟨_, hn⟩ | ⟨v, v0, ev, _, _⟩
  · exact absurd hi hn
  refine ⟨_, munmap_found k fs v0 ev ⟨s, []⟩ hok rfl, ?_⟩
  dsimp only
  generalize (if fs.exist (vs.info v).name then (fsize fs (vs.info v).name).signExtend 64
      else (vs.info v).stop - (vs.info v).start) = size
  have hd := hk (k.ask (k.ask s .attach).1 (.munmap (vs.info v).start size)).1 .detach
  simp only [Answers] at hd
  rw [hd]
  rcases hk (k.ask s .attach).1 (.munmap (vs.info v).start size) with ⟨m0, _⟩ | ⟨_, m3⟩
  · exact absurd m0 (hun _ _ _)
  · rw [m3]
    rcases hk s .attach with ⟨_, _, e1⟩ | ⟨e0, _⟩
    · rw [e1]
      cases s
      simp_all
    · exact absurd hok e0

/-! ## C65: mapping a file -/

theorem mapInUse_zero {vs : Vmas} (len : BitVec 64) : mapInUse vs 0 len = some false := rfl

theorem mapInUse_true {vs : Vmas} {abs : Abs} (h : Reach vs abs) {addr len : BitVec 64} (h0 : addr ≠ 0)
    (hu : InMap abs.known addr ∨ InMap abs.known (addr + len)) : mapInUse vs addr len = some true := by
  unfold mapInUse
  rw [if_neg h0]
  by_cases ha : InMap abs.known addr
  · obtain ⟨v, v0, ev⟩ := find_in h ha
    rw [ev, Option.bind_some, if_pos v0]
  · rcases hu with hu | hu
    · exact absurd hu ha
    · obtain ⟨v, v0, ev⟩ := find_in h hu
      rw [find_out h ha, Option.bind_some, if_neg (by simp), ev, Option.map_some, decide_eq_true v0]

theorem mapInUse_false {vs : Vmas} {abs : Abs} (h : Reach vs abs) {addr len : BitVec 64}
    (h1 : ¬ InMap abs.known addr) (h2 : ¬ InMap abs.known (addr + len)) : mapInUse vs addr len = some false := by
  unfold mapInUse
  by_cases h0 : addr = 0
  · rw [if_pos h0]
  · rw [if_neg h0, find_out h h1, Option.bind_some, if_neg (by simp), find_out h h2]
    rfl

theorem mapInUse_some {vs : Vmas} {abs : Abs} (h : Reach vs abs) (addr len : BitVec 64) :
    ∃ b, mapInUse vs addr len = some b := by
  by_cases h0 : addr = 0
  · subst h0; exact ⟨_, rfl⟩
  by_cases h1 : InMap abs.known addr ∨ InMap abs.known (addr + len)
  · exact ⟨_, mapInUse_true h h0 h1⟩
  · exact ⟨_, mapInUse_false h (fun q => h1 (Or.inl q)) (fun q => h1 (Or.inr q))⟩

/-- The protection that is asked for: reading, writing unless `ro`, execution unless
`noexec`. -/
def askedProt (ro noexec : Bool) : BitVec 32 := 1 + (if ro then 0 else 2) + (if noexec then 0 else 4)

theorem mapProt_eq (ro noexec : Bool) : mapProt ro noexec = askedProt ro noexec := by
  cases ro <;> cases noexec <;> decide

/-- **C65**, an address in use, or in use behind the last: nothing is asked of the
process. -/
theorem C65_refused {W : Type} (k : Kern W) (fs : Fs) {vs : Vmas} {abs : Abs} (h : Reach vs abs) (path : List Byte)
    (addr : BitVec 64) (ro noexec : Bool) (r : Run W) (h0 : addr ≠ 0)
    (hu : InMap abs.known addr ∨ InMap abs.known (addr + (fsize fs path).signExtend 64)) :
    mmapFile k fs vs path addr ro noexec r = some (r, -22) := by
  unfold mmapFile
  dsimp only
  rw [mapInUse_true h h0 hu]
  rfl

/-- How `mmap_a_file` ends on a lawful kernel. -/
structure MapEnd (pg : Nat) (s : State) (path : List Byte) (addr len : BitVec 64) (prot : BitVec 32) (r : Run State)
    (ret : Int) : Prop where
  /-- nothing is new, or the whole file is mapped in free memory -/
  space : r.w.space = s.space ∨ (∃ a, NewMap pg s { s with space := r.w.space } addr.toNat a len.toNat prot)
  file : r.w.file = s.file ∨ (0 ≤ len.toInt ∧ r.w.file = len.toNat)
  fds : r.w.fds = s.fds
  stopped : r.w.stopped = false ∨ (r.log = [.attach, .open path 2] ∧ ret = -1)
  new : r.w.space ≠ s.space → ret = 0

theorem closeRet_eq {W : Type} (k : Kern W) {fd : BitVec 32} (h : shouldSkipRemoteFd fd = false) (ret : Int) (r : Run W) :
    closeRet k fd ret r =
      (⟨(k.ask (k.ask r.w (.close fd)).1 .detach).1, r.log ++ [.close fd] ++ [.detach]⟩, ret) := by
  simp [closeRet, h, Run.ask]

theorem map_end {pg : Nat} {k : Kern State} (hk : Lawful pg k) (fs : Fs) {vs : Vmas} {abs : Abs} (h : Reach vs abs)
    (path : List Byte) (addr : BitVec 64) (ro noexec : Bool) (s : State) (hs : s.stopped = false)
    (hstd : 0#32 ∈ s.fds ∧ 1#32 ∈ s.fds ∧ 2#32 ∈ s.fds) :
    ∃ r ret, mmapFile k fs vs path addr ro noexec ⟨s, []⟩ = some (r, ret) ∧
      MapEnd pg s path addr ((fsize fs path).signExtend 64) (mapProt ro noexec) r ret := by
  obtain ⟨b, hb⟩ := mapInUse_some h addr ((fsize fs path).signExtend 64)
  suffices hx : ∃ x, mmapFile k fs vs path addr ro noexec ⟨s, []⟩ = some x ∧
      MapEnd pg s path addr ((fsize fs path).signExtend 64) (mapProt ro noexec) x.1 x.2 by
    obtain ⟨x, e, hx⟩ := hx
    exact ⟨x.1, x.2, e, hx⟩
  unfold mmapFile
  generalize (fsize fs path).signExtend 64 = len at hb ⊢
  dsimp only
  rw [hb, Option.map_some]
  refine ⟨_, rfl, ?_⟩
  cases b with
  | true => exact ⟨Or.inl rfl, Or.inl rfl, rfl, Or.inl hs, fun q => absurd rfl q⟩
  | false =>
    rw [if_neg (by simp)]
    by_cases e0 : int (Run.ask k ⟨s, []⟩ .attach).2 ≠ 0
    · rw [if_pos e0]
      rcases hk s .attach with ⟨e1, _⟩ | ⟨_, e1⟩
      · exact absurd e1 e0
      · have : (Run.ask k ⟨s, []⟩ .attach).1 = ⟨s, [.attach]⟩ := by simp [Run.ask, e1]
        rw [this]
        exact ⟨Or.inl rfl, Or.inl rfl, rfl, Or.inl hs, fun q => absurd rfl q⟩
    · rw [if_neg e0]
      rcases hk s .attach with ⟨_, _, e1⟩ | ⟨e1, _⟩
      rotate_left
      · exact absurd e1 e0
      have ea : (Run.ask k ⟨s, []⟩ .attach).1 = ⟨{ s with stopped := true }, [.attach]⟩ := by simp [Run.ask, e1]
      rw [ea]
      have ho := hk { s with stopped := true } (.open path 2)
      have eo : Run.ask k ⟨{ s with stopped := true }, [.attach]⟩ (.open path 2) =
        (⟨(k.ask { s with stopped := true } (.open path 2)).1, [.attach, .open path 2]⟩,
          (k.ask { s with stopped := true } (.open path 2)).2) := rfl
      rw [eo]
      generalize k.ask { s with stopped := true } (.open path 2) = o at ho ⊢
      obtain ⟨w, v⟩ := o
      dsimp only
      by_cases hfd : (v.setWidth 32).toInt ≤ 0
      · rw [if_pos hfd]
        rcases ho with ⟨o1, o2, _⟩ | ⟨_, o3⟩
        · have hz : v.setWidth 32 = 0#32 := by
            apply BitVec.eq_of_toInt_eq
            have hz : (0#32).toInt = 0 := by decide
            change 0 ≤ (v.setWidth 32).toInt at o1
            omega
          exact absurd hstd.1 (by rw [← hz]; exact o2)
        · dsimp only at o3
          rw [o3]
          exact ⟨Or.inl rfl, Or.inl rfl, rfl, Or.inr ⟨rfl, rfl⟩, fun q => absurd rfl q⟩
      · rw [if_neg hfd]
        rcases ho with ⟨_, o2, o3⟩ | ⟨o1, _⟩
        rotate_left
        · simp only [int] at o1
          exact absurd (Int.le_of_lt o1) hfd
        dsimp only at o2 o3
        rw [o3]
        generalize v.setWidth 32 = fd at o2 hfd ⊢
        have hskip : shouldSkipRemoteFd fd = false := by
          unfold shouldSkipRemoteFd
          simp only [Bool.or_eq_false_iff, beq_eq_false_iff_ne]
          exact ⟨⟨fun q => o2 (q ▸ hstd.1), fun q => o2 (q ▸ hstd.2.1)⟩, fun q => o2 (q ▸ hstd.2.2)⟩
        have eft : ∀ r : Run State, ftruncateReq k fd len r =
            (⟨(k.ask r.w (.ftruncate fd len)).1, r.log ++ [.ftruncate fd len]⟩,
              int (k.ask r.w (.ftruncate fd len)).2) := by
          intro r
          unfold ftruncateReq
          rw [hskip]
          rfl
        rw [eft]
        dsimp only
        have ht := hk ⟨s.space, s.file, fd :: s.fds, true⟩ (.ftruncate fd len)
        generalize k.ask ⟨s.space, s.file, fd :: s.fds, true⟩ (.ftruncate fd len) = t at ht ⊢
        obtain ⟨tw, tv⟩ := t
        have htw : ∃ f, tw = ⟨s.space, f, fd :: s.fds, true⟩ ∧ (f = s.file ∨ (0 ≤ len.toInt ∧ f = len.toNat)) := by
          rcases ht with ⟨_, t1, t2⟩ | t2
          · exact ⟨_, t2, Or.inr ⟨t1, rfl⟩⟩
          · exact ⟨_, t2, Or.inl rfl⟩
        obtain ⟨f, rfl, hf⟩ := htw
        dsimp only
        by_cases ht0 : int tv ≠ 0
        · rw [if_pos ht0, closeRet_eq k hskip]
          dsimp only
          have hc := hk ⟨s.space, f, fd :: s.fds, true⟩ (.close fd)
          simp only [Answers] at hc
          rw [hc]
          have hd := hk ⟨s.space, f, (fd :: s.fds).erase fd, true⟩ .detach
          simp only [Answers] at hd
          rw [hd]
          exact ⟨Or.inl rfl, hf, by simp, Or.inl rfl, fun q => absurd rfl q⟩
        · rw [if_neg ht0, closeRet_eq k hskip]
          simp only [ne_eq, Classical.not_not] at ht0
          dsimp only [Run.ask]
          have hm := hk ⟨s.space, f, fd :: s.fds, true⟩ (.mmap addr len (mapProt ro noexec) 2 fd 0)
          generalize k.ask ⟨s.space, f, fd :: s.fds, true⟩ (.mmap addr len (mapProt ro noexec) 2 fd 0) = m at hm ⊢
          obtain ⟨mw, mv⟩ := m
          have hmw : ∃ sp, mw = ⟨sp, f, fd :: s.fds, true⟩ ∧ (sp = s.space ∨
              ∃ a, NewMap pg s { s with space := sp } addr.toNat a len.toNat (mapProt ro noexec)) := by
            rcases hm with ⟨_, m1, m2, m3, m4, m5, obj, m6⟩ | ⟨_, m6⟩
            · exact ⟨_, m6, Or.inr ⟨mv.toNat, m1, m2, m3, m4, m5, obj, rfl⟩⟩
            · exact ⟨_, m6, Or.inl rfl⟩
          obtain ⟨sp, rfl, hsp⟩ := hmw
          dsimp only
          have hc := hk ⟨sp, f, fd :: s.fds, true⟩ (.close fd)
          simp only [Answers] at hc
          rw [hc]
          have hd := hk ⟨sp, f, (fd :: s.fds).erase fd, true⟩ .detach
          simp only [Answers] at hd
          rw [hd]
          exact ⟨hsp, hf, by simp, Or.inl rfl, fun _ => ht0⟩

theorem fsize_small {fs : Fs} {path : List Byte} {n : Nat} (h : fs.size path = some n) (hn : n < 2 ^ 31) :
    ((fsize fs path).signExtend 64).toNat = n := by
  rw [fsize, h]
  have hb : (BitVec.ofNat 32 n).toNat = n := by rw [BitVec.toNat_ofNat]; omega
  have hmsb : (BitVec.ofNat 32 n).msb = false := by
    rw [BitVec.msb_eq_decide, hb]; simp; omega
  dsimp only
  rw [BitVec.signExtend_eq_setWidth_of_msb_false hmsb, BitVec.toNat_setWidth, hb]
  omega

/-- **C65**, partial: on every kernel, for every process that is not being traced and has
its standard descriptors open, any known mappings, and a file of less than 2 GiB.
Nothing that was mapped changes: the address space is as before, or the whole file is
mapped where nothing was, with the protection asked for, and at the address asked for
if that is the beginning of a page and there is room.  The file is as long as before,
and no descriptor is left open.  If something is mapped, success is reported.  Missing:
that success means that the file is mapped (`C65_silent`) and where it was asked for
(`C65_elsewhere`), that the process runs again (`C65_stuck`), larger files
(`C65_truncates`), and that free memory is not refused (`C65_refused`). -/
theorem C65_map_partial {pg : Nat} {k : Kern State} (hk : Lawful pg k) (fs : Fs) {vs : Vmas} {abs : Abs}
    (h : Reach vs abs) (path : List Byte) (addr : BitVec 64) (ro noexec : Bool) (s : State) (hs : s.stopped = false)
    (hstd : 0#32 ∈ s.fds ∧ 1#32 ∈ s.fds ∧ 2#32 ∈ s.fds) (hf : fs.size path = some s.file) (hlt : s.file < 2 ^ 31) :
    ∃ r ret, mmapFile k fs vs path addr ro noexec ⟨s, []⟩ = some (r, ret) ∧
      (r.w.space = s.space ∨
        (ret = 0 ∧ ∃ a, NewMap pg s { s with space := r.w.space } addr.toNat a s.file (askedProt ro noexec))) ∧
      r.w.file = s.file ∧ r.w.fds = s.fds ∧
      (r.w.stopped = false ∨ (r.log = [.attach, .open path 2] ∧ ret = -1)) := by
  obtain ⟨r, ret, e, hm⟩ := map_end hk fs h path addr ro noexec s hs hstd
  refine ⟨r, ret, e, ?_, ?_, hm.fds, hm.stopped⟩
  · by_cases hsp : r.w.space = s.space
    · exact Or.inl hsp
    · rcases hm.space with hx | ⟨a, hx⟩
      · exact absurd hx hsp
      · rw [fsize_small hf hlt, mapProt_eq] at hx
        exact Or.inr ⟨hm.new hsp, a, hx⟩
  · rcases hm.file with hx | ⟨_, hx⟩
    · exact hx
    · rw [hx, fsize_small hf hlt]

/-- The requests made if none of the first three fails. -/
theorem map_path {W : Type} (k : Kern W) (fs : Fs) {vs : Vmas} {path : List Byte} {addr len : BitVec 64}
    (ro noexec : Bool) (w : W) (hlen : (fsize fs path).signExtend 64 = len) (hb : mapInUse vs addr len = some false)
    (ha : int (k.ask w .attach).2 = 0) {w2 : W} {fd : BitVec 32} {v : BitVec 64}
    (ho : k.ask (k.ask w .attach).1 (.open path 2) = (w2, v)) (hv : v.setWidth 32 = fd) (hfd : 0 < fd.toInt)
    (hskip : shouldSkipRemoteFd fd = false) (ht : int (k.ask w2 (.ftruncate fd len)).2 = 0) :
    mmapFile k fs vs path addr ro noexec ⟨w, []⟩ =
      some (⟨(k.ask (k.ask (k.ask (k.ask w2 (.ftruncate fd len)).1 (.mmap addr len (mapProt ro noexec) 2 fd 0)).1
        (.close fd)).1 .detach).1,
        [.attach, .open path 2, .ftruncate fd len, .mmap addr len (mapProt ro noexec) 2 fd 0, .close fd, .detach]⟩,
        0) := by
  unfold mmapFile
  dsimp only
  rw [hlen, hb, Option.map_some, if_neg (by simp),
    if_neg (show ¬ int (Run.ask k ⟨w, []⟩ .attach).2 ≠ 0 from fun q => q ha)]
  have eo : Run.ask k (Run.ask k ⟨w, []⟩ .attach).1 (.open path 2) = (⟨w2, [.attach, .open path 2]⟩, v) := by
    simp only [Run.ask, ho]; rfl
  rw [eo]
  dsimp only
  rw [hv, if_neg (by omega)]
  have eft : ftruncateReq k fd len ⟨w2, [.attach, .open path 2]⟩ =
      (⟨(k.ask w2 (.ftruncate fd len)).1, [.attach, .open path 2, .ftruncate fd len]⟩, 0) := by
    unfold ftruncateReq
    rw [hskip]
    simp [Run.ask, ht]
  rw [eft]
  dsimp only
  rw [if_neg (by simp), closeRet_eq k hskip]
  rfl

/-- **C65**, what is missing: if the call fails, success is reported, for every kernel
and process in which the other requests succeed. -/
theorem C65_silent {pg : Nat} {k : Kern State} (hk : Lawful pg k) (fs : Fs) {vs : Vmas} {path : List Byte}
    {addr len : BitVec 64} (ro noexec : Bool) (s : State) (hlen : (fsize fs path).signExtend 64 = len)
    (hb : mapInUse vs addr len = some false)
    (ha : int (k.ask s .attach).2 = 0) {w2 : State} {fd : BitVec 32} {v : BitVec 64}
    (ho : k.ask (k.ask s .attach).1 (.open path 2) = (w2, v)) (hv : v.setWidth 32 = fd) (hfd : 0 < fd.toInt)
    (hskip : shouldSkipRemoteFd fd = false) (ht : int (k.ask w2 (.ftruncate fd len)).2 = 0)
    (hm : IsErr (k.ask (k.ask w2 (.ftruncate fd len)).1 (.mmap addr len (mapProt ro noexec) 2 fd 0)).2) :
    ∃ r, mmapFile k fs vs path addr ro noexec ⟨s, []⟩ = some (r, 0) ∧ r.w.space = s.space := by
  refine ⟨_, map_path k fs ro noexec s hlen hb ha ho hv hfd hskip ht, ?_⟩
  have h1 : (k.ask s .attach).1.space = s.space := by
    rcases hk s .attach with ⟨_, _, e⟩ | ⟨_, e⟩ <;> rw [e]
  have h2 : w2.space = s.space := by
    have := hk (k.ask s .attach).1 (.open path 2)
    rw [ho] at this
    rcases this with ⟨_, _, e⟩ | ⟨_, e⟩ <;> (dsimp only at e; rw [e]; exact h1)
  have h3 : (k.ask w2 (.ftruncate fd len)).1.space = s.space := by
    rcases hk w2 (.ftruncate fd len) with ⟨_, _, e⟩ | e <;> (rw [e]; exact h2)
  have h4 := hk (k.ask w2 (.ftruncate fd len)).1 (.mmap addr len (mapProt ro noexec) 2 fd 0)
  generalize k.ask (k.ask w2 (.ftruncate fd len)).1 (.mmap addr len (mapProt ro noexec) 2 fd 0) = m at hm h4
  dsimp only
  have hc := hk m.1 (.close fd)
  simp only [Answers] at hc
  have hd := hk (k.ask m.1 (.close fd)).1 .detach
  simp only [Answers] at hd
  rw [hd, hc]
  rcases h4 with ⟨n, _⟩ | ⟨_, e⟩
  · exact absurd hm n
  · rw [e]; exact h3

/-- **C65**, what is missing: if not the whole region is free, but no known mapping
contains its first address or the one behind its last, the file is mapped elsewhere and
success is reported. -/
theorem C65_elsewhere {pg : Nat} {k : Kern State} (hk : Lawful pg k) (fs : Fs) {vs : Vmas} {path : List Byte}
    {addr len : BitVec 64} (ro noexec : Bool) (s : State) (hlen : (fsize fs path).signExtend 64 = len)
    (hb : mapInUse vs addr len = some false) (hnf : ¬ Free pg s addr.toNat len.toNat)
    (ha : int (k.ask s .attach).2 = 0) {w2 : State} {fd : BitVec 32} {v : BitVec 64}
    (ho : k.ask (k.ask s .attach).1 (.open path 2) = (w2, v)) (hv : v.setWidth 32 = fd) (hfd : 0 < fd.toInt)
    (hskip : shouldSkipRemoteFd fd = false) (ht : int (k.ask w2 (.ftruncate fd len)).2 = 0)
    (hm : ¬ IsErr (k.ask (k.ask w2 (.ftruncate fd len)).1 (.mmap addr len (mapProt ro noexec) 2 fd 0)).2)
    (hm0 : (k.ask (k.ask w2 (.ftruncate fd len)).1 (.mmap addr len (mapProt ro noexec) 2 fd 0)).2 ≠ 0) :
    ∃ r a, mmapFile k fs vs path addr ro noexec ⟨s, []⟩ = some (r, 0) ∧ a ≠ addr.toNat ∧
      NewMap pg s { s with space := r.w.space } addr.toNat a len.toNat (askedProt ro noexec) := by
  refine ⟨_, (k.ask (k.ask w2 (.ftruncate fd len)).1 (.mmap addr len (mapProt ro noexec) 2 fd 0)).2.toNat,
    map_path k fs ro noexec s hlen hb ha ho hv hfd hskip ht, ?_⟩
  have h1 : (k.ask s .attach).1.space = s.space := by
    rcases hk s .attach with ⟨_, _, e⟩ | ⟨_, e⟩ <;> rw [e]
  have h2 : w2.space = s.space := by
    have := hk (k.ask s .attach).1 (.open path 2)
    rw [ho] at this
    rcases this with ⟨_, _, e⟩ | ⟨_, e⟩ <;> (dsimp only at e; rw [e]; exact h1)
  have h3 : (k.ask w2 (.ftruncate fd len)).1.space = s.space := by
    rcases hk w2 (.ftruncate fd len) with ⟨_, _, e⟩ | e <;> (rw [e]; exact h2)
  have h4 := hk (k.ask w2 (.ftruncate fd len)).1 (.mmap addr len (mapProt ro noexec) 2 fd 0)
  generalize k.ask (k.ask w2 (.ftruncate fd len)).1 (.mmap addr len (mapProt ro noexec) 2 fd 0) = m at hm hm0 h4 ⊢
  dsimp only
  have hc := hk m.1 (.close fd)
  simp only [Answers] at hc
  have hd := hk (k.ask m.1 (.close fd)).1 .detach
  simp only [Answers] at hd
  rw [hd, hc]
  have hfree : ∀ a l, Free pg (k.ask w2 (.ftruncate fd len)).1 a l ↔ Free pg s a l := by
    intro a l
    simp only [Free, h3]
  rcases h4 with ⟨_, m1, m2, m3, m4, m5, obj, m6⟩ | ⟨q | q, _⟩
  · rw [hfree] at m4
    refine ⟨fun e => hnf (by rw [← e]; exact m4), m1, m2, m3, m4, ?_, obj, ?_⟩
    · intro a b c
      exact m5 a b ((hfree _ _).2 c)
    · rw [m6]
      simp only [State.change, h3, mapProt_eq]
  · exact absurd q hm
  · exact absurd q hm0

/-- **C65**, what is missing: if the file cannot be opened in the process, the process
is left stopped. -/
theorem C65_stuck {W : Type} {k : Kern W} (fs : Fs) {vs : Vmas} {path : List Byte} {addr : BitVec 64} (ro noexec : Bool)
    (w : W) (hb : mapInUse vs addr ((fsize fs path).signExtend 64) = some false)
    (ha : int (k.ask w .attach).2 = 0) (ho : int (k.ask (k.ask w .attach).1 (.open path 2)).2 ≤ 0) :
    ∃ r, mmapFile k fs vs path addr ro noexec ⟨w, []⟩ = some (r, -1) ∧ r.log = [.attach, .open path 2] := by
  unfold mmapFile
  dsimp only
  rw [hb, Option.map_some, if_neg (by simp),
    if_neg (show ¬ int (Run.ask k ⟨w, []⟩ .attach).2 ≠ 0 from fun q => q ha)]
  refine ⟨_, congrArg some (if_pos ?_), rfl⟩
  exact ho

/-- **C65**, what is missing: a file of 4 GiB or more is cut off.  Its length becomes
the rest of its length modulo 4 GiB, for every kernel and process in which the
requests succeed. -/
theorem C65_truncates {pg : Nat} {k : Kern State} (hk : Lawful pg k) (fs : Fs) {vs : Vmas} {path : List Byte}
    {addr len : BitVec 64} (ro noexec : Bool) (s : State) (hf : fs.size path = some s.file)
    (hlt : s.file % 2 ^ 32 < 2 ^ 31) (hlen : (fsize fs path).signExtend 64 = len)
    (hb : mapInUse vs addr len = some false)
    (ha : int (k.ask s .attach).2 = 0) {w2 : State} {fd : BitVec 32} {v : BitVec 64}
    (ho : k.ask (k.ask s .attach).1 (.open path 2) = (w2, v)) (hv : v.setWidth 32 = fd) (hfd : 0 < fd.toInt)
    (hskip : shouldSkipRemoteFd fd = false) (ht : int (k.ask w2 (.ftruncate fd len)).2 = 0)
    (hdone : (k.ask w2 (.ftruncate fd len)).1 ≠ w2) :
    ∃ r, mmapFile k fs vs path addr ro noexec ⟨s, []⟩ = some (r, 0) ∧ r.w.file = s.file % 2 ^ 32 := by
  refine ⟨_, map_path k fs ro noexec s hlen hb ha ho hv hfd hskip ht, ?_⟩
  have hl : len.toNat = s.file % 2 ^ 32 := by
    rw [← hlen, fsize, hf]
    have hb : (BitVec.ofNat 32 s.file).toNat = s.file % 2 ^ 32 := by rw [BitVec.toNat_ofNat]
    have hmsb : (BitVec.ofNat 32 s.file).msb = false := by
      rw [BitVec.msb_eq_decide, hb]; simp; omega
    dsimp only
    rw [BitVec.signExtend_eq_setWidth_of_msb_false hmsb, BitVec.toNat_setWidth, hb]
    omega
  have h3 : (k.ask w2 (.ftruncate fd len)).1.file = s.file % 2 ^ 32 := by
    rcases hk w2 (.ftruncate fd len) with ⟨_, _, e⟩ | e
    · rw [e]; exact hl
    · exact absurd e hdone
  have h4 := hk (k.ask w2 (.ftruncate fd len)).1 (.mmap addr len (mapProt ro noexec) 2 fd 0)
  generalize k.ask (k.ask w2 (.ftruncate fd len)).1 (.mmap addr len (mapProt ro noexec) 2 fd 0) = m at h4 ⊢
  dsimp only
  have hc := hk m.1 (.close fd)
  simp only [Answers] at hc
  have hd := hk (k.ask m.1 (.close fd)).1 .detach
  simp only [Answers] at hd
  rw [hd, hc]
  rcases h4 with ⟨_, _, _, _, _, _, obj, e⟩ | ⟨_, e⟩ <;> rw [e]
  · simp only [State.change]; exact h3
  · exact h3

end Ulp.Ultask
