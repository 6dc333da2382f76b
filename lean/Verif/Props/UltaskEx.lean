/-
Examples for C64, C65, C66: the hypotheses of the theorems are met, on the example
kernel of `Verif.Spec.LinuxEx`.
-/
import Verif.Props.Ultask
namespace Ulp.Ultask
open Ulp.Vma (Vmas findVma Reach Abs rangeOf VOp AllOK OK specRun specStep Good)
open Ulp.Range
open Ulp.Linux
open Ulp.Ptrace (shouldSkipRemoteFd)

/-- Two mappings with a hole of two pages between them. -/
def twoMaps : Known := [(2, ⟨0x13000, 0x15000⟩), (1, ⟨0x10000, 0x11000⟩)]

theorem two_reach : ∃ vs, Reach vs ⟨twoMaps, [1, 2]⟩ := by
  have ho : AllOK ⟨[], []⟩ [.insert 1 0 0x10000 0x11000 [], .insert 2 1 0x13000 0x15000 []] := by
    simp [AllOK, OK, specStep]
  obtain ⟨s, t, e, _⟩ := Good.run _ (Good.init fun _ => ⟨0, 0, [], 0⟩) ho
  refine ⟨s, _, _, ho, e, ?_⟩
  have hap : Apart ⟨0x10000, 0x11000⟩ ⟨0x13000, 0x15000⟩ := by
    intro a
    simp only [Range.Has]
    omega
  simp [specRun, specStep, hap, twoMaps]

/-- The process: the pages of these mappings, a file of 5000 bytes. -/
def st : State where
  space p := if p = 0x10 ∨ p = 0x13 ∨ p = 0x14 then some ⟨5, p⟩ else none
  file := 5000
  fds := [0, 1, 2]
  stopped := false

theorem st_space (p : Nat) : st.space p = if p = 0x10 ∨ p = 0x13 ∨ p = 0x14 then some ⟨5, p⟩ else none := rfl

/-- The same while it is stopped. -/
def stS : State := { st with stopped := true }

theorem stS_space : stS.space = st.space := rfl

def okAll : Req → Bool := fun _ => false

theorem lx_attach (pick : Nat) : (lx 4096 pick okAll).ask st .attach = (stS, 0) := by
  simp [lx, st, stS, okAll]

theorem in1 : InMap twoMaps 0x10000 := ⟨(1, _), List.mem_cons_of_mem _ List.mem_cons_self, by simp [Range.Has]⟩
theorem in2 : InMap twoMaps (0x10000 + 0x3000) := ⟨(2, _), List.mem_cons_self, by simp [Range.Has]⟩
theorem in3 : InMap twoMaps 0x13000 := ⟨(2, _), List.mem_cons_self, by simp [Range.Has]⟩
theorem in4 : InMap twoMaps (0x13000 + 0x1000) := ⟨(2, _), List.mem_cons_self, by simp [Range.Has]⟩

theorem lx_detach (pick : Nat) (deny : Req → Bool) (s : State) :
    (lx 4096 pick deny).ask s .detach = ({ s with stopped := false }, 0) := rfl

/-- C64: one page of the second mapping becomes readable only. -/
example : ∃ vs, Reach vs ⟨twoMaps, [1, 2]⟩ ∧ ∃ r,
    mprotectRegion (lx 4096 0 okAll) vs 0x13000 0x1000 1 ⟨st, []⟩ = some (r, 0) ∧
      r.w.space 0x13 = some ⟨1, 0x13⟩ ∧ r.w.space 0x14 = some ⟨5, 0x14⟩ := by
  obtain ⟨vs, h⟩ := two_reach
  have hm : Mapped 4096 stS 0x13000 0x1000 := by
    intro p hp
    have : p = 0x13 := by simp only [Touches] at hp; omega
    subst this
    simp [stS_space, st]
  have ek : (lx 4096 0 okAll).ask stS (.mprotect 0x13000 0x1000 ((1 : BitVec 64).setWidth 32)) =
      (stS.change 4096 0x13000 0x1000 fun _ q => q.map fun q => { q with prot := 1 }, 0) := by
    simp only [lx]
    rw [if_pos ⟨by decide, hm, rfl⟩]
    rfl
  have e := mprotect_attached (lx 4096 0 okAll) h 0x13000 0x1000 1 ⟨st, []⟩ (by decide) (by decide) in3 in4
    (by rw [lx_attach]; decide)
  dsimp only at e
  rw [lx_attach] at e
  dsimp only at e
  rw [ek] at e
  dsimp only at e
  rw [lx_detach, show int 0 = 0 by decide] at e
  exact ⟨vs, h, _, e, by simp [State.change, Touches, stS_space, st], by simp [State.change, Touches, stS_space, st]⟩

/-- C64_end_refused: the whole second mapping; nothing is mapped behind it. -/
example : ∃ vs, Reach vs ⟨twoMaps, [1, 2]⟩ ∧
    mprotectRegion (lx 4096 0 okAll) vs 0x13000 0x2000 1 ⟨st, []⟩ = some (⟨st, []⟩, -22) := by
  obtain ⟨vs, h⟩ := two_reach
  refine ⟨vs, h, C64_refused _ h _ _ _ _ (Or.inr (Or.inr (Or.inr ?_)))⟩
  rintro ⟨q, hq, hh⟩
  simp only [twoMaps, List.mem_cons, List.not_mem_nil, or_false] at hq
  rcases hq with rfl | rfl <;> simp [Range.Has] at hh

/-- C64_hole: a region over the hole is not refused.  The call fails and its first page
has changed. -/
example : ∃ vs, Reach vs ⟨twoMaps, [1, 2]⟩ ∧ ∃ r,
    mprotectRegion (lx 4096 0 okAll) vs 0x10000 0x3000 1 ⟨st, []⟩ = some (r, -12) ∧
      r.w.space 0x10 = some ⟨1, 0x10⟩ ∧ r.w.space 0x11 = none := by
  obtain ⟨vs, h⟩ := two_reach
  have hm : ¬ Mapped 4096 stS 0x10000 0x3000 := by
    intro hm
    exact hm 0x11 (by simp [Touches]) (by simp [stS_space, st])
  have ek : (lx 4096 0 okAll).ask stS (.mprotect 0x10000 0x3000 ((1 : BitVec 64).setWidth 32)) = (stS.change 4096 0x10000 0x3000
      fun p q => if decide (∀ i, i ≤ p → Touches 4096 0x10000 0x3000 i → stS.space i ≠ none) then
        q.map fun q => { q with prot := 1 } else q, -12) := by
    simp only [lx]
    rw [if_neg (fun q => hm q.2.1), if_neg (by simp [okAll])]
    rfl
  have e := mprotect_attached (lx 4096 0 okAll) h 0x10000 0x3000 1 ⟨st, []⟩ (by decide) (by decide) in1 in2
    (by rw [lx_attach]; decide)
  dsimp only at e
  rw [lx_attach] at e
  dsimp only at e
  rw [ek] at e
  dsimp only at e
  rw [lx_detach, show int (-12) = -12 by decide] at e
  refine ⟨vs, h, _, e, ?_, ?_⟩
  · simp only [State.change]
    rw [if_pos (by simp [Touches]), if_pos]
    · rfl
    · rw [decide_eq_true_iff]
      intro i h1 h2
      have : i = 0x10 := by simp only [Touches] at h2; omega
      subst this
      simp [stS_space, st]
  · simp [State.change, Touches, stS_space, st]

/-! ### C66 -/

/-- Every name is that of a file of 8192 bytes. -/
def fs2 : Fs := ⟨fun _ => true, fun _ => some 8192⟩

/-- No name is that of a file. -/
def fs0 : Fs := ⟨fun _ => false, fun _ => none⟩

theorem find2 {vs : Vmas} (h : Reach vs ⟨twoMaps, [1, 2]⟩) :
    ∃ v, v ≠ 0 ∧ findVma vs 0x13000 = some v ∧ (vs.info v).start = 0x13000 ∧ (vs.info v).stop = 0x15000 := by
  rcases find_cases h 0x13000 with ⟨_, hn⟩ | ⟨v, v0, ev, hm, hh⟩
  · exact absurd in3 hn
  · refine ⟨v, v0, ev, ?_⟩
    simp only [twoMaps, List.mem_cons, List.not_mem_nil, or_false, Prod.mk.injEq] at hm
    rcases hm with ⟨_, hm⟩ | ⟨_, hm⟩
    · simp only [rangeOf, Range.mk.injEq] at hm
      exact ⟨BitVec.eq_of_toNat_eq hm.1, BitVec.eq_of_toNat_eq hm.2⟩
    · rw [hm] at hh
      simp [Range.Has] at hh

theorem find1 {vs : Vmas} (h : Reach vs ⟨twoMaps, [1, 2]⟩) :
    ∃ v, v ≠ 0 ∧ findVma vs 0x10000 = some v ∧ (vs.info v).start = 0x10000 ∧ (vs.info v).stop = 0x11000 := by
  rcases find_cases h 0x10000 with ⟨_, hn⟩ | ⟨v, v0, ev, hm, hh⟩
  · exact absurd in1 hn
  · refine ⟨v, v0, ev, ?_⟩
    simp only [twoMaps, List.mem_cons, List.not_mem_nil, or_false, Prod.mk.injEq] at hm
    rcases hm with ⟨_, hm⟩ | ⟨_, hm⟩
    · rw [hm] at hh
      simp [Range.Has] at hh
    · simp only [rangeOf, Range.mk.injEq] at hm
      exact ⟨BitVec.eq_of_toNat_eq hm.1, BitVec.eq_of_toNat_eq hm.2⟩

theorem lx_munmap (a l : BitVec 64) (ha : a.toNat % 4096 = 0) (hl : 0 < l.toNat) :
    (lx 4096 0 okAll).ask stS (.munmap a l) = (stS.change 4096 a.toNat l.toNat fun _ _ => none, 0) := by
  simp only [lx]
  rw [if_pos ⟨ha, hl, rfl⟩]

/-- C66_unmap_partial: the second mapping is unmapped, the first stays. -/
example : ∃ vs, Reach vs ⟨twoMaps, [1, 2]⟩ ∧ ∃ r,
    munmapVma (lx 4096 0 okAll) fs0 vs 0x13000 ⟨st, []⟩ = some (r, 0) ∧
      r.w.space 0x13 = none ∧ r.w.space 0x14 = none ∧ r.w.space 0x10 = some ⟨5, 0x10⟩ := by
  obtain ⟨vs, h⟩ := two_reach
  obtain ⟨v, v0, ev, e1, e2⟩ := find2 h
  have e := munmap_found (lx 4096 0 okAll) fs0 v0 ev ⟨st, []⟩ (by rw [lx_attach]; decide) rfl
  rw [if_neg (by simp [fs0]), e1, e2] at e
  dsimp only at e
  rw [lx_attach] at e
  dsimp only at e
  rw [lx_munmap _ _ (by decide) (by decide), lx_detach] at e
  refine ⟨vs, h, _, e, ?_, ?_, ?_⟩ <;> simp [State.change, Touches, stS_space, st]

/-- C66_neighbour: the first mapping is one page of a file of two pages.  Unmapping it
takes two pages. -/
example : ∃ vs, Reach vs ⟨twoMaps, [1, 2]⟩ ∧ ∃ r,
    munmapVma (lx 4096 0 okAll) fs2 vs 0x10000 ⟨{ st with space := fun p => some ⟨5, p⟩ }, []⟩ = some (r, 0) ∧
      r.w.space 0x11 = none := by
  obtain ⟨vs, h⟩ := two_reach
  obtain ⟨v, v0, ev, e1, e2⟩ := find1 h
  have hat : (lx 4096 0 okAll).ask { st with space := fun p => some ⟨5, p⟩ } .attach =
      ({ stS with space := fun p => some ⟨5, p⟩ }, 0) := by simp [lx, st, stS, okAll]
  have e := munmap_found (lx 4096 0 okAll) fs2 v0 ev ⟨{ st with space := fun p => some ⟨5, p⟩ }, []⟩
    (by rw [hat]; decide) rfl
  rw [if_pos (by simp [fs2]), e1] at e
  dsimp only at e
  rw [hat] at e
  have ek : (lx 4096 0 okAll).ask { stS with space := fun p => some ⟨5, p⟩ }
      (.munmap 0x10000 ((fsize fs2 (vs.info v).name).signExtend 64)) =
      (State.change 4096 { stS with space := fun p => some ⟨5, p⟩ } 0x10000 8192 fun _ _ => none, 0) := by
    have : (fsize fs2 (vs.info v).name).signExtend 64 = 8192 := by simp [fsize, fs2]
    rw [this]
    simp only [lx]
    rw [if_pos ⟨by decide, by decide, rfl⟩]
    rfl
  dsimp only at e
  rw [ek, lx_detach] at e
  exact ⟨vs, h, _, e, by simp [State.change, Touches]⟩

/-- C66_silent: a kernel that does not unmap. -/
example : ∃ vs r, Reach vs ⟨twoMaps, [1, 2]⟩ ∧
    munmapVma (lx 4096 0 fun q => q matches .munmap _ _) fs0 vs 0x13000 ⟨st, []⟩ = some (r, 0) ∧ r.w = st := by
  obtain ⟨vs, h⟩ := two_reach
  obtain ⟨r, e, e2⟩ := C66_silent (lx_lawful 4096 0 fun q => q matches .munmap _ _) fs0 h 0x13000 st rfl in3
    (by simp [lx, st]; decide) (by intro s a l; simp [lx]; decide)
  exact ⟨vs, r, h, e, e2⟩

/-! ### C65 -/

/-- Every name is that of a file of 5000 bytes. -/
def fs5 : Fs := ⟨fun _ => true, fun _ => some 5000⟩

/-- The process while it is stopped, has the file open as 3, and the file has `n` bytes. -/
def stO (n : Nat) : State := ⟨st.space, n, [3, 0, 1, 2], true⟩

theorem lx_open (pick n : Nat) (deny : Req → Bool) (path : List Byte) (hd : deny (.open path 2) = false) :
    (lx 4096 pick deny).ask { stS with file := n } (.open path 2) = (stO n, 3) := by
  simp only [lx]
  rw [if_neg (by rw [hd]; simp [stS, st])]
  rfl

theorem lx_ftruncate (pick n : Nat) (deny : Req → Bool) (fd : BitVec 32) (len : BitVec 64)
    (h : 0 ≤ len.toInt) (hd : deny (.ftruncate fd len) = false) :
    (lx 4096 pick deny).ask (stO n) (.ftruncate fd len) = (stO len.toNat, 0) := by
  simp only [lx]
  rw [if_pos ⟨h, hd⟩]
  rfl

theorem lxAddr_hint {pg pick hint len : Nat} {s : State} (h : hint ≠ 0) (h2 : hint % pg = 0) (h3 : Free pg s hint len) :
    lxAddr pg pick s hint len = hint := if_pos ⟨h, h2, h3⟩

theorem lxAddr_pick {pg pick hint len : Nat} {s : State} (h : ¬ Free pg s hint len) :
    lxAddr pg pick s hint len = pick := if_neg fun q => h q.2.2

/-- The address 0x20000 is free for two pages. -/
theorem free2 : Free 4096 (stO 5000) 0x20000 5000 := by
  intro p hp
  have : p = 0x20 ∨ p = 0x21 := by simp only [Touches] at hp; omega
  rcases this with rfl | rfl <;> simp [stO, st]

theorem out1 : ¬ InMap twoMaps 0x20000 := by
  rintro ⟨q, hq, hh⟩
  simp only [twoMaps, List.mem_cons, List.not_mem_nil, or_false] at hq
  rcases hq with rfl | rfl <;> simp [Range.Has] at hh

theorem out2 : ¬ InMap twoMaps (0x20000 + 5000) := by
  rintro ⟨q, hq, hh⟩
  simp only [twoMaps, List.mem_cons, List.not_mem_nil, or_false] at hq
  rcases hq with rfl | rfl <;> simp [Range.Has] at hh

theorem len5 : (fsize fs5 []).signExtend 64 = 5000 := by simp [fsize, fs5]

theorem skip3 : shouldSkipRemoteFd 3 = false := by decide

/-- C65_map_partial: the file is mapped at 0x20000, not executable. -/
example : ∃ vs, Reach vs ⟨twoMaps, [1, 2]⟩ ∧ ∃ r,
    mmapFile (lx 4096 0 okAll) fs5 vs [] 0x20000 false true ⟨st, []⟩ = some (r, 0) ∧
      r.w.space 0x20 = some ⟨3, 0⟩ ∧ r.w.space 0x21 = some ⟨3, 0⟩ ∧ r.w.space 0x22 = none ∧
      r.w.stopped = false ∧ r.w.fds = [0, 1, 2] := by
  obtain ⟨vs, h⟩ := two_reach
  have hat : int ((lx 4096 0 okAll).ask st .attach).2 = 0 := by rw [lx_attach]; decide
  have ho : (lx 4096 0 okAll).ask ((lx 4096 0 okAll).ask st .attach).1 (.open [] 2) = (stO 5000, 3) := by
    rw [lx_attach]; exact lx_open 0 5000 okAll [] rfl
  have ht := lx_ftruncate 0 5000 okAll 3 5000 (by decide) rfl
  have e := map_path (lx 4096 0 okAll) fs5 false true st len5 (mapInUse_false h out1 out2) hat ho
    (fd := 3) (by decide) (by decide) skip3 (by rw [ht]; decide)
  rw [ht] at e
  have hm : (lx 4096 0 okAll).ask (stO 5000) (.mmap 0x20000 5000 (mapProt false true) 2 3 0) =
      ((stO 5000).change 4096 0x20000 5000 fun _ _ => some ⟨3, 0⟩, 0x20000) := by
    have ha : lxAddr 4096 0 (stO 5000) (BitVec.toNat (0x20000 : BitVec 64)) (BitVec.toNat (5000 : BitVec 64)) = 0x20000 :=
      lxAddr_hint (by decide) (by decide) free2
    simp only [lx]
    rw [ha, if_pos ⟨by decide, by decide, by decide, free2, by decide, rfl⟩]
    rfl
  dsimp only at e
  rw [show BitVec.toNat (5000 : BitVec 64) = 5000 from rfl, hm] at e
  refine ⟨vs, h, _, e, ?_, ?_, ?_, ?_, ?_⟩ <;> simp [lx, State.change, Touches, stO, st, okAll]

/-- C65_stuck: the file cannot be opened; the process is left stopped. -/
example : ∃ vs, Reach vs ⟨twoMaps, [1, 2]⟩ ∧ ∃ r,
    mmapFile (lx 4096 0 fun q => q matches .open _ _) fs5 vs [] 0x20000 false true ⟨st, []⟩ = some (r, -1) ∧
      r.log = [.attach, .open [] 2] := by
  obtain ⟨vs, h⟩ := two_reach
  obtain ⟨r, e, e2⟩ := C65_stuck (k := lx 4096 0 fun q => q matches .open _ _) fs5 (path := []) false true st
    (by rw [len5]; exact mapInUse_false h out1 out2) (by simp [lx, st]; decide) (by simp [lx, st]; decide)
  exact ⟨vs, h, r, e, e2⟩

/-- C65_silent: a kernel that does not map. -/
example : ∃ vs, Reach vs ⟨twoMaps, [1, 2]⟩ ∧ ∃ r,
    mmapFile (lx 4096 0 fun q => q matches .mmap _ _ _ _ _ _) fs5 vs [] 0x20000 false true ⟨st, []⟩ = some (r, 0) ∧
      r.w.space = st.space := by
  obtain ⟨vs, h⟩ := two_reach
  have hat : (lx 4096 0 fun q => q matches .mmap _ _ _ _ _ _).ask st .attach = (stS, 0) := by simp [lx, st, stS]
  obtain ⟨r, e, e2⟩ := C65_silent (lx_lawful 4096 0 fun q => q matches .mmap _ _ _ _ _ _) fs5 (path := []) false true st
    len5 (mapInUse_false h out1 out2) (by rw [hat]; decide)
    (show _ = (stO 5000, 3#64) by rw [hat]; exact lx_open 0 5000 _ [] rfl) (fd := 3) (by decide) (by decide) skip3
    (by rw [lx_ftruncate _ _ _ _ _ (by decide) rfl]; decide)
    (by simp only [lx]; rw [if_neg (by simp)]; exact isErr_12)
  exact ⟨vs, h, r, e, e2⟩

/-- Every name is that of a file of three pages. -/
def fs3 : Fs := ⟨fun _ => true, fun _ => some 0x3000⟩

/-- 0xf000-0x12000 is not free: the first mapping is in it. -/
theorem nfree {s : State} (e : s.space = st.space) : ¬ Free 4096 s 0xf000 0x3000 := by
  intro h
  have := h 0x10 (by simp [Touches])
  rw [e] at this
  simp [st] at this

/-- C65_elsewhere: 0xf000-0x12000 has the first mapping in its middle, but neither end is
in a mapping.  The file is mapped elsewhere, and success is reported. -/
example : ∃ vs, Reach vs ⟨twoMaps, [1, 2]⟩ ∧ ∃ r a,
    mmapFile (lx 4096 0x700000 okAll) fs3 vs [] 0xf000 false false ⟨st, []⟩ = some (r, 0) ∧ a ≠ 0xf000 ∧
      NewMap 4096 st { st with space := r.w.space } 0xf000 a 0x3000 7 := by
  obtain ⟨vs, h⟩ := two_reach
  have o1 : ¬ InMap twoMaps 0xf000 := by
    rintro ⟨q, hq, hh⟩
    simp only [twoMaps, List.mem_cons, List.not_mem_nil, or_false] at hq
    rcases hq with rfl | rfl <;> simp [Range.Has] at hh
  have o2 : ¬ InMap twoMaps (0xf000 + 0x3000) := by
    rintro ⟨q, hq, hh⟩
    simp only [twoMaps, List.mem_cons, List.not_mem_nil, or_false] at hq
    rcases hq with rfl | rfl <;> simp [Range.Has] at hh
  have hft := lx_ftruncate 0x700000 5000 okAll 3 0x3000 (by decide) rfl
  have hfr : Free 4096 (stO 0x3000) 0x700000 0x3000 := by
    intro p hp
    simp only [Touches] at hp
    simp only [stO, st]
    rw [if_neg (by omega)]
  have hm : ((lx 4096 0x700000 okAll).ask (stO 0x3000) (.mmap 0xf000 0x3000 (mapProt false false) 2 3 0)).2 = 0x700000 := by
    have ha : lxAddr 4096 0x700000 (stO 0x3000) (BitVec.toNat (0xf000 : BitVec 64)) (BitVec.toNat (0x3000 : BitVec 64)) =
        0x700000 := lxAddr_pick (nfree rfl)
    simp only [lx]
    rw [ha, if_pos ⟨by decide, by decide, by decide, hfr, by decide, rfl⟩]
    rfl
  have ho : (lx 4096 0x700000 okAll).ask ((lx 4096 0x700000 okAll).ask st .attach).1 (.open [] 2) = (stO 5000, 3) := by
    rw [lx_attach]; exact lx_open _ 5000 _ _ rfl
  obtain ⟨r, a, e, e2, e3⟩ := C65_elsewhere (lx_lawful 4096 0x700000 okAll) fs3 (path := []) (len := 0x3000) false false st
    (by simp [fsize, fs3]) (mapInUse_false h o1 o2) (nfree rfl) (by rw [lx_attach]; decide)
    ho (fd := 3) (by decide) (by decide) skip3
    (by rw [hft]; decide)
    (by rw [hft]; refine fun q => absurd q ?_; rw [show BitVec.toNat (0x3000 : BitVec 64) = 0x3000 from rfl, hm]; unfold IsErr; decide)
    (by rw [hft]; rw [show BitVec.toNat (0x3000 : BitVec 64) = 0x3000 from rfl, hm]; decide)
  exact ⟨vs, h, r, a, e, e2, e3⟩

/-- C65_truncates: mapping a file of 4 GiB and 4096 bytes makes it 4096 bytes long. -/
example : ∃ vs, Reach vs ⟨twoMaps, [1, 2]⟩ ∧ ∃ r,
    mmapFile (lx 4096 0 okAll) ⟨fun _ => true, fun _ => some (2 ^ 32 + 4096)⟩ vs [] 0 false false
      ⟨{ st with file := 2 ^ 32 + 4096 }, []⟩ = some (r, 0) ∧ r.w.file = 4096 := by
  obtain ⟨vs, h⟩ := two_reach
  have hat : (lx 4096 0 okAll).ask { st with file := 2 ^ 32 + 4096 } .attach = ({ stS with file := 2 ^ 32 + 4096 }, 0) := by
    simp [lx, st, stS, okAll]
  have ho : (lx 4096 0 okAll).ask ((lx 4096 0 okAll).ask { st with file := 2 ^ 32 + 4096 } .attach).1 (.open [] 2) =
      (stO (2 ^ 32 + 4096), 3) := by
    rw [hat]; exact lx_open _ _ _ _ rfl
  have hft := lx_ftruncate 0 (2 ^ 32 + 4096) okAll 3 4096 (by decide) rfl
  obtain ⟨r, e, e2⟩ := C65_truncates (lx_lawful 4096 0 okAll) ⟨fun _ => true, fun _ => some (2 ^ 32 + 4096)⟩ (path := [])
    (addr := 0) (len := 4096) false false { st with file := 2 ^ 32 + 4096 } rfl (by decide) (by simp [fsize])
    (mapInUse_zero (vs := vs) _) (by rw [hat]; decide) ho (fd := 3) (by decide) (by decide) skip3
    (by rw [hft]; decide) (by rw [hft]; exact fun q => absurd (congrArg State.file q) (by decide))
  exact ⟨vs, h, r, e, e2⟩

end Ulp.Ultask
