/-
Property theorems for C136: `ultask` used on a process with live patches.
-/
import Verif.Proof.Mixed
import Verif.Props.JumpHist
import Verif.Props.TaskDo
namespace Ulp.Mixed
open LoadBytes
open PatchFile (SymAddr)
open Load (lit)
open TaskRun (Proc Job LawfulP Grants Unmaps Jumps asks mapsOf taken areaOfLine exKern exKern_lawful exKern_grants)
open Linux (State Touches)

/-- **C136**, x86_64, partial.  Commands of `ulpatch` and `ulftrace` and runs of `ultask`, killed or
not, in any order; the runs of `ultask` do not name what belongs to a live patch.  Then every command
does what it does without `ultask` (C119), the patches are whole, and the code outside them is what it
was, except what the runs of `ultask` name.  Missing: runs that name it (`C136_dangling`, `C134_lost`). -/
theorem C136_x86_partial (pg : Nat) (R : Addr → Prop) (w0 : Patch.World) (us : List Use) (h0 : w0.maps = [])
    (hlen : us.length < 2 ^ 32) (hg : GoodUses x86 pg Psabi.x86Width R w0 us) :
    ∃ w rs st base, runUses x86 w0 us = some (w, rs) ∧ w.arch = w0.arch ∧ AllDo [] (cmds us) rs st ∧
      Holds Psabi.x86Width Psabi.x86 R base w st ∧ ∀ x, (∀ u ∈ us, ¬ u.names pg x) → base x = w0.mem x := by
  obtain ⟨w, rs, st, base, h1, h2, h3, h4, h5⟩ := uses_inv links_x86 us (FInv.init R w0 h0) (by omega) hg
  exact ⟨w, rs, st, base, h1, h2, h3, h4.holds, h5⟩

/-- **C136**, aarch64, partial. -/
theorem C136_a64_partial (junk : Bool) (pg : Nat) (R : Addr → Prop) (w0 : Patch.World) (us : List Use) (h0 : w0.maps = [])
    (hlen : us.length < 2 ^ 32) (hg : GoodUses (a64 junk) pg Psabi.a64Width R w0 us) :
    ∃ w rs st base, runUses (a64 junk) w0 us = some (w, rs) ∧ w.arch = w0.arch ∧ AllDo [] (cmds us) rs st ∧
      Holds Psabi.a64Width Psabi.a64Data R base w st ∧ ∀ x, (∀ u ∈ us, ¬ u.names pg x) → base x = w0.mem x := by
  obtain ⟨w, rs, st, base, h1, h2, h3, h4, h5⟩ := uses_inv (links_a64 junk) us (FInv.init R w0 h0) (by omega) hg
  exact ⟨w, rs, st, base, h1, h2, h3, h4.holds, h5⟩

/-- C136.  When all patches are removed again, the code is the original code, except what the
runs of `ultask` name. -/
theorem C136_removed {width value R base} {w w0 : Patch.World} {us : List Use} {pg : Nat}
    (h : Holds width value R base w []) (hb : ∀ x, (∀ u ∈ us, ¬ u.names pg x) → base x = w0.mem x)
    (x : Addr) (hx : ¬ R x) (hn : ∀ u ∈ us, ¬ u.names pg x) : w.mem x = w0.mem x := by
  rw [C119_untouched h x hx (by exact nofun), hb x hn]

/-- C136 is violated.  `ultask --unmap` takes an address in the mapping of a live patch.  Afterwards
the page of the new function is not mapped, and the replaced function still jumps there. -/
theorem C136_dangling {width value R base} {w : Patch.World} {v : LiveFile} {older : List LiveFile}
    (h : Holds width value R base w (v :: older)) (hact : v.active = true)
    {pg : Nat} {k : Ultask.Kern (Proc State)} (hk : LawfulP pg k) (hg : Grants pg k) {s : State} (hs : s.stopped = false)
    {j : Job} (hj : j.Fine) (ha : j.Apart) (h1 : j.c.starts = true) (h2 : j.c.opens = true) {addr : BitVec 64}
    (hin : .unmap addr ∈ asks j.e j.opts) (hm : ∀ a ∈ asks j.e j.opts, a.change ≠ some .map) {x : Nat × Vma.Line} (hx : x ∈ j.ls)
    (hlo : x.2.start ≤ addr) (hhi : addr < x.2.stop) (hal : x.2.start.toNat % pg = 0) (hpos : 0 < taken j.c.fs (areaOfLine x.2))
    (hentry : Touches pg x.2.start.toNat (taken j.c.fs (areaOfLine x.2)) (v.entry.toNat / pg))
    (htarget : ∀ i, i < 16 → ¬ (Use.task k s j none).names pg (v.target + BitVec.ofNat 64 i))
    {d : TaskRun.Done State} (hd : j.run k w.arch ⟨s, w.mem⟩ = some d) :
    d.proc.w.space (v.entry.toNat / pg) = none ∧ d.proc.mem.read v.target 16 = jmpEntry w.arch v.entry := by
  refine ⟨TaskRun.C131_unmapped_partial hk hg hj ha h1 h2 hs hd hin (Or.inl hm) hx hlo hhi hal hpos hentry, ?_⟩
  rw [← h.entry (newer := []) rfl hact (by exact nofun)]
  apply Mem.read_congr
  intro i hi
  have hl : j.leaves k w.arch ⟨s, w.mem⟩ none = some d.proc := by
    unfold Job.leaves
    rw [hd]
    rfl
  exact task_frame hk hj hl _ (htarget i hi)

/-- C136 is violated.  With the only patch gone that way, `ulpatch --unpatch` finds none and leaves the jump. -/
theorem C136_no_way_back {M : Machine} {w : Patch.World} (h : w.maps = []) (rd : Patch.Mapping → Patch.ReadRes) (d : Patch.DeleteEnv) :
    runFile M w (.unpatch rd d) = some (w, Patch.ENOENT) := by
  unfold runFile Patch.runCmd Patch.openTask
  dsimp only
  rw [h]
  rfl

/-! ### Examples -/

/-- The patch of C119 replaces the function at 0x401000; the new one is at 0x10000040. -/
theorem mx_first : ∃ w v, runFile x86 fhWorld (fhPatch pfEnv) = some (w, 0) ∧ w.arch = .x86_64 ∧
    Holds Psabi.x86Width Psabi.x86 fhR fhWorld.mem w [v] ∧ v.target = 0x401000 ∧ v.entry = 0x10000040 ∧
    v.start = 0x10000000 ∧ v.file.length = 1082 ∧ v.active = true := by
  obtain ⟨w, rs, st, h1, harch, h2, h3⟩ := C119_x86_partial fhR fhWorld [fhPatch pfEnv] rfl (by decide) fh_first
  obtain ⟨w', v', e1, -⟩ := jh_first
  have e1 : runFile x86 fhWorld (fhPatch pfEnv) = some (w', 0) := e1
  unfold runFiles at h1
  rw [e1] at h1
  cases h1
  cases h2 with
  | cons d1 h2 =>
  cases h2
  cases d1 with
  | refused h => exact absurd rfl h
  | @patched _ _ v hg =>
    obtain ⟨_, _, e, q1, q2, q3, q4⟩ := hg
    injection q1 with _ _ q5 _ q6 q7
    rw [← q7] at q2
    have q2 : (0x10000000 : Addr) = v.start := by
      change Patch.MmapRes.created (0x10000000 : Addr) = _ at q2
      injection q2
    have e1' : patchFile x86 fhWorld Patch.allOk 0x7f0000000000 lkEnv.find 77 lkFile pfEnv = some (w, 0) := e1
    obtain ⟨g, inf, t, ses, _, _, _, ht, hl, hp, h5⟩ := C58_x86_patched lk_laid lk_readable lk_meta lk_symbols lk_relocs
      rfl (by decide) rfl pf_sep e1'
    rw [show lkEnv.find (lit "old_f") = some 0x401000 by decide +kernel] at ht
    cases ht
    have hst := h5 1 ⟨lit "new_f", 0x12, 1, 0⟩ 0x10000040 ⟨rfl, rfl, by
        intro k' s' hk' hs'
        match k', hk', hs' with
        | 2, _, hs' => cases hs'; decide
        | n + 3, _, hs' => cases hs'⟩
      (SymAddr.defined (k := 1) (s := ⟨lit "new_f", 0x12, 1, 0⟩) (t := ⟨lit ".text", 1, 6, 0, 64, 16, 0, 0⟩)
        (by decide) (by decide) (by decide) (by decide) rfl)
    have hent := h3.entry (newer := []) rfl q4 (by exact nofun)
    have htar : v.target = 0x401000 := by
      have ht := (h3.whole v (List.mem_cons_self ..)).target
      rw [← q5] at ht
      change (if _ then _ else if _ then _ else _) = _ at ht
      by_cases c1 : v.parts.dst = lit "old_f"
      · rw [if_pos c1] at ht
        exact (Option.some.inj ht).symm
      · rw [if_neg c1] at ht
        by_cases c2 : v.parts.dst = lit "printf"
        · rw [if_pos c2] at ht
          have ht := Option.some.inj ht
          rw [← ht] at hent
          have hb := congrArg (fun l => l[0]?) hent
          rw [Mem.read_getElem?, harch] at hb
          have hf := hp.frame 0x10100000 (by
            intro k hk
            rw [hl.length, lk_len] at hk
            bv_omega) (by intro j hj; bv_omega)
          rw [if_pos (by decide), show (0x10100000 : Addr) + BitVec.ofNat 64 0 = 0x10100000 from rfl, hf] at hb
          have hb := Option.some.inj hb
          exact absurd hb (by decide)
        · rw [if_neg c2] at ht
          cases ht
    refine ⟨w, v, e1, harch, h3, htar, ?_, q2.symm, by rw [← q6]; exact lk_len, q4⟩
    have h6 := C119_x86_runs h3 harch (newer := []) rfl q4 (by exact nofun) ⟨v.target, fun _ => 0, 0, w.mem⟩ rfl rfl
    rw [hst ⟨v.target, fun _ => 0, 0, w.mem⟩ htar rfl] at h6
    have h6 := Option.some.inj h6
    exact (congrArg X86.Cpu.rip h6).symm

/-- The program, and the mapping of the patch. -/
def mxLines : List (Nat × Vma.Line) := [(1, ⟨0x400000, 0x404000, []⟩), (2, ⟨0x10000000, 0x10001000, []⟩)]

def mxJob (opts : List Cli.Opt) : Job := ⟨Cli.exEnv, TaskRun.exCirc, mxLines, fun _ => ⟨0, 0, [], 0⟩, none, opts⟩

def mxState : State := ⟨fun n => some ⟨7, n⟩, 0, [0, 1, 2], false⟩

theorem mxJob_fine (opts : List Cli.Opt) : (mxJob opts).Fine := by
  unfold Job.Fine
  have : TaskRun.linesOf (mxJob opts).c (mxJob opts).ls = mxLines := rfl
  rw [this]
  exact ⟨by decide, by decide⟩

theorem mxJob_apart (opts : List Cli.Opt) : (mxJob opts).Apart := by
  unfold Job.Apart
  show mxLines.Pairwise _
  unfold mxLines
  decide

def mxUnmap : List Cli.Opt := [.pid (lit "42"), .unmap (lit "0x10000000")]

theorem mxUnmap_asks : asks Cli.exEnv mxUnmap = [.unmap 0x10000000] := by decide +kernel

/-- C136_dangling: the patch of C119, and `ultask -p 42 --unmap 0x10000000`.  The code at 0x401000 jumps
to 0x10000040, in a page that was mapped before and is not mapped any more. -/
theorem C136_dangling_example : ∃ (w : Patch.World) (d : TaskRun.Done State), runFile x86 fhWorld (fhPatch pfEnv) = some (w, 0) ∧
    (mxJob mxUnmap).run exKern w.arch ⟨mxState, w.mem⟩ = some d ∧ mxState.space 0x10000 ≠ none ∧
    d.proc.w.space 0x10000 = none ∧ d.proc.mem.read 0x401000 16 = jmpEntry .x86_64 0x10000040 ∧
    runFile x86 { w with mem := d.proc.mem, maps := [] } jhOff = some ({ w with mem := d.proc.mem, maps := [] }, Patch.ENOENT) := by
  obtain ⟨w, v, e1, e2, e3, e4, e5, -, -, e6⟩ := mx_first
  obtain ⟨d, hd⟩ := TaskRun.C130_ends exKern_lawful w.arch (mxJob_fine mxUnmap) ⟨mxState, w.mem⟩ (by exact nofun)
  have hask : asks (mxJob mxUnmap).e (mxJob mxUnmap).opts = [.unmap 0x10000000] := mxUnmap_asks
  have := C136_dangling e3 e6 exKern_lawful exKern_grants (s := mxState) rfl (mxJob_fine mxUnmap) (mxJob_apart _) rfl rfl
    (addr := 0x10000000) (by rw [hask]; simp) (by rw [hask]; simp [Cli.Act.change]) (x := (2, ⟨0x10000000, 0x10001000, []⟩))
    (by simp [mxJob, mxLines]) (by decide) (by decide) (by decide) (by decide) (by rw [e5]; decide) (by
      rw [e4]
      intro i hi hn
      rcases hn with hn | ⟨addr, m, h1, h2, h3, h4, h5⟩ | ⟨src, dst, h1, -⟩
      · cases hn
      · rw [hask, List.mem_singleton] at h1
        injection h1 with h1
        subst h1
        have hm : mapsOf (mxJob mxUnmap).c (mxJob mxUnmap).ls = [⟨0x400000, 0x404000, []⟩, ⟨0x10000000, 0x10001000, []⟩] := rfl
        rw [hm, List.mem_cons, List.mem_singleton] at h2
        rcases h2 with rfl | rfl
        · exact absurd h4 (by decide)
        · have := h5.1
          rw [BitVec.toNat_add, BitVec.toNat_ofNat, show (0x401000 : BitVec 64).toNat = 0x401000 from rfl,
            show (0x10000000 : BitVec 64).toNat = 0x10000000 from rfl] at this
          omega
      · rw [hask, List.mem_singleton] at h1
        cases h1) hd
  rw [e4, e5, e2] at this
  exact ⟨w, d, e1, hd, by exact nofun, this.1, this.2, C136_no_way_back rfl _ _⟩

def mxJmp : List Cli.Opt := [.pid (lit "42"), .jmp (lit "from=0x402000,to=0x403000")]

theorem mxJmp_asks : asks Cli.exEnv mxJmp = [.jmp 0x402000 0x403000] := by decide +kernel

theorem mx_names {x : Addr} (hn : (Use.task exKern mxState (mxJob mxJmp) (some (0, 3))).names 4096 x) :
    0x402000 ≤ x.toNat ∧ x.toNat < 0x402010 := by
  have hask : asks (mxJob mxJmp).e (mxJob mxJmp).opts = [.jmp 0x402000 0x403000] := mxJmp_asks
  rcases hn with hn | ⟨addr, m, h1, -⟩ | ⟨src, dst, h1, h2⟩
  · cases hn
  · rw [hask, List.mem_singleton] at h1
    cases h1
  · rw [hask, List.mem_singleton] at h1
    injection h1 with h1 _
    subst h1
    bv_omega

/-- A history that meets the hypotheses of `C136_x86_partial`: a patch, a run of `ultask` that writes
a jump elsewhere and is killed after three of its bytes, and the patch is removed. -/
theorem mx_good : GoodUses x86 4096 Psabi.x86Width fhR fhWorld
    [.cmd (fhPatch pfEnv), .task exKern mxState (mxJob mxJmp) (some (0, 3)), .cmd jhOff] := by
  refine ⟨fh_first.1, fun w1 r1 h1 => ⟨⟨exKern_lawful, mxJob_fine _, (by exact nofun), ?_⟩, fun w2 r2 _ =>
    ⟨⟨fun _ => rfl, .inr (.inr ⟨16, by decide, rfl⟩)⟩, fun _ _ _ => trivial⟩⟩⟩
  obtain ⟨w, v, e1, -, e3, e4, -, e6, e7, -⟩ := mx_first
  unfold runUses at h1
  rw [e1] at h1
  cases h1
  intro m hm
  obtain ⟨u, hu, rfl⟩ := List.mem_map.1 (e3.maps.mem_iff.2 hm)
  rw [List.mem_singleton] at hu
  subst hu
  constructor
  · intro i hi hn
    change i < u.file.length at hi
    change (Use.names 4096 _ (u.start + _)) at hn
    rw [e6] at hn
    have := mx_names hn
    rw [BitVec.toNat_add, BitVec.toNat_ofNat, show (0x10000000 : BitVec 64).toNat = 0x10000000 from rfl] at this
    omega
  · intro i hi hn
    change (Use.names 4096 _ (u.target + _)) at hn
    rw [e4] at hn
    have := mx_names hn
    rw [BitVec.toNat_add, BitVec.toNat_ofNat, show (0x401000 : BitVec 64).toNat = 0x401000 from rfl] at this
    omega

example : ∃ w rs st base, runUses x86 fhWorld [.cmd (fhPatch pfEnv), .task exKern mxState (mxJob mxJmp) (some (0, 3)), .cmd jhOff] =
    some (w, rs) ∧ rs.length = 2 ∧ Holds Psabi.x86Width Psabi.x86 fhR base w st ∧ base 0x402020 = 0x55 := by
  have hlen : ([.cmd (fhPatch pfEnv), .task exKern mxState (mxJob mxJmp) (some (0, 3)), .cmd jhOff] : List Use).length < 2 ^ 32 :=
    show 3 < 2 ^ 32 by decide
  obtain ⟨w, rs, st, base, h1, -, h3, h4, h5⟩ := C136_x86_partial 4096 fhR fhWorld _ rfl hlen mx_good
  refine ⟨w, rs, st, base, h1, ?_, h4, ?_⟩
  · cases h3 with
    | cons _ h3 =>
    cases h3 with
    | cons _ h3 =>
    cases h3
    rfl
  · refine h5 _ fun u hu hn => ?_
    rw [List.mem_cons, List.mem_cons, List.mem_singleton] at hu
    rcases hu with rfl | rfl | rfl
    · exact hn
    · have := mx_names hn
      exact absurd this.2 (by decide)
    · exact hn

end Ulp.Mixed
