/-
C134: patches and jumps in one process.
-/
import Verif.Proof.JumpHist
import Verif.Props.Maps
namespace Ulp.LoadBytes
open Load PatchFile

/-- C134, x86_64, for jumps that stay away from live patches.  For every history of runs of
`ulpatch`, `ulftrace` and `ultask --jmp`, from a process without patches: nothing crashes; the list of
live patches is the one that the results tell; every live patch is whole in memory; and the code is the
original code with the jumps that were reported as written, and over them the redirects of the live
patches.

Missing: jumps at a function that is patched, where the program violates it (`C134_lost`,
`C134_half`), and what is missing in C119. -/
theorem C134_x86_partial (R : Addr → Prop) (w0 : Patch.World) (ss : List Step) (h0 : w0.maps = [])
    (hlen : ss.length < 2 ^ 32) (hg : GoodSteps x86 Psabi.x86Width R w0 ss) :
    ∃ w rs st, runSteps x86 w0 ss = some (w, rs) ∧ w.arch = w0.arch ∧ StepsDo [] ss rs st ∧
      Holds Psabi.x86Width Psabi.x86 R (overlayAll w0.mem (jumps w0.arch ss rs)) w st := by
  obtain ⟨w, rs, st, h1, h2, h3, h4⟩ := steps_inv links_x86 ss (FInv.init R w0 h0) (by omega) hg
  exact ⟨w, rs, st, h1, h2, h3, h4.holds⟩

/-- C134, aarch64.  As on x86_64; for the values of relocations see `C57_a64_linked_partial`. -/
theorem C134_a64_partial (junk : Bool) (R : Addr → Prop) (w0 : Patch.World) (ss : List Step) (h0 : w0.maps = [])
    (hlen : ss.length < 2 ^ 32) (hg : GoodSteps (a64 junk) Psabi.a64Width R w0 ss) :
    ∃ w rs st, runSteps (a64 junk) w0 ss = some (w, rs) ∧ w.arch = w0.arch ∧ StepsDo [] ss rs st ∧
      Holds Psabi.a64Width Psabi.a64Data R (overlayAll w0.mem (jumps w0.arch ss rs)) w st := by
  obtain ⟨w, rs, st, h1, h2, h3, h4⟩ := steps_inv (links_a64 junk) ss (FInv.init R w0 h0) (by omega) hg
  exact ⟨w, rs, st, h1, h2, h3, h4.holds⟩

theorem jumps_length (arch : Arch) : ∀ (ss : List Step) (rs : List Int), ∀ o ∈ jumps arch ss rs, o.bytes.length = 16 := by
  intro ss
  induction ss with
  | nil => intro rs o ho; unfold jumps at ho; cases ho
  | cons s ss ih =>
    intro rs o ho
    cases s with
    | cmd c =>
      cases rs with
      | nil => unfold jumps at ho; cases ho
      | cons r rs => exact ih rs o ho
    | jump vs src dst rd wr =>
      cases rs with
      | nil => unfold jumps at ho; cases ho
      | cons r rs =>
        unfold jumps at ho
        by_cases hc : r = 0 ∧ src ≠ 0 ∧ dst ≠ 0
        · rw [if_pos hc] at ho
          rcases List.mem_cons.1 ho with rfl | ho
          · exact jmpEntry_length arch dst
          · exact ih rs o ho
        · rw [if_neg hc] at ho
          exact ih rs o ho

section
variable {width : Nat → Nat}
  {value : Nat → BitVec 64 → BitVec 64 → BitVec 64 → Option (Nat × BitVec 64)}
  {R : Addr → Prop} {base : Mem} {w : Patch.World} {st : List LiveFile} {ss : List Step} {rs : List Int}

/-- The bytes of a jump are there. -/
theorem jump_there (h : Holds width value R (overlayAll base (jumps w.arch ss rs)) w st)
    {older newer : List Overlay} {src dst : Addr} (hj : jumps w.arch ss rs = older ++ ⟨src, jmpEntry w.arch dst⟩ :: newer)
    (hR : WindowOff R src 16) (hnew : ∀ o ∈ newer, Clear o.addr src)
    (hlive : ∀ v ∈ st, v.active = true → Clear v.target src) : w.mem.read src 16 = jmpEntry w.arch dst := by
  apply List.ext_getElem?
  intro j
  rw [Mem.read_getElem?]
  by_cases hjj : j < 16
  · rw [if_pos hjj, C119_untouched h _ (hR j hjj) fun v hv ha i hi => (hlive v hv ha i j hi hjj).symm, hj]
    rw [show overlayAll base (older ++ ⟨src, jmpEntry w.arch dst⟩ :: newer) =
      overlayAll ((overlayAll base older).write src (jmpEntry w.arch dst)) newer by
        unfold overlayAll; rw [List.foldl_append]; rfl]
    rw [overlay_out]
    · rw [Mem.write_in _ _ _ j (by rw [jmpEntry_length]; exact hjj) (by omega),
        List.getElem?_eq_getElem (by rw [jmpEntry_length]; exact hjj)]
    · intro o ho
      rw [jumps_length w.arch ss rs o (by rw [hj]; simp [ho])]
      exact apart_out (hnew o ho) hjj
  · rw [if_neg hjj, List.getElem?_eq_none (by rw [jmpEntry_length]; omega)]

/-- C134, x86_64.  A processor that comes to the address of a jump goes to where it leads, unless
a later jump or a live patch overlaps. -/
theorem C134_x86_goes (h : Holds width value R (overlayAll base (jumps w.arch ss rs)) w st) (harch : w.arch = .x86_64)
    {older newer : List Overlay} {src dst : Addr} (hj : jumps w.arch ss rs = older ++ ⟨src, jmpEntry w.arch dst⟩ :: newer)
    (hR : WindowOff R src 16) (hnew : ∀ o ∈ newer, Clear o.addr src)
    (hlive : ∀ v ∈ st, v.active = true → Clear v.target src)
    (cpu : X86.Cpu) (hpc : cpu.rip = src) (hmem : cpu.mem = w.mem) :
    X86.step cpu = some { cpu with rip := dst } := by
  apply C01_x86_redirect w.mem src dst cpu hpc
  have := jump_there h hj hR hnew hlive
  rw [harch] at this
  unfold installEntry
  rw [hmem, ← this, Mem.write_read_self]

/-- C134, aarch64. -/
theorem C134_a64_goes (h : Holds width value R (overlayAll base (jumps w.arch ss rs)) w st) (harch : w.arch = .aarch64)
    {older newer : List Overlay} {src dst : Addr} (hj : jumps w.arch ss rs = older ++ ⟨src, jmpEntry w.arch dst⟩ :: newer)
    (hR : WindowOff R src 16) (hnew : ∀ o ∈ newer, Clear o.addr src)
    (hlive : ∀ v ∈ st, v.active = true → Clear v.target src)
    (cpu : A64.Cpu) (hpc : cpu.pc = src) (hmem : cpu.mem = w.mem) :
    A64.steps 2 cpu = some { pc := dst, x := fun i => if i = 17 then dst else cpu.x i, mem := cpu.mem } := by
  apply C02_a64_redirect w.mem src dst cpu hpc
  have := jump_there h hj hR hnew hlive
  rw [harch] at this
  unfold installEntry
  rw [hmem, ← this, Mem.write_read_self]

/-- C134.  When no patch is left, the code is the original code with the jumps: patches that came and
went left nothing of theirs and took no jump with them. -/
theorem C134_removed (h : Holds width value R (overlayAll base (jumps w.arch ss rs)) w []) (x : Addr) (hx : ¬ R x) :
    w.mem x = overlayAll base (jumps w.arch ss rs) x := h.code x hx

/-! ### A jump at a patched function -/

/-- The patch that `--unpatch` takes. -/
theorem Holds.newest {v : LiveFile} {older : List LiveFile} (h : Holds width value R base w (v :: older)) :
    w.maps.find? (fun u => decide (Patch.maxOf w.maps 0 = u.info.id)) = some v.mapping := by
  have hv : v.mapping ∈ w.maps := h.maps.mem_iff.1 (by simp)
  have hn := h.numbers 0 v rfl
  have hof : ∀ m ∈ w.maps, ∃ k u, (v :: older)[k]? = some u ∧ u.mapping = m ∧ m.info.id.toNat + k = (v :: older).length := by
    intro m hm
    obtain ⟨u, hu, rfl⟩ := List.mem_map.1 (h.maps.mem_iff.2 hm)
    obtain ⟨k, hk⟩ := List.mem_iff_getElem?.1 hu
    exact ⟨k, u, hk, rfl, h.numbers k u hk⟩
  have h3 := Patch.maxOf_ge w.maps 0 _ hv
  change v.number.toNat ≤ _ at h3
  have hmax : (Patch.maxOf w.maps 0).toNat = (v :: older).length := by
    rcases Patch.maxOf_mem w.maps 0 with h0 | ⟨m, hm, he⟩
    · rw [h0] at h3
      rw [List.length_cons] at hn
      change _ ≤ 0 at h3
      omega
    · obtain ⟨k, u, -, -, e⟩ := hof m hm
      rw [he] at e
      omega
  cases hf : w.maps.find? (fun u => decide (Patch.maxOf w.maps 0 = u.info.id)) with
  | none =>
    rw [List.find?_eq_none] at hf
    have := hf _ hv
    rw [decide_eq_true_eq] at this
    apply absurd _ this
    apply BitVec.eq_of_toNat_eq
    rw [hmax]
    exact hn.symm
  | some m =>
    have hm := List.mem_of_find?_eq_some hf
    have hp := List.find?_some hf
    rw [decide_eq_true_eq] at hp
    obtain ⟨k, u, e1, e2, e3⟩ := hof m hm
    rw [← hp, hmax] at e3
    have : k = 0 := by omega
    subst this
    cases e1
    rw [e2]

/-- `--unpatch` when the memory is not as the last command left it. -/
theorem unpatch_other {v : LiveFile} {older : List LiveFile} (h : Holds width value R base w (v :: older))
    {w1 : Patch.World} (hm : w1.maps = w.maps) {rd : Patch.Mapping → Patch.ReadRes} (hr : ∀ m, rd m = .ok)
    (d : Patch.DeleteEnv) {M : Machine} :
    ∃ w2 r, runStep M w1 (.cmd (.unpatch rd d)) = some (w2, r) ∧
      (d = ⟨.ok, some 16, .done⟩ → r = 0) ∧ (r = 0 → w2.mem = w1.mem.write v.target v.saved ∧ v.mapping ∉ w2.maps) := by
  have hready : ∀ m ∈ w1.maps, m.ready = true := by
    intro m hm'
    rw [hm] at hm'
    obtain ⟨u, _, rfl⟩ := List.mem_map.1 (h.maps.mem_iff.2 hm')
    rfl
  have hopen := Patch.openTask_ok rd w1 true (fun m _ => hr m) hready
  have hs : v.saved.length = 16 := (h.whole v (List.mem_cons_self ..)).saved
  refine ⟨(Patch.deletePatch w1 { ulps := w1.maps, maxId := Patch.maxOf w1.maps 0, ftoProc := true } d).1,
    (Patch.deletePatch w1 { ulps := w1.maps, maxId := Patch.maxOf w1.maps 0, ftoProc := true } d).2, ?_, ?_⟩
  · change (Patch.openTask true rd w1).map (fun s => Patch.deletePatch w1 s d) = some (_, _)
    rw [hopen]
    rfl
  unfold Patch.deletePatch
  dsimp only
  rw [hm, h.newest]
  dsimp only
  constructor
  · rintro rfl
    unfold Patch.writeTask
    dsimp only
    rw [if_pos (by change decide (v.saved.length ≤ 16) = true; rw [hs]; rfl)]
  · cases ha : d.attach with
    | fail n left => intro h0; exact absurd h0 (Patch.neg_ne_zero n)
    | ok =>
      dsimp only
      cases hn : d.writeN with
      | none =>
        intro h0
        exact absurd (show Patch.ENOEXEC = 0 from h0) (by decide)
      | some k =>
        change (if decide (v.saved.length ≤ k) = true then _ else _ : Patch.World × Int).2 = 0 → _
        by_cases hk : v.saved.length ≤ k
        · rw [if_pos (decide_eq_true hk)]
          cases d.munmap with
          | done =>
            intro _
            refine ⟨?_, ?_⟩
            · unfold Patch.writeTask
              dsimp only
              rw [if_pos (show decide (v.mapping.info.orig.length ≤ k) = true from decide_eq_true hk)]
              change w1.mem.write v.target (v.saved.take k) = _
              rw [List.take_of_length_le hk]
            · unfold Patch.writeTask
              dsimp only
              rw [if_pos (show decide (v.mapping.info.orig.length ≤ k) = true from decide_eq_true hk)]
              intro hmem
              have := (List.mem_filter.1 hmem).2
              rw [decide_eq_true_eq] at this
              exact this rfl
          | failed gone => intro h0; exact absurd h0 (by cases gone <;> exact nofun)
        · rw [if_neg (by rw [decide_eq_true_eq]; exact hk)]
          intro h0
          exact absurd h0 (by exact nofun)

theorem runStep_jump {M : Machine} {vs : Vma.Vmas} {src dst : Addr} {rd wr : Option Nat} {w1 : Patch.World} {r : Int}
    (h : runStep M w (.jump vs src dst rd wr) = some (w1, r)) :
    w1.maps = w.maps ∧ Ultask.runJmp w.arch vs w.mem src dst rd wr = some (w1.mem, r) := by
  unfold runStep at h
  dsimp only at h
  cases hj : Ultask.runJmp w.arch vs w.mem src dst rd wr with
  | none => rw [hj] at h; cases h
  | some x => rw [hj] at h; cases h; exact ⟨rfl, rfl⟩

/-- C134 is violated.  `ultask --jmp` takes the address of a function that a live patch replaces,
and reports success.  The patch stays in the list, but is not in effect.  The next successful
`ulpatch --unpatch` brings back the code from before the patch, and the jump is gone. -/
theorem C134_lost {v : LiveFile} {older : List LiveFile} (h : Holds width value R base w (v :: older)) {M : Machine}
    {vs : Vma.Vmas} {dst : Addr} (hs : v.target ≠ 0) (hd : dst ≠ 0) {rdj : Option Nat} {w1 : Patch.World}
    (h1 : (Vma.findVma vs v.target).isSome) (h2 : (Vma.findVma vs dst).isSome)
    (hj : runStep M w (.jump vs v.target dst rdj (some 16)) = some (w1, 0))
    {rd : Patch.Mapping → Patch.ReadRes} (hr : ∀ m, rd m = .ok) {d : Patch.DeleteEnv} {w2 : Patch.World}
    (hu : runStep M w1 (.cmd (.unpatch rd d)) = some (w2, 0)) :
    v.mapping ∈ w1.maps ∧ w1.mem.read v.target 16 = jmpEntry w.arch dst ∧ w2.mem.read v.target 16 = v.saved := by
  obtain ⟨e1, e2⟩ := runStep_jump hj
  obtain ⟨m', r, e3, e4⟩ := runJmp_cases w.arch w.mem (src := v.target) (dst := dst) rdj h1 h2 (.inr (.inr rfl))
  rw [e2] at e3
  cases e3
  obtain ⟨w2', r, e5, -, e6⟩ := unpatch_other h e1 hr d (M := M)
  rw [hu] at e5
  cases e5
  have hl : v.saved.length = 16 := (h.whole v (List.mem_cons_self ..)).saved
  refine ⟨?_, ?_, ?_⟩
  · rw [e1]
    exact h.maps.mem_iff.1 (by simp)
  · rcases e4 with ⟨-, -, -, e4⟩ | ⟨e4, -⟩
    · rw [e4]
      have := Mem.read_write_self w.mem v.target (jmpEntry w.arch dst) (by rw [jmpEntry_length]; omega)
      rw [jmpEntry_length] at this
      exact this
    · exact absurd ⟨rfl, hs, hd⟩ e4
  · rw [(e6 rfl).1]
    have := Mem.read_write_self w1.mem v.target v.saved (by omega)
    rw [hl] at this
    exact this

/-- C134 is violated.  When the jump begins in the middle of the replaced code, the unpatch leaves half of
it: the code at its address is neither the code from before nor the jump. -/
theorem C134_half {v : LiveFile} {older : List LiveFile} (h : Holds width value R base w (v :: older)) {M : Machine}
    (_hR : WindowOff R (v.target + 8) 16)
    {vs : Vma.Vmas} {dst : Addr} (hs : v.target + 8 ≠ 0) (hd : dst ≠ 0) {rdj : Option Nat} {w1 : Patch.World}
    (h1 : (Vma.findVma vs (v.target + 8)).isSome) (h2 : (Vma.findVma vs dst).isSome)
    (hj : runStep M w (.jump vs (v.target + 8) dst rdj (some 16)) = some (w1, 0))
    {rd : Patch.Mapping → Patch.ReadRes} (hr : ∀ m, rd m = .ok) {d : Patch.DeleteEnv} {w2 : Patch.World}
    (hu : runStep M w1 (.cmd (.unpatch rd d)) = some (w2, 0)) :
    w2.mem.read (v.target + 8) 8 = v.saved.drop 8 ∧
    w2.mem.read (v.target + 16) 8 = (jmpEntry w.arch dst).drop 8 := by
  obtain ⟨e1, e2⟩ := runStep_jump hj
  obtain ⟨m', r, e3, e4⟩ := runJmp_cases w.arch w.mem (src := v.target + 8) (dst := dst) rdj h1 h2 (.inr (.inr rfl))
  rw [e2] at e3
  cases e3
  obtain ⟨w2', r, e5, -, e6⟩ := unpatch_other h e1 hr d (M := M)
  rw [hu] at e5
  cases e5
  have hl : v.saved.length = 16 := (h.whole v (List.mem_cons_self ..)).saved
  have hjm : w1.mem = w.mem.write (v.target + 8) (jmpEntry w.arch dst) := by
    rcases e4 with ⟨-, -, -, e4⟩ | ⟨e4, -⟩
    · exact e4
    · exact absurd ⟨rfl, hs, hd⟩ e4
  rw [(e6 rfl).1]
  constructor
  · rw [show v.target + 8 = v.target + BitVec.ofNat 64 8 from rfl,
      Mem.read_write_sub w1.mem v.target v.saved 8 8 (by omega) (by omega), List.take_of_length_le (by rw [List.length_drop]; omega)]
  · rw [Mem.read_write_disjoint]
    · rw [hjm, show v.target + 16 = v.target + 8 + BitVec.ofNat 64 8 by rw [BitVec.add_assoc]; rfl,
        Mem.read_write_sub _ _ _ 8 8 (by rw [jmpEntry_length]; omega) (by rw [jmpEntry_length]; omega),
        List.take_of_length_le (by rw [List.length_drop, jmpEntry_length]; omega)]
    · intro i j hi hj' he
      rw [show v.target + 16 = v.target + BitVec.ofNat 64 16 from rfl, add_ofNat_add] at he
      have := congrArg (fun x => (x - v.target).toNat) he
      rw [add_ofNat_sub_toNat _ _ (by omega), add_ofNat_sub_toNat _ _ (by omega)] at this
      omega

end

/-! ### An example -/

def jhOff : FileCmd := .unpatch Patch.allOk ⟨.ok, some 16, .done⟩

theorem jh_vs : ∃ vs : Vma.Vmas, (∀ a, (Vma.findVma vs a).isSome) ∧
    ∀ a : BitVec 64, 0x400000 ≤ a → a < 0x20000000 → Vma.findVma vs a = some 1 := by
  obtain ⟨vs, _, h0, h1⟩ := Vma.C46_first_read_found (fun _ => ⟨0, 0, [], 0⟩) [(1, ⟨0x400000, 0x20000000, []⟩)]
    (by decide) (by decide) (List.pairwise_singleton ..)
  have h1' := fun a => h1 a _ (List.mem_singleton.2 rfl)
  refine ⟨vs, fun a => ?_, h1'⟩
  by_cases h : (0x400000 : BitVec 64) ≤ a ∧ a < 0x20000000
  · rw [h1' a h.1 h.2]
    rfl
  · rw [h0 a fun x hx => by rw [List.mem_singleton.1 hx]; exact h]
    rfl

/-- The patch of C119 is applied. -/
theorem jh_first : ∃ w v, runStep x86 fhWorld (.cmd (fhPatch pfEnv)) = some (w, 0) ∧ w.arch = .x86_64 ∧
    Holds Psabi.x86Width Psabi.x86 fhR fhWorld.mem w [v] ∧ (v.target = 0x401000 ∨ v.target = 0x10100000) ∧
    v.saved = List.replicate 16 0x55 ∧ v.active = true := by
  obtain ⟨w, rs, st, h1, harch, h2, h3⟩ := C119_x86_partial fhR fhWorld [fhPatch pfEnv] rfl (by decide) fh_first
  have ho := Patch.openTask_ok Patch.allOk fhWorld true (fun _ _ => rfl) (by decide)
  obtain ⟨w1, hw1⟩ : ∃ w1, patchFile x86 fhWorld Patch.allOk 0x7f0000000000 lkEnv.find 77 lkFile pfEnv = some (w1, 0) := by
    refine C58_applied x86 lk_laid x86_lawful lk_readable lk_meta lk_symbols
      (by rw [x86_width]; exact lk_relocs) ho rfl pf_smooth rfl (by decide) ?_
    have : sessionEnv { ulps := fhWorld.maps, maxId := Patch.maxOf fhWorld.maps 0, ftoProc := true }
        0x7f0000000000 0x10000000 lkEnv.find 77 = { lkEnv with bids := [], maxId := 0 } := rfl
    rw [this]
    exact lk_loads_with [] 0 (fun _ _ => nofun)
  have hrun : runFile x86 fhWorld (fhPatch pfEnv) = some (w1, 0) := hw1
  have h1' := h1
  unfold runFiles at h1'
  rw [hrun] at h1'
  cases h1'
  cases h2 with
  | cons d1 h2 =>
  cases h2
  cases d1 with
  | refused h => exact absurd rfl h
  | @patched _ _ v hg =>
    obtain ⟨_, _, e, q1, q2, q3, q4⟩ := hg
    injection q1 with _ _ q5 _ _ _
    refine ⟨w, v, hrun, harch, h3, ?_, ?_, q4⟩
    · have ht := (h3.whole v (List.mem_cons_self ..)).target
      rw [← q5] at ht
      change (if _ then _ else if _ then _ else _) = _ at ht
      by_cases c1 : v.parts.dst = lit "old_f"
      · rw [if_pos c1] at ht
        exact .inl (Option.some.inj ht).symm
      · rw [if_neg c1] at ht
        by_cases c2 : v.parts.dst = lit "printf"
        · rw [if_pos c2] at ht
          exact .inr (Option.some.inj ht).symm
        · rw [if_neg c2] at ht
          cases ht
    · exact h3.under [] [] v rfl

/-- A history that meets the hypotheses of `C134_x86_partial`: a patch, a jump elsewhere, and the
patch is removed. -/
theorem jh_good {vs : Vma.Vmas} (hvs : ∀ a, (Vma.findVma vs a).isSome) :
    GoodSteps x86 Psabi.x86Width fhR fhWorld
      [.cmd (fhPatch pfEnv), .jump vs 0x402000 0x403000 (some 16) (some 16), .cmd jhOff] := by
  refine ⟨fh_first.1, fun w1 r1 h1 => ⟨⟨hvs _, hvs _, .inr (.inr rfl), ?_, ?_⟩, fun w2 r2 _ =>
    ⟨⟨fun _ => rfl, .inr (.inr ⟨16, by decide, rfl⟩)⟩, fun _ _ _ => trivial⟩⟩⟩
  · intro i hi hR
    unfold fhR at hR
    rw [BitVec.toNat_add, show (0x402000 : BitVec 64).toNat = 0x402000 from rfl, BitVec.toNat_ofNat] at hR
    omega
  · obtain ⟨w, v, e1, -, e2, e3, -⟩ := jh_first
    rw [h1] at e1
    cases e1
    intro m hm i j hi hj he
    obtain ⟨u, hu, rfl⟩ := List.mem_map.1 (e2.maps.mem_iff.2 hm)
    rw [List.mem_singleton] at hu
    subst hu
    change _ = u.target + _ at he
    have := congrArg BitVec.toNat he
    have t1 : (0x402000 : BitVec 64).toNat = 0x402000 := rfl
    have t2 : (0x401000 : BitVec 64).toNat = 0x401000 := rfl
    have t3 : (0x10100000 : BitVec 64).toNat = 0x10100000 := rfl
    rcases e3 with e3 | e3 <;> rw [e3, BitVec.toNat_add, BitVec.toNat_add, BitVec.toNat_ofNat, BitVec.toNat_ofNat] at this <;>
      omega

example : ∃ (vs : Vma.Vmas) (w : Patch.World), runSteps x86 fhWorld [.cmd (fhPatch pfEnv), .jump vs 0x402000 0x403000 (some 16) (some 16),
    .cmd jhOff] = some (w, [0, 0, 0]) ∧
    Holds Psabi.x86Width Psabi.x86 fhR (overlayAll fhWorld.mem [⟨0x402000, jmpEntry .x86_64 0x403000⟩]) w [] := by
  obtain ⟨vs, hvs, hin⟩ := jh_vs
  have hlen : ([.cmd (fhPatch pfEnv), .jump vs 0x402000 0x403000 (some 16) (some 16), .cmd jhOff] : List Step).length < 2 ^ 32 :=
    show 3 < 2 ^ 32 by decide
  obtain ⟨w, rs, st, h1, -, h2, h3⟩ := C134_x86_partial fhR fhWorld _ rfl hlen (jh_good hvs)
  obtain ⟨w1, v, e1, e2, e3, -⟩ := jh_first
  obtain ⟨w2, e4⟩ : ∃ w2, runStep x86 w1 (.jump vs 0x402000 0x403000 (some 16) (some 16)) = some (w2, 0) := by
    unfold runStep Ultask.runJmp
    dsimp only
    rw [if_neg (by decide), hin 0x402000 (by decide) (by decide), hin 0x403000 (by decide) (by decide)]
    exact ⟨_, rfl⟩
  obtain ⟨w3, r, e5, e6, -⟩ := unpatch_other e3 (runStep_jump e4).1 (rd := Patch.allOk) (fun _ => rfl) ⟨.ok, some 16, .done⟩ (M := x86)
  rw [e6 rfl] at e5
  have hrun : runSteps x86 fhWorld [.cmd (fhPatch pfEnv), .jump vs 0x402000 0x403000 (some 16) (some 16),
      .cmd jhOff] = some (w3, [0, 0, 0]) := by
    unfold runSteps
    rw [e1]
    dsimp only
    unfold runSteps
    rw [e4]
    dsimp only
    unfold runSteps
    rw [show runStep x86 w2 (.cmd jhOff) = some (w3, 0) from e5]
    rfl
  rw [h1] at hrun
  cases hrun
  refine ⟨vs, w, h1, ?_⟩
  have hst : st = [] := by
    cases h2 with
    | cmd d1 h2 =>
    cases h2 with
    | jump h2 =>
    cases h2 with
    | cmd d2 h2 =>
    cases h2
    cases d1 with
    | refused h => exact absurd rfl h
    | patched hg =>
      cases d2 with
      | patched hg' =>
        obtain ⟨_, _, _, q, _⟩ := hg'
        exact absurd q (by unfold jhOff; exact nofun)
      | unpatched => rfl
      | failed h => exact absurd rfl h
      | gone h _ => exact absurd rfl h
      | stays h _ => exact absurd rfl h
  subst hst
  exact h3

/-- C134 is violated: a patch, a jump at the patched function, and an unpatch all report success, and the
code at the function is the original code. -/
theorem C134_lost_example : ∃ (vs : Vma.Vmas) (w : Patch.World) (f : Addr),
    runSteps x86 fhWorld [.cmd (fhPatch pfEnv), .jump vs f 0x403000 (some 16) (some 16), .cmd jhOff] = some (w, [0, 0, 0]) ∧
    jumps .x86_64 [.cmd (fhPatch pfEnv), .jump vs f 0x403000 (some 16) (some 16), .cmd jhOff] [0, 0, 0] =
      [⟨f, jmpEntry .x86_64 0x403000⟩] ∧
    w.mem.read f 16 = fhWorld.mem.read f 16 ∧ w.mem.read f 16 ≠ jmpEntry .x86_64 0x403000 := by
  obtain ⟨vs, hvs, hin⟩ := jh_vs
  obtain ⟨w1, v, e1, e2, e3, et, es, -⟩ := jh_first
  have hb : (0x400000 : BitVec 64) ≤ v.target ∧ v.target < 0x20000000 ∧ v.target ≠ 0 := by
    rcases et with et | et <;> rw [et] <;> decide
  obtain ⟨w2, e4⟩ : ∃ w2, runStep x86 w1 (.jump vs v.target 0x403000 (some 16) (some 16)) = some (w2, 0) := by
    unfold runStep Ultask.runJmp
    dsimp only
    rw [if_neg (by intro h; rcases h with h | h; exact hb.2.2 h; exact absurd h (by decide)), hin _ hb.1 hb.2.1,
      hin 0x403000 (by decide) (by decide)]
    exact ⟨_, rfl⟩
  obtain ⟨w3, r, e5, e6, -⟩ := unpatch_other e3 (runStep_jump e4).1 (rd := Patch.allOk) (fun _ => rfl) ⟨.ok, some 16, .done⟩ (M := x86)
  rw [e6 rfl] at e5
  have hrun : runSteps x86 fhWorld [.cmd (fhPatch pfEnv), .jump vs v.target 0x403000 (some 16) (some 16),
      .cmd jhOff] = some (w3, [0, 0, 0]) := by
    unfold runSteps
    rw [e1]
    dsimp only
    unfold runSteps
    rw [e4]
    dsimp only
    unfold runSteps
    rw [show runStep x86 w2 (.cmd jhOff) = some (w3, 0) from e5]
    rfl
  have hl := C134_lost e3 hb.2.2 (by decide) (hvs _) (hvs _) e4 (fun _ => rfl) e5
  refine ⟨vs, w3, v.target, hrun, ?_, ?_, ?_⟩
  · unfold jumps
    unfold jumps
    rw [if_pos ⟨rfl, hb.2.2, by decide⟩]
    rfl
  · rw [hl.2.2, es]
    rfl
  · rw [hl.2.2, es]
    decide

end Ulp.LoadBytes
