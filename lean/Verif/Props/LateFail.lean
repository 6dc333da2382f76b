import Verif.Proof.LateFail
/-!
C137: a patch command that fails at its last step, and cannot clean up, leaves at most an idle patch.
-/
namespace Ulp.LoadBytes
open Load PatchFile

/-- C137, x86_64.  Commands run one after the other in a process without patches.  Each is either as in
`C119_x86_partial`, or a patch command that would succeed if writing the entry of the function worked; of
such a command both the last step (attaching, writing the entry) and the clean-up (attaching, unmapping) may
fail.  No command crashes.  What is in the process after each is one of: a new patch, nothing new, or a new
patch that is not in effect.  The code is the code at the beginning under the redirects of the patches in
effect, every live patch (in effect or not) is whole, and a patch not in effect has saved the bytes that are
at its target without it.

Missing: commands that fail before the image is written and cannot clean up, where the program violates it
(`Patch.C04_residual_zero_text`, `Patch.C04_residual_crash`), and partial writes of the entry. -/
theorem C137_x86_partial (R : Addr → Prop) (w0 : Patch.World) (cs : List FileCmd) (h0 : w0.maps = [])
    (hlen : cs.length < 2 ^ 32) (hg : LateFiles x86 Psabi.x86Width R w0 cs) :
    ∃ w rs st, runFiles x86 w0 cs = some (w, rs) ∧ w.arch = w0.arch ∧ AllLateDo [] cs rs st ∧
      Holds Psabi.x86Width Psabi.x86 R w0.mem w st := by
  obtain ⟨w, rs, st, h1, h2, h3, h4⟩ := files_late links_x86 cs (FInv.init R w0 h0) (by omega) hg
  exact ⟨w, rs, st, h1, h2, h3, h4.holds⟩

/-- C137, aarch64. -/
theorem C137_a64_partial (junk : Bool) (R : Addr → Prop) (w0 : Patch.World) (cs : List FileCmd) (h0 : w0.maps = [])
    (hlen : cs.length < 2 ^ 32) (hg : LateFiles (a64 junk) Psabi.a64Width R w0 cs) :
    ∃ w rs st, runFiles (a64 junk) w0 cs = some (w, rs) ∧ w.arch = w0.arch ∧ AllLateDo [] cs rs st ∧
      Holds Psabi.a64Width Psabi.a64Data R w0.mem w st := by
  obtain ⟨w, rs, st, h1, h2, h3, h4⟩ := files_late (links_a64 junk) cs (FInv.init R w0 h0) (by omega) hg
  exact ⟨w, rs, st, h1, h2, h3, h4.holds⟩

theorem late_end {M : Machine} {width : Nat → Nat}
    {value : Nat → BitVec 64 → BitVec 64 → BitVec 64 → Option (Nat × BitVec 64)} (hM : Links M width value)
    (R : Addr → Prop) (w0 : Patch.World) (cs : List FileCmd) (c : FileCmd) (h0 : w0.maps = [])
    (hlen : cs.length + 1 < 2 ^ 32) (hg : LateFiles M width R w0 cs)
    (hl : ∀ w rs, runFiles M w0 cs = some (w, rs) → LateFile M width R w c) (hf : c.EntryFails) :
    ∃ w rs w' r st v, runFiles M w0 cs = some (w, rs) ∧ AllLateDo [] cs rs st ∧ Holds width value R w0.mem w st ∧
      runFile M w c = some (w', r) ∧ r ≠ 0 ∧ c.Gives v ∧
      Holds width value R w0.mem w' ({ v with active := false } :: st) := by
  obtain ⟨w, rs, st, h1, -, h3, h4⟩ := files_late hM cs (FInv.init R w0 h0) (by omega) hg
  obtain ⟨w', r, st', k1, -, -, k3, k4⟩ := late_file hM h4 (by omega) (hl w rs h1)
  obtain ⟨q1, v, q2, rfl⟩ := k3 hf
  exact ⟨w, rs, w', r, st, v, h1, h3, h4.holds, k1, q1, q2, k4.holds⟩

/-- C137, x86_64.  When both the last step and the clean-up fail, the command reports an error, and the patch
does stay in the process, on top of the others, not in effect. -/
theorem C137_x86_left (R : Addr → Prop) (w0 : Patch.World) (cs : List FileCmd) (c : FileCmd) (h0 : w0.maps = [])
    (hlen : cs.length + 1 < 2 ^ 32) (hg : LateFiles x86 Psabi.x86Width R w0 cs)
    (hl : ∀ w rs, runFiles x86 w0 cs = some (w, rs) → LateFile x86 Psabi.x86Width R w c) (hf : c.EntryFails) :
    ∃ w rs w' r st v, runFiles x86 w0 cs = some (w, rs) ∧ AllLateDo [] cs rs st ∧
      Holds Psabi.x86Width Psabi.x86 R w0.mem w st ∧ runFile x86 w c = some (w', r) ∧ r ≠ 0 ∧ c.Gives v ∧
      Holds Psabi.x86Width Psabi.x86 R w0.mem w' ({ v with active := false } :: st) :=
  late_end links_x86 R w0 cs c h0 hlen hg hl hf

/-- C137, aarch64. -/
theorem C137_a64_left (junk : Bool) (R : Addr → Prop) (w0 : Patch.World) (cs : List FileCmd) (c : FileCmd) (h0 : w0.maps = [])
    (hlen : cs.length + 1 < 2 ^ 32) (hg : LateFiles (a64 junk) Psabi.a64Width R w0 cs)
    (hl : ∀ w rs, runFiles (a64 junk) w0 cs = some (w, rs) → LateFile (a64 junk) Psabi.a64Width R w c) (hf : c.EntryFails) :
    ∃ w rs w' r st v, runFiles (a64 junk) w0 cs = some (w, rs) ∧ AllLateDo [] cs rs st ∧
      Holds Psabi.a64Width Psabi.a64Data R w0.mem w st ∧ runFile (a64 junk) w c = some (w', r) ∧ r ≠ 0 ∧ c.Gives v ∧
      Holds Psabi.a64Width Psabi.a64Data R w0.mem w' ({ v with active := false } :: st) :=
  late_end (links_a64 junk) R w0 cs c h0 hlen hg hl hf

/-- C137.  A patch that is in the process but not in effect keeps the same patch out: a command for a file
with its Build ID reports an error, whatever else happens. -/
theorem C137_blocks {M : Machine} {width : Nat → Nat}
    {value : Nat → BitVec 64 → BitVec 64 → BitVec 64 → Option (Nat × BitVec 64)} {R : Addr → Prop} {base : Mem}
    {w w' : Patch.World} {st : List LiveFile} (h : Holds width value R base w st) {v : LiveFile} (hv : v ∈ st)
    {rd hdr find now f e} (hr : ∀ m, rd m = .ok) (hb : e.bid = v.bid) {r : Int}
    (hrun : runFile M w (.patch rd hdr find now f e) = some (w', r)) : r ≠ 0 := by
  change patchFile M w rd hdr find now f e = some (w', r) at hrun
  unfold patchFile at hrun
  have hready : ∀ m ∈ w.maps, m.ready = true := by
    intro m hm
    obtain ⟨u, -, rfl⟩ := List.mem_map.1 (h.maps.mem_iff.2 hm)
    rfl
  rw [Patch.openTask_ok rd w true (fun m _ => hr m) hready] at hrun
  dsimp only at hrun
  split at hrun
  · cases hrun
  · rw [Option.some.injEq, Prod.mk.injEq] at hrun
    rw [← hrun.2]
    exact (initPatch_setup w _ _ (stops_refused e f _ _)).1
  · rename_i L _
    rw [Option.some.injEq, Prod.mk.injEq] at hrun
    rw [← hrun.2]
    intro hz
    obtain ⟨wc, hd, hcm⟩ := Patch.initPatch_made hz
    exact (Patch.initPatch_zero hcm hz).2 v.mapping (h.maps.mem_iff.1 (List.mem_map.2 ⟨v, hv, rfl⟩)) hb.symm

theorem gives_env {rd hdr find now f e} {v : LiveFile} (h : (FileCmd.patch rd hdr find now f e).Gives v) :
    e.mmap = .created v.start ∧ e.bid = v.bid := by
  obtain ⟨_, _, e', q1, q2, q3, -⟩ := h
  injection q1 with _ _ _ _ _ q4
  rw [q4]
  exact ⟨q2, q3⟩

/-! ### An example -/

/-- Attaching to write the entry fails, and so does attaching to clean up. -/
def lateEnv : Patch.PatchEnv := { pfEnv with attach2 := .fail 3 false, attach3 := .fail 3 false }

theorem late_first : LateFile x86 Psabi.x86Width fhR fhWorld (fhPatch lateEnv) := by
  refine ⟨⟨_, _, _, _, _, _, rfl, .inr (.inr ⟨16, by decide, rfl⟩)⟩, fh_good 0x10000000 fhWorld (by decide) (by decide) nofun, ?_⟩
  have ho := Patch.openTask_ok Patch.allOk fhWorld true (fun _ _ => rfl) (by decide)
  change ∃ w1, patchFile x86 fhWorld Patch.allOk 0x7f0000000000 lkEnv.find 77 lkFile pfEnv = some (w1, 0)
  refine C58_applied x86 lk_laid x86_lawful lk_readable lk_meta lk_symbols
    (by rw [x86_width]; exact lk_relocs) ho rfl pf_smooth rfl (by decide) ?_
  have : sessionEnv { ulps := fhWorld.maps, maxId := Patch.maxOf fhWorld.maps 0, ftoProc := true }
      0x7f0000000000 0x10000000 lkEnv.find 77 = { lkEnv with bids := [], maxId := 0 } := rfl
  rw [this]
  exact lk_loads_with [] 0 (fun _ _ => nofun)

theorem late_fails : (fhPatch lateEnv).EntryFails :=
  ⟨fun h => absurd h.1 (by exact nofun), .inl (by exact nofun)⟩

/-- The command reports an error; the patch is in the process, whole, but not in effect, and the code is as
before; the same command then reports an error even if nothing fails. -/
example : ∃ (w : Patch.World) (r : Int) (v : LiveFile), runFile x86 fhWorld (fhPatch lateEnv) = some (w, r) ∧ r ≠ 0 ∧ v.start = 0x10000000 ∧
    Holds Psabi.x86Width Psabi.x86 fhR fhWorld.mem w [{ v with active := false }] ∧
    (∀ x, ¬ fhR x → w.mem x = 0x55) ∧
    ∀ a w' r', runFile x86 w (fhPatch { pfEnv with mmap := .created a }) = some (w', r') → r' ≠ 0 := by
  obtain ⟨w, rs, w', r, st, v, h1, h2, -, h3, h4, h5, h6⟩ := C137_x86_left fhR fhWorld [] (fhPatch lateEnv) rfl (by decide) trivial
    (fun w rs h => by cases h; exact late_first) late_fails
  cases h1
  cases h2
  have h6' := gives_env (rd := Patch.allOk) (hdr := 0x7f0000000000) (find := lkEnv.find) (now := 77) (f := lkFile) (e := lateEnv) h5
  refine ⟨w', r, v, h3, h4, ?_, h6, ?_, ?_⟩
  · have h7 : Patch.MmapRes.created 0x10000000 = .created v.start := h6'.1
    exact (Patch.MmapRes.created.inj h7).symm
  · intro x hx
    refine C119_untouched h6 x hx ?_
    intro u hu hact
    rcases List.mem_cons.1 hu with rfl | hu
    · cases hact
    · cases hu
  · intro a w2 r2 hrun
    exact C137_blocks (rd := Patch.allOk) (hdr := 0x7f0000000000) (find := lkEnv.find) (now := 77) (f := lkFile)
      (e := { pfEnv with mmap := .created a }) h6 (List.mem_cons_self ..) (fun _ => rfl) h6'.2 hrun

/-- Commands after it: the patch that stayed is removed, and the next patch command. -/
example : LateFiles x86 Psabi.x86Width fhR fhWorld [fhPatch lateEnv, .unpatch Patch.allOk ⟨.ok, some 16, .done⟩] :=
  ⟨.inr late_first, fun _ _ _ => ⟨.inl ⟨fun _ => rfl, .inr (.inr ⟨16, by decide, rfl⟩)⟩, fun _ _ _ => trivial⟩⟩

end Ulp.LoadBytes
