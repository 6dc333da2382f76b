/-
C05, C07: the reasons that patching and unpatching report.
-/
import Verif.Props.Patch
import Verif.Model.LoadBytes
import Verif.Props.LoadEx
namespace Ulp.Patch

/-- **C07.**  Unpatching a process that has no patch changes nothing and reports -2, no such
patch; a write or an unmapping that fails is reported as -8. -/
theorem C07_unpatch_reasons (w : World) (s : Session) (e : DeleteEnv) :
    (s.ulps = [] → deletePatch w s e = (w, -2)) ∧
    (∀ u, s.ulps.find? (fun u => decide (s.maxId = u.info.id)) = some u → e.attach = .ok →
      ((e.writeN = none ∨ ∃ k, e.writeN = some k ∧ k < u.info.orig.length) ∨
        (∃ k, e.writeN = some k ∧ u.info.orig.length ≤ k) ∧ (∃ g, e.munmap = .failed g)) →
      (deletePatch w s e).2 = -8) := by
  refine ⟨fun h => by rw [deletePatch, h]; rfl, fun u hu ha h => ?_⟩
  rw [deletePatch, hu]
  simp only [ha]
  rcases h with (h | ⟨k, h, hk⟩) | ⟨⟨k, h, hk⟩, g, hg⟩
  · simp only [h, writeTask]; rfl
  · simp only [h, writeTask]
    rw [if_neg (by simpa using hk)]
    rfl
  · simp only [h, writeTask, hg]
    rw [if_pos (by simpa using hk)]
    rfl

/-- What a patch file must pass before its functions are looked for. -/
def Loads (s : Session) (e : PatchEnv) : Prop :=
  e.setup = none ∧ e.rewrite = none ∧ e.simplify = none ∧ e.apply = none ∧
    ∀ u ∈ s.ulps, u.bid ≠ e.bid

theorem kickImage_none (w : World) (e : PatchEnv) (hdr : Addr) (info : Info)
    (h : w.mapped hdr = false ∨ e.imageN = none) : (kickImage w e hdr info).2 = -8 := by
  have : (if w.mapped hdr = true then e.imageN else none) = none := by
    rcases h with h | h
    · rw [h]; rfl
    · rw [h]; simp
  rw [kickImage, this]
  rfl

theorem mapped_updMap (w : World) (hdr : Addr) (f : Mapping → Mapping) (hf : ∀ m, (f m).start = m.start) :
    (updMap w hdr f).mapped hdr = w.mapped hdr := by
  unfold World.mapped updMap
  dsimp only
  rw [List.any_map]
  congr 1
  funext m
  by_cases hm : m.start = hdr
  · simp [hm, hf]
  · simp [hm]

/-- **C05.**  The reasons of a patch file that is loaded: -114 if a patch with this Build ID is
there already; -2 if the function to replace or its replacement is not found; -8 if the old
code cannot be read, or the image or the jump cannot be written completely. -/
theorem C05_reasons (w : World) (s : Session) (e : PatchEnv) (hdr : Addr) :
    (e.setup = none → (∃ u ∈ s.ulps, u.bid = e.bid) → loadPatch w s e hdr = (w, s, -114)) ∧
    (Loads s e → e.target = none ∨ e.source = none → (loadPatch w s e hdr).2.2 = -2) ∧
    (Loads s e → e.target ≠ none → e.source ≠ none →
      (e.preadN = none ∨ ∃ k, e.preadN = some k ∧ k < 16) → (loadPatch w s e hdr).2.2 = -8) ∧
    (Loads s e → e.target ≠ none → e.source ≠ none → (∃ k, e.preadN = some k ∧ 16 ≤ k) →
      w.mapped hdr = false ∨ e.imageN = none → (loadPatch w s e hdr).2.2 = -8) := by
  have hload : Loads s e → loadPatch w s e hdr
      = solveAndKick (updMap w hdr fun m => { m with ready := true }) s e hdr := by
    rintro ⟨h1, h2, h3, h4, h5⟩
    rw [loadPatch]
    simp only [h1, h2, h3, h4]
    rw [if_neg]
    simpa using h5
  refine ⟨?_, ?_, ?_, ?_⟩
  · rintro h1 ⟨u, hu, hb⟩
    rw [loadPatch]
    simp only [h1]
    rw [if_pos (List.any_eq_true.2 ⟨u, hu, by simpa using hb⟩)]
    rfl
  · intro hl h
    rw [hload hl, solveAndKick]
    rcases h with h | h
    · simp only [h]; rfl
    · cases ht : e.target with
      | none => rfl
      | some t => simp only [h]; rfl
  · intro hl ht hs h
    rw [hload hl, solveAndKick]
    obtain ⟨t, ht⟩ := Option.ne_none_iff_exists'.1 ht
    obtain ⟨p, hs⟩ := Option.ne_none_iff_exists'.1 hs
    simp only [ht, hs, kick]
    rcases h with h | ⟨k, h, hk⟩
    · simp only [h]; rfl
    · simp only [h]
      rw [if_pos (by simpa [jmpEntrySize] using hk)]
      rfl
  · intro hl ht hs ⟨k, h, hk⟩ hi
    rw [hload hl, solveAndKick]
    obtain ⟨t, ht⟩ := Option.ne_none_iff_exists'.1 ht
    obtain ⟨p, hs⟩ := Option.ne_none_iff_exists'.1 hs
    simp only [ht, hs, kick, h]
    rw [if_neg (by simp [jmpEntrySize]; omega)]
    refine kickImage_none _ _ _ _ ?_
    rcases hi with hi | hi
    · left
      rw [mapped_updMap, mapped_updMap, mapped_updMap]
      · exact hi
      all_goals intro m; rfl
    · exact .inr hi

/-- **C05.**  If the process cannot open the patch file, make it large enough or map it, the patch
is refused, with -1 in the first case and -14 in the others. -/
theorem C05_map_reasons (w : World) (s : Session) (e : PatchEnv) (hs : s.ftoProc = true)
    (ha : e.alloc = none) (hc : e.chown = none) (h1 : e.attach1 = .ok) :
    (e.fd ≤ 0 → (initPatch w s e).2.2 = -1) ∧
    (0 < e.fd → e.ftruncate ≠ 0 → (initPatch w s e).2.2 = -14) ∧
    (0 < e.fd → e.ftruncate = 0 → (∃ left, e.mmap = .inject left) →
      (initPatch w s e).2.2 = -14) := by
  have h : ∀ w' r, createMmap w e = (w', .error r) → (initPatch w s e).2.2 = r := by
    intro w' r h
    rw [initPatch, if_neg (by simp [hs])]
    simp only [ha, hc, h]
  refine ⟨fun hf => ?_, fun hf ht => ?_, fun hf ht hm => ?_⟩
  · refine h (attach .ok w).1 _ ?_
    rw [createMmap]; simp only [h1]; rw [if_pos hf]
  · refine h (detach (attach .ok w).1) _ ?_
    rw [createMmap]; simp only [h1]; rw [if_neg (by omega), if_pos ht]; rfl
  · obtain ⟨left, hm⟩ := hm
    cases left with
    | none =>
      refine h (detach (attach .ok w).1) _ ?_
      rw [createMmap]; simp only [h1]; rw [if_neg (by omega), if_neg (by simpa using ht)]
      simp only [hm]; rfl
    | some a =>
      have : ∃ w', createMmap w e = (w', .error (-14)) := by
        rw [createMmap]; simp only [h1]; rw [if_neg (by omega), if_neg (by simpa using ht)]
        simp only [hm]; exact ⟨_, rfl⟩
      obtain ⟨w', h'⟩ := this
      exact h w' _ h'

/-- **C05.**  A patch file whose Build ID is that of a live patch is refused with -114, whatever
else is in it. -/
theorem C05_duplicate_file (M : LoadBytes.Machine) (E : LoadBytes.Env) (img : List Byte) (o : Nat)
    (inf : Load.Info) (b : List Byte) (ho : Load.shoff img = some o)
    (hi : Load.setupLoadInfo img = some (.ok inf)) (hb : inf.buildId = some b)
    (hm : b ∈ E.bids) : LoadBytes.load M E img = some (.error (-114)) := by
  have : E.bids.contains b = true := by simpa using hm
  unfold LoadBytes.load
  rw [ho]
  dsimp only
  rw [hi]
  dsimp only
  rw [hb]
  dsimp only
  rw [this]
  rfl

/-- **C05.**  A patch file that cannot be taken over has a reason of its own: there is no such
file, it is no patch, there is no memory for it, it cannot be copied, it is not ELF. -/
theorem C05_file_reasons (e : Load.FileEnv) (file : List Byte) :
    (e.exist = false → Load.allocPatchFile e file = some (-17, none)) ∧
    (e.exist = true → file.length < 64 → Load.allocPatchFile e file = some (-8, none)) ∧
    (e.exist = true → 64 ≤ file.length → e.mmap = false →
      Load.allocPatchFile e file = some (-12, none)) ∧
    (e.exist = true → 64 ≤ file.length → e.mmap = true → e.copy = false →
      Load.allocPatchFile e file = some (-14, none)) ∧
    (e.exist = true → 64 ≤ file.length → e.mmap = true → e.copy = true →
      ¬ [0x7f, 0x45, 0x4c, 0x46] <+: file → Load.allocPatchFile e file = some (-2, none)) := by
  refine ⟨fun h => ?_, fun h h1 => ?_, fun h h1 h2 => ?_, fun h h1 h2 h3 => ?_, fun h h1 h2 h3 h4 => ?_⟩ <;>
    unfold Load.allocPatchFile
  · rw [if_pos h]; rfl
  · rw [if_neg (by simp [h]), if_pos h1]; rfl
  · rw [if_neg (by simp [h]), if_neg (by omega), if_pos h2]; rfl
  · rw [if_neg (by simp [h]), if_neg (by omega), if_neg (by simp [h2]), if_pos h3]; rfl
  · rw [if_neg (by simp [h]), if_neg (by omega), if_neg (by simp [h2]), if_neg (by simp [h3])]
    obtain ⟨c, hc, hr⟩ := Load.C21_magic_refused e file h4
    unfold Load.allocPatchFile at hr
    rw [if_neg (by simp [h]), if_neg (by omega), if_neg (by simp [h2]), if_neg (by simp [h3])] at hr
    cases hm : Load.magicOk file with
    | none => rw [hm] at hr; cases hr
    | some b =>
      cases b with
      | false => rfl
      | true =>
        rw [hm] at hr
        dsimp only at hr
        cases hl : Load.chkLen file with
        | none => rw [hl] at hr; cases hr
        | some b => rw [hl] at hr; cases b <;> cases hr <;> omega

/-- The worlds of the other examples meet the hypotheses. -/
example : Loads ⟨[], 0, true⟩ exEnv ∧ exEnv.target ≠ none ∧ exEnv.source ≠ none := by
  refine ⟨⟨rfl, rfl, rfl, rfl, nofun⟩, ?_, ?_⟩ <;> simp [exEnv]

/-- A process that cannot map the file. -/
example : (initPatch exWorld ⟨[], 0, true⟩ { exEnv with mmap := .inject none }).2.2 = -14 :=
  (C05_map_reasons _ _ _ rfl rfl rfl rfl).2.2 (by decide) rfl ⟨_, rfl⟩

/-- The file of the other examples has a Build ID. -/
example : ∃ o, Load.shoff Load.exFile = some o ∧ ∃ inf b,
    Load.setupLoadInfo Load.exFile = some (.ok inf) ∧ inf.buildId = some b := by
  have h : ((Load.setupLoadInfo Load.exFile).bind fun r => r.toOption.bind fun i => i.buildId).isSome
      = true := by decide +kernel
  have ho : (Load.shoff Load.exFile).isSome = true := by decide +kernel
  obtain ⟨o, ho⟩ := Option.isSome_iff_exists.1 ho
  obtain ⟨b, hb⟩ := Option.isSome_iff_exists.1 h
  refine ⟨o, ho, ?_⟩
  cases hs : Load.setupLoadInfo Load.exFile with
  | none => rw [hs] at hb; cases hb
  | some r =>
    cases r with
    | error e => rw [hs] at hb; cases hb
    | ok i => rw [hs] at hb; exact ⟨i, b, rfl, hb⟩

end Ulp.Patch
