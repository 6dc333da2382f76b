/-
C101: `ulpatch --patch FILE` goes on exactly if FILE is a patch file.
-/
import Verif.Proof.CheckFile
import Verif.Props.PatchShow
namespace Ulp.PFile
open PatchFile
open Load (lit)

theorem check_post (E : Env) (file : Path) (w : World) (hw : Wf file w) :
    CheckPost E file w (checkPatchFile E (some file) w).1 (checkPatchFile E (some file) w).2 :=
  checkPatchFile_wp E file w hw.fresh hw.size

/-- **C101.**  Whatever fails on the way, a file whose metadata is not complete is never let
through, and neither is one that is not there. -/
theorem C101_only_patches (E : Env) (file : Option Path) (w : World)
    (hw : ∀ f, file = some f → Wf f w) (h : (checkPatchFile E file w).1 = .ok 0) :
    ∃ f c, file = some f ∧ w.files f = some c ∧ (c.length < 2 ^ 32 →
      ∀ secs, Describes c secs → Readable c secs → Complete c secs) := by
  cases file with
  | none => cases h
  | some f =>
    have hp := check_post E f w (hw f rfl)
    rw [h] at hp
    revert hp
    generalize (checkPatchFile E (some f) w).2 = w'
    intro hp
    cases hp with
    | fail _ _ _ he => exact absurd rfl he
    | good _ _ c li _ _ _ hc _ hs =>
      refine ⟨f, c, rfl, hc, fun hl secs hd hr => ?_⟩
      rw [Nat.mod_eq_of_lt hl, List.take_length] at hs
      exact (Load.C19_accepts_iff c secs hd hr).mp ⟨li, hs⟩

/-- **C101.**  If no call fails, a patch file is let through exactly if its metadata is
complete; otherwise the error is -61.  What was taken for the check is given back. -/
theorem C101_check_partial (E : Env) (file : Path) (w : World) (hw : Wf file w) (c : List Byte)
    (secs : List Sec) (hc : w.files file = some c) (hl : c.length < 2 ^ 31) (hd : Describes c secs)
    (hr : Readable c secs) (hmag : [0x7f, 0x45, 0x4c, 0x46] <+: c) (hne : file ≠ ascii "temp.ulp")
    (hall : ∀ n, E.code n = 0) :
    (Complete c secs → (checkPatchFile E (some file) w).1 = .ok 0) ∧
    (¬ Complete c secs → (checkPatchFile E (some file) w).1 = .ok (-61)) ∧
    (checkPatchFile E (some file) w).2.live.Perm w.live := by
  have hp := check_post E file w hw
  have hcc : Copied file w c := ⟨c, hc, by rw [Nat.mod_eq_of_lt (by omega), List.take_length]⟩
  have hnb : ¬ Bad E := fun ⟨n, h⟩ => h (hall n)
  obtain ⟨o, x, strs, d⟩ := Load.Describes.desc hd
  obtain ⟨r, h1, -⟩ := Load.setup_master d hr
  have h64 : 64 ≤ c.length := Num.le d.hx (by omega)
  have hiff := Load.C19_accepts_iff c secs hd hr
  have same : ∀ w' l, Grew w w' l → Leak E l → w'.live.Perm w.live := by
    intro w' l hl hk
    rcases grew_perm hl hk with h | ⟨h, -⟩
    · exact h
    · exact absurd h hnb
  revert hp
  generalize (checkPatchFile E (some file) w).1 = res
  generalize (checkPatchFile E (some file) w).2 = w'
  intro hp
  cases hp with
  | crash _ _ _ _ hb =>
    exfalso
    rcases hb with hb | hb
    · exact hnb hb
    · rcases hb c hcc with h | h
      · rw [chkLen_describes hd] at h
        cases h
      · rw [h1] at h
        cases h
  | fail _ _ _ _ hb =>
    exfalso
    rcases hb with hb | hb
    · exact hnb hb
    · rcases hb c hc with h | h | h | h
      · rw [Nat.mod_eq_of_lt (by omega)] at h
        omega
      · rw [Nat.mod_eq_of_lt (by omega)] at h
        omega
      · exact hne h
      · rw [Nat.mod_eq_of_lt (by omega), List.take_length, magicOk_elf hmag] at h
        cases h
  | refused _ l c' e _ hl hk hc' _ hs =>
    rw [hc] at hc'
    cases hc'
    rw [Nat.mod_eq_of_lt (by omega), List.take_length] at hs
    refine ⟨fun hcomp => ?_, fun _ => rfl, same _ _ hl hk⟩
    obtain ⟨li, hli⟩ := hiff.mpr hcomp
    rw [hs] at hli
    cases hli
  | good _ l c' li _ hl hk hc' _ hs =>
    rw [hc] at hc'
    cases hc'
    rw [Nat.mod_eq_of_lt (by omega), List.take_length] at hs
    exact ⟨fun _ => rfl, fun hn => absurd (hiff.mp ⟨li, hs⟩) hn, same _ _ hl hk⟩

example : (checkPatchFile okEnv (some (lit "p.ulp")) (exWorld none)).1 = .ok 0 :=
  (C101_check_partial okEnv (lit "p.ulp") (exWorld none) (exWorld_wf none nofun _) Load.exFile Load.exSecs
    (by decide +kernel) (by decide +kernel) Load.exFile_describes Load.exFile_readable
    (List.isPrefixOf_iff_prefix.1 (by decide +kernel)) (by decide) (fun _ => rfl)).1
    Load.exFile_complete

/-- A file of another version is refused. -/
example : (checkPatchFile okEnv (some (lit "old.ulp")) (exWorld none)).1 = .ok (-61) ∧
    (checkPatchFile okEnv none (exWorld none)).1 = .ok (-17) ∧
    (checkPatchFile okEnv (some (lit "none.ulp")) (exWorld none)).1 = .ok (-17) := by
  refine ⟨?_, ?_, ?_⟩ <;> decide +kernel

/-- **C101, safety.**  However the check ends, no file but `temp.ulp` in the working directory
is changed, nothing is given back twice and nothing is written outside of the copy. -/
theorem C101_safe (E : Env) (file : Path) (w : World) (hw : Wf file w) :
    (∀ q, q ≠ ascii "temp.ulp" → (checkPatchFile E (some file) w).2.files q = w.files q) ∧
    (∀ x, (checkPatchFile E (some file) w).1 = .error x → x ≠ .doubleFree ∧ x ≠ .overflow) ∧
    ∀ r, w.live.count r ≤ (checkPatchFile E (some file) w).2.live.count r := by
  have hp := check_post E file w hw
  revert hp
  generalize (checkPatchFile E (some file) w).1 = res
  generalize (checkPatchFile E (some file) w).2 = w'
  intro hp
  have g : ∀ l, Grew w w' l → ∀ r, w.live.count r ≤ w'.live.count r := by
    intro l h r
    rw [h r]
    omega
  cases hp with
  | crash _ l c hc _ hf hl => exact ⟨hf, fun x hx => by cases hx; exact hc, g _ hl⟩
  | fail _ l e _ _ hf hl => exact ⟨hf, nofun, g _ hl⟩
  | refused _ l c e hf hl =>
    exact ⟨fun q hq => by rw [hf]; exact update_ne _ _ _ _ hq, nofun, g _ hl⟩
  | good _ l c li hf hl =>
    exact ⟨fun q hq => by rw [hf]; exact update_ne _ _ _ _ hq, nofun, g _ hl⟩

/-- **Finding.**  The copy is never removed: after every check that lets the file through,
`temp.ulp` in the working directory is the patch file, whatever was there before. -/
theorem C101_leaves (E : Env) (file : Path) (w : World) (hw : Wf file w) (c : List Byte)
    (hc : w.files file = some c) (hl : c.length < 2 ^ 32)
    (h : (checkPatchFile E (some file) w).1 = .ok 0) :
    (checkPatchFile E (some file) w).2.files (ascii "temp.ulp") = some c ∧
      file ≠ ascii "temp.ulp" := by
  have hp := check_post E file w hw
  rw [h] at hp
  revert hp
  generalize (checkPatchFile E (some file) w).2 = w'
  intro hp
  cases hp with
  | fail _ _ _ he => exact absurd rfl he
  | good _ _ c' li hf _ _ hc' hne hs =>
    rw [hc] at hc'
    cases hc'
    refine ⟨?_, hne⟩
    rw [hf, Nat.mod_eq_of_lt hl, List.take_length]
    exact update_eq _ _ _

/-- The user's file of that name is lost. -/
example : (exWorld (some [1])).files (ascii "temp.ulp") = some [1] ∧
    (checkPatchFile okEnv (some (lit "p.ulp")) (exWorld (some [1]))).2.files (ascii "temp.ulp") =
      some Load.exFile :=
  ⟨by decide +kernel, (C101_leaves _ _ _ (exWorld_wf (some [1]) (by rintro c ⟨⟩; decide) _)
    Load.exFile (by decide +kernel) (by decide +kernel) (by decide +kernel)).1⟩

/-- **Finding.**  A patch file that is called `temp.ulp` is overwritten with zeros by its own
check, and refused. -/
theorem C101_destroys : (exWorld (some Load.exFile)).files (ascii "temp.ulp") = some Load.exFile ∧
    (checkPatchFile okEnv (some (ascii "temp.ulp")) (exWorld (some Load.exFile))).1 = .ok (-2) ∧
    (checkPatchFile okEnv (some (ascii "temp.ulp")) (exWorld (some Load.exFile))).2.files
      (ascii "temp.ulp") = some (List.replicate Load.exFile.length 0) := by
  refine ⟨?_, ?_, ?_⟩ <;> decide +kernel

/-- **Finding.**  A file whose section headers are not all there crashes the check. -/
theorem C101_crash :
    (checkPatchFile okEnv (some (lit "cut.ulp")) (exWorld none)).1 = .error .dangling := by
  decide +kernel

end Ulp.PFile
