/-
C62: what the sessions of the tools leave in the directory of a process.
-/
import Verif.Proof.WorkDir
import Verif.Model.Load
namespace Ulp.WorkDir
open Ulp.Load (lit)

/-- C62.  After every history of sessions of any number of tools, interleaved in any
way, with opens, patches and unpatches that succeed or fail: the file behind every patch
mapped in the process is still there, in its directory, with the contents it was mapped
with, provided no temporary name came twice. -/
theorem C62_files_kept_partial (comm : Content) (ops : List Op) (h : (names ops).Nodup) :
    ∀ f ∈ (run (World.fresh comm) ops).live, Holds (run (World.fresh comm) ops).dir f := by
  have hi := inv_history comm ops h
  generalize run (World.fresh comm) ops = w at *
  intro f hf
  cases hm : w.dir.maps with
  | none => rw [hi.gone hm] at hf; cases hf
  | some l =>
    obtain ⟨h1, h2⟩ := hi.files l hm
    refine ⟨hi.pid (by rw [hm]; rfl), l, hm, (h2 f).2 hf, ?_⟩
    exact fun g hg e => uniq h1 ((h2 f).2 hf) hg e

/-- C62.  After every such history, nothing but the files of the patches mapped in the
process is in `map_files`. -/
theorem C62_no_litter (comm : Content) (ops : List Op) (h : (names ops).Nodup)
    (l : List (Name × Content)) (hl : (run (World.fresh comm) ops).dir.maps = some l) :
    ∀ f ∈ l, f ∈ (run (World.fresh comm) ops).live :=
  fun f hf => (((inv_history comm ops h).files l hl).2 f).1 hf

/-- C62.  After every such history, a tool that opens a process in which no patch is
mapped and closes it leaves nothing behind; and if a patch is mapped it leaves the
directory with `comm` and all the files. -/
theorem C62_open_close (comm : Content) (ops : List Op) (h : (names ops).Nodup) (s : Nat) :
    ((run (World.fresh comm) ops).live = [] →
      (run (World.fresh comm) (ops ++ [.open s, .close s])).dir = Dir.none) ∧
    ((run (World.fresh comm) ops).live ≠ [] →
      (run (World.fresh comm) (ops ++ [.open s, .close s])).dir =
        ⟨true, some (run (World.fresh comm) ops).comm, (run (World.fresh comm) ops).dir.maps⟩) := by
  have hr : ∀ (a b : List Op) (w : World), run w (a ++ b) = run (run w a) b := by
    intro a
    induction a with
    | nil => intro b w; rfl
    | cons o a ih => intro b w; exact ih b _
  rw [hr]
  have hi := inv_history comm ops h
  generalize run (World.fresh comm) ops = w at *
  rcases w with ⟨⟨p, c, m⟩, cm, live, k⟩
  constructor
  · intro hl
    dsimp only at hl
    subst hl
    cases m with
    | none => simp [run, step, World.session, checkAndFree, openMaps, openPid, cleanProc, Dir.none]
    | some l =>
      have : l = [] := List.eq_nil_iff_forall_not_mem.2 fun f hf => by
        simpa using ((hi.files l rfl).2 f).1 hf
      subst this
      simp [run, step, World.session, checkAndFree, openMaps, openPid, cleanProc, Dir.none]
  · intro hl
    dsimp only at hl
    cases m with
    | none => exact absurd (hi.gone rfl) hl
    | some l => simp [run, step, World.session, checkAndFree, openMaps, openPid, hl]

/-- Finding: the name of the file of a patch is made unique in the current directory of
the tool, not in the directory it is used in (src/utils/file.c:277-282).  If it is the
name of a patch that is mapped, the file of that patch is overwritten: the process now
runs other code. -/
theorem C62_name_taken (comm : Content) (n : Name) (c c' : Content) (h : c ≠ c') :
    let w := run (World.fresh comm) [.open 0, .patch 0 n c, .patch 0 n c']
    (n, c) ∈ w.live ∧ ¬ Holds w.dir (n, c) := by
  refine ⟨by simp [run, step, World.session, openMaps, openPid, World.fresh, Dir.none], ?_⟩
  rintro ⟨-, l, hl, hf, -⟩
  simp only [run, step, World.session, openMaps, openPid, World.fresh, Dir.none, writeFile,
    Option.some.injEq, if_true] at hl
  subst hl
  simp [h] at hf

/-- Finding: an open that fails before it has read the mappings, for example because
/proc/PID/mem cannot be opened, removes `comm` of a process that is patched. -/
theorem C62_failed_open (comm : Content) (n : Name) (c : Content) :
    let w := run (World.fresh comm) [.open 0, .patch 0 n c, .close 0, .openFail .unread]
    w.live = [(n, c)] ∧ w.dir.comm = none ∧
      (run (World.fresh comm) [.open 0, .patch 0 n c, .close 0]).dir.comm = some comm := by
  simp [run, step, World.session, openMaps, openPid, World.fresh, Dir.none, checkAndFree, cleanProc,
    writeFile]

/-- Finding: the session that removes the last patch goes on to count it, and leaves the
directories behind. -/
theorem C62_unpatch_leaves (comm : Content) (n : Name) (c : Content) :
    let w := run (World.fresh comm) [.open 0, .patch 0 n c, .close 0, .open 1, .unpatch 1 n, .close 1]
    w.live = [] ∧ w.dir = ⟨true, some comm, some []⟩ := by
  simp [run, step, World.session, openMaps, openPid, World.fresh, Dir.none, checkAndFree,
    writeFile, removeFile]

/-- Finding: a session that closes an unpatched process takes away the directories of
another session, whose patch then fails. -/
theorem C62_taken_away (comm : Content) (n : Name) (c : Content) :
    (run (World.fresh comm) [.open 0, .patch 0 n c]).live = [(n, c)] ∧
    (run (World.fresh comm) [.open 0, .open 1, .close 1, .patch 0 n c]).live = [] := by
  simp [run, step, World.session, openMaps, openPid, World.fresh, Dir.none, checkAndFree, cleanProc,
    writeFile]

/-- Two tools at work at the same time: one patch stays, one fails, one is removed. -/
def exOps : List Op :=
  [.open 0, .patch 0 (lit "ulp-a1") (lit "A"), .open 1, .patchFail 1 (lit "ulp-b2") (lit "B") true,
    .close 0, .patch 1 (lit "ulp-c3") (lit "C"), .openFail .unread, .open 2, .unpatch 2 (lit "ulp-a1"),
    .close 1, .openFail .mkdir, .close 2]

example : (names exOps).Nodup ∧ (run (World.fresh (lit "init")) exOps).live = [(lit "ulp-c3", lit "C")] ∧
    (run (World.fresh (lit "init")) exOps).dir = ⟨true, some (lit "init"), some [(lit "ulp-c3", lit "C")]⟩ := by
  decide +kernel

example : Holds (run (World.fresh (lit "init")) exOps).dir (lit "ulp-c3", lit "C") :=
  C62_files_kept_partial _ exOps (by decide +kernel) _ (by decide +kernel)

end Ulp.WorkDir
