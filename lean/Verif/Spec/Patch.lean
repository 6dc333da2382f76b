/-
What is assumed about the environment of patch and unpatch commands, and the
vocabulary of the statements about histories.
-/
import Verif.Model.Patch
import Verif.Spec.Overlay
namespace Ulp.Patch

/-- The patch mapping is placed in the area `R`, away from the program's code
and from the other patches (what `mmap` without `MAP_FIXED` guarantees). -/
structure PatchEnv.Placed (R : Addr → Prop) (w : World) (e : PatchEnv) : Prop where
  /-- `orig_code` has 16 bytes -/
  wf : e.info0.orig.length = 16
  img : ∀ i, (e.image i).length ≤ e.len
  area : match e.mmap with
    | .created a => (∀ i, i < e.len → R (a + BitVec.ofNat 64 i)) ∧ ∀ m ∈ w.maps, m.start ≠ a
    | .errno v => ∀ m ∈ w.maps, m.start ≠ v
    | .inject l => l = none
  text : ∀ t, e.target = some t → WindowOff R t 16

/-- The 16-byte write of the entry is all or nothing. -/
def PatchEnv.EntryAtomic (e : PatchEnv) : Prop :=
  e.entryN = none ∨ e.entryN = some 0 ∨ ∃ k, 16 ≤ k ∧ e.entryN = some k

/-- Undoing a failed patch works: the clean-up can attach, and the mapping is gone, whatever the call reports. -/
def PatchEnv.CleanupOk (e : PatchEnv) : Prop := e.attach3 = .ok ∧ e.munmap3 ≠ .failed false

/-- All of the above. -/
structure PatchEnv.Good (R : Addr → Prop) (w : World) (e : PatchEnv) : Prop
    extends e.Placed R w where
  entry : e.EntryAtomic
  cleanup : e.CleanupOk

/-- A live patch: its mapping, and whether its redirect is still in place (it is
not after an unpatch that restored the text but could not unmap). -/
structure Layer where
  map : Mapping
  active : Bool

/-- The redirect of a layer on machine `arch`: the 16-byte entry for the
replacement, over the start of the target function. -/
def Layer.overlay (arch : Arch) (l : Layer) : Overlay :=
  ⟨l.map.info.virt, jmpEntry arch l.map.info.patchFn⟩

/-- The environment of an unpatch command behaves: the 16-byte write is all or
nothing. -/
def DeleteEnv.Good (e : DeleteEnv) : Prop :=
  e.writeN = none ∨ e.writeN = some 0 ∨ ∃ k, 16 ≤ k ∧ e.writeN = some k

/-- Every system call of the command behaves as described by `Good`. -/
def GoodCmd (R : Addr → Prop) (w : World) : Cmd → Prop
  | .patch rd e => (∀ m, rd m = .ok) ∧ e.Good R w
  | .unpatch rd e => (∀ m, rd m = .ok) ∧ e.Good

/-- `GoodCmd` along a history. -/
def GoodHist (R : Addr → Prop) : World → List Cmd → Prop
  | _, [] => True
  | w, c :: cs => GoodCmd R w c ∧ ∀ w' r, runCmd w c = some (w', r) → GoodHist R w' cs

/-- The command is not an unpatch whose unmapping fails. -/
def Cmd.unmaps : Cmd → Prop
  | .patch _ _ => True
  | .unpatch _ e => e.munmap ≠ .failed false

/-- An attach that fails does not leave the process traced. -/
def AttachRes.clean : AttachRes → Prop
  | .ok => True
  | .fail _ left => left = false

end Ulp.Patch
