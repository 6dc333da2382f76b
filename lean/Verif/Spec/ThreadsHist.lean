/-
Specification: what patching functions of a running process should mean for its threads, for several
functions with patches on top of each other.

As in `Spec/Threads`: the process keeps all its code; a thread that comes to the first instruction of a patched
function goes on in the replacement of the newest patch for it.
-/
import Verif.Model.ThreadsHist
import Verif.Spec.Threads
namespace Ulp.ThreadsHist
open Threads (Proc Mode poke window Redirect Clear Keeps)

/-- The process as it should be: with all its own code in place, and what each function does. -/
structure Ideal (I : Isa) where
  proc : Proc I
  modes : Addr → Mode

/-- Is this one of the bytes that are exchanged? `F` are the functions. -/
def InWindow (F : List Addr) (a : Addr) : Prop := ∃ f ∈ F, a ∈ window f

theorem mem_window_iff {f a : Addr} : a ∈ window f ↔ (a - f).toNat < 16 := by
  unfold window span
  rw [List.mem_map]
  constructor
  · rintro ⟨i, hi, rfl⟩
    have := List.mem_range.1 hi
    bv_omega
  · intro h
    exact ⟨(a - f).toNat, List.mem_range.2 h, by rw [BitVec.ofNat_toNat, BitVec.setWidth_eq, BitVec.add_comm, BitVec.sub_add_cancel]⟩

instance (F : List Addr) (a : Addr) : Decidable (InWindow F a) :=
  decidable_of_iff (F.any (fun f => decide ((a - f).toNat < 16)) = true) (by
    simp only [List.any_eq_true, decide_eq_true_eq, InWindow, mem_window_iff])

/-- The redirection, if any, that a thread with registers `r` takes: where it is, and what the registers are
afterwards. -/
def taken {I : Isa} {arch : Arch} (R : Redirect I arch) (F : List Addr) (s : Ideal I) (r : I.Regs) : Option (Addr × I.Regs) :=
  F.findSome? fun f =>
    match s.modes f with
    | .redirect p => (R.go f p r).map fun r' => (f, r')
    | _ => none

/-- A step of thread `i`. -/
def Ideal.run {I : Isa} {arch : Arch} (R : Redirect I arch) (F : List Addr) (i : Nat) (s : Ideal I) :
    Option (Ideal I) :=
  if s.proc.stopped i then some s
  else match taken R F s (s.proc.regs i) with
    | some (f, r) =>
      if (window f).all s.proc.mapped = false then none
      else some { s with proc := { s.proc with regs := fun j => if j = i then r else s.proc.regs j } }
    | none => (s.proc.run i).map fun q => { s with proc := q }

/-- An action.  What ulpatch does to the bytes that are exchanged is not seen; what it reads elsewhere is what
it should be. -/
def Ideal.act {I : Isa} {arch : Arch} (R : Redirect I arch) (F : List Addr) (s : Ideal I) :
    Act → Option (Ideal I)
  | .run i => s.run R F i
  | .mark f m => some { s with modes := fun g => if g = f then m else s.modes g }
  | .store a b => if InWindow F a then some s else some { s with proc := { s.proc with mem := poke s.proc.mem a b } }
  | .look a bs => if a ∈ F then some s else if s.proc.mem.read a bs.length = bs then some s else none
  | a => (ThreadsHist.act s.proc a).map fun q => { s with proc := q }

def Ideal.acts {I : Isa} {arch : Arch} (R : Redirect I arch) (F : List Addr) (s : Ideal I) :
    List Act → Option (Ideal I)
  | [] => some s
  | a :: l =>
    match s.act R F a with
    | none => none
    | some t => t.acts R F l

/-- What is asked of a thread that executes an instruction, for each of the functions (as in
`Threads.Fair`). -/
def Fair {I : Isa} {arch : Arch} (R : Redirect I arch) (F : List Addr) (s : Ideal I) (i : Nat) : Prop :=
  ∀ f ∈ F, match s.modes f with
    | .original => Keeps (window f) i s.proc
    | .changing => Clear (window f) i s.proc
    | .redirect p => (R.go f p (s.proc.regs i)).isSome ∨ Clear (window f) i s.proc

/-- All threads do so, at every moment. -/
def FairRun {I : Isa} {arch : Arch} (R : Redirect I arch) (F : List Addr) : Ideal I → List Act → Prop
  | _, [] => True
  | s, a :: l =>
    (match a with | .run i => s.proc.stopped i = false → Fair R F s i | _ => True) ∧
    ∀ t, s.act R F a = some t → FairRun R F t l

/-- The process is as it should be: all threads, all mappings, and the memory but for the bytes that are
exchanged. -/
def Same {I : Isa} (F : List Addr) (q : Proc I) (s : Ideal I) : Prop :=
  q.regs = s.proc.regs ∧ q.stopped = s.proc.stopped ∧ q.mapped = s.proc.mapped ∧
    ∀ a, ¬ InWindow F a → q.mem a = s.proc.mem a

/-- The functions do not overlap in their first 16 bytes. -/
def Apart (F : List Addr) : Prop := ∀ f ∈ F, ∀ g ∈ F, f ≠ g → ∀ a ∈ window f, a ∉ window g

/-- The commands are for the functions `F`, and the files are loaded elsewhere. -/
def Cmd.Fits (F : List Addr) : Cmd → Prop
  | .patch f _ start img _ keep => f ∈ F ∧ (∀ a ∈ span start img.length, ¬ InWindow F a) ∧
      ∀ a ∈ span keep 16, ¬ InWindow F a
  | .unpatch => True

end Ulp.ThreadsHist
