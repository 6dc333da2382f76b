/-
Specification: what patching a function of a running process should mean for its threads.

The process keeps all its code.  From the moment the function is patched a thread that comes to its
first instruction goes on in the replacement; from the moment the patch is taken out it goes on
in the function.  Nothing else that a thread does is different.
-/
import Verif.Model.Threads
namespace Ulp.Threads

/-- The 16 bytes that are exchanged. -/
def window (f : Addr) : List Addr := span f 16

/-- What a processor makes of the entry for `p` at `f`: what one of its instructions does to the
registers of a thread that is at the entry. -/
structure Redirect (I : Isa) (arch : Arch) where
  go : Addr → Addr → I.Regs → Option I.Regs
  step : ∀ (m : Mem) (f p : Addr) (r r' : I.Regs), m.read f 16 = jmpEntry arch p →
    go f p r = some r' → I.step m r = some (r', [])
  reads : ∀ (m : Mem) (f p : Addr) (r r' : I.Regs), m.read f 16 = jmpEntry arch p →
    go f p r = some r' → ∀ a ∈ I.reads m r, a ∈ window f

/-- The process as it should be: with the code of the function in place, and whether the function
is redirected. -/
structure Ideal (I : Isa) where
  proc : Proc I
  mode : Mode

/-- A step of thread `i`. -/
def Ideal.run {I : Isa} {arch : Arch} (R : Redirect I arch) (f : Addr) (i : Nat) (s : Ideal I) :
    Option (Ideal I) :=
  let ordinary := (s.proc.run i).map fun q => { s with proc := q }
  if s.proc.stopped i then some s
  else match s.mode with
    | .redirect p =>
      match R.go f p (s.proc.regs i) with
      | some r =>
        if (window f).all s.proc.mapped = false then none
        else some { s with proc := { s.proc with regs := fun j => if j = i then r else s.proc.regs j } }
      | none => ordinary
    | _ => ordinary

/-- An action: stores of ulpatch are not seen. -/
def Ideal.act {I : Isa} {arch : Arch} (R : Redirect I arch) (f : Addr) (s : Ideal I) :
    Act → Option (Ideal I)
  | .run i => s.run R f i
  | .mark m => some { s with mode := m }
  | .store _ _ => some s
  | a => (s.proc.act a).map fun q => { s with proc := q }

def Ideal.acts {I : Isa} {arch : Arch} (R : Redirect I arch) (f : Addr) (s : Ideal I) :
    List Act → Option (Ideal I)
  | [] => some s
  | a :: l =>
    match s.act R f a with
    | none => none
    | some t => t.acts R f l

/-- The instruction that thread `i` executes neither reads nor stores at the addresses `W`. -/
def Clear {I : Isa} (W : List Addr) (i : Nat) (p : Proc I) : Prop :=
  (∀ a ∈ I.reads p.mem (p.regs i), a ∉ W) ∧
  ∀ r st, I.step p.mem (p.regs i) = some (r, st) → ∀ e ∈ st, e.1 ∉ W

/-- The instruction does not store at the addresses `W`. -/
def Keeps {I : Isa} (W : List Addr) (i : Nat) (p : Proc I) : Prop :=
  ∀ r st, I.step p.mem (p.regs i) = some (r, st) → ∀ e ∈ st, e.1 ∉ W

/-- What is asked of a thread that executes an instruction: as long as the function is not patched
it does not store at the 16 bytes; while they are exchanged it is not at them; when it is patched it
comes to them at the entry only. -/
def Fair {I : Isa} {arch : Arch} (R : Redirect I arch) (f : Addr) (s : Ideal I) (i : Nat) : Prop :=
  match s.mode with
  | .original => Keeps (window f) i s.proc
  | .changing => Clear (window f) i s.proc
  | .redirect p => (R.go f p (s.proc.regs i)).isSome ∨ Clear (window f) i s.proc

/-- All threads do so, at every moment. -/
def FairRun {I : Isa} {arch : Arch} (R : Redirect I arch) (f : Addr) :
    Ideal I → List Act → Prop
  | _, [] => True
  | s, a :: l =>
    (match a with | .run i => s.proc.stopped i = false → Fair R f s i | _ => True) ∧
    ∀ t, s.act R f a = some t → FairRun R f t l

/-- The process is as it should be: all threads, all mappings, and the memory but for the 16
bytes. -/
def Same {I : Isa} (f : Addr) (q : Proc I) (s : Ideal I) : Prop :=
  q.regs = s.proc.regs ∧ q.stopped = s.proc.stopped ∧ q.mapped = s.proc.mapped ∧
    ∀ a, a ∉ window f → q.mem a = s.proc.mem a

end Ulp.Threads
