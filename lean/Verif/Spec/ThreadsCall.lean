/-
Specification: what a system call made for ulpatch should be to the threads of a process: one step in
which nothing happens but what the system call does.
-/
import Verif.Model.ThreadsCall
import Verif.Spec.Threads
namespace Ulp.Threads

/-- The process as it should be: code that is stored and registers that are set are not seen. -/
def Ideal.op {I : Isa} (s : Ideal I) : Op I → Option (Ideal I)
  | .act (.run i) => (s.proc.run i).map fun q => { s with proc := q }
  | .act (.mark m) => some { s with mode := m }
  | .act (.store _ _) => some s
  | .act a => (s.proc.act a).map fun q => { s with proc := q }
  | .regs _ => some s
  | .call e _ => some { s with
      proc := { s.proc with mem := e.mem s.proc.mem, mapped := e.mapped s.proc.mapped } }

def Ideal.ops {I : Isa} (s : Ideal I) : List (Op I) → Option (Ideal I)
  | [] => some s
  | a :: l =>
    match s.op a with
    | none => none
    | some t => t.ops l

/-- What is asked of the threads: that they are not at the addresses `W` while the code of a system call is
there, and never store there. -/
def FairOps {I : Isa} (W : List Addr) : Ideal I → List (Op I) → Prop
  | _, [] => True
  | s, a :: l =>
    (match a with
      | .act (.run i) => s.proc.stopped i = false →
          Keeps W i s.proc ∧ (s.mode = .changing → Clear W i s.proc)
      | _ => True) ∧
    ∀ t, s.op a = some t → FairOps W t l

/-- The kernel neither uses nor changes the bytes at `W`. -/
structure Invisible (W : List Addr) (e : Effect) : Prop where
  uses : ∀ m m' : Mem, (∀ a, a ∉ W → m a = m' a) → ∀ a, a ∉ W → e.mem m a = e.mem m' a
  keeps : ∀ (m : Mem), ∀ a ∈ W, e.mem m a = m a

end Ulp.Threads
