/-
Specification: what is where in a file system, and what a directory tree is.
-/
import Verif.Model.Files
namespace Ulp.Files

/-- `o` is at the path `p`.  The root is a directory. -/
def At (fs : FS) (p : Path) (o : Obj) : Prop := p = [] ∧ o = .dir ∨ (p, o) ∈ fs

/-- Nothing is at the path `p`. -/
def Free (fs : FS) (p : Path) : Prop := ∀ o, ¬ At fs p o

/-- The files form a tree: there is one thing at a path, and everything is in a directory. -/
structure Tree (fs : FS) : Prop where
  one : (fs.map (·.1)).Nodup
  root : ∀ o, ([], o) ∉ fs
  parent : ∀ n p o, (n :: p, o) ∈ fs → At fs p .dir

/-- `q` is `p` or in the tree below `p`.  (The last name of a path comes first.) -/
def Below (p q : Path) : Prop := p <:+ q

/-- The length of the text of a path, `/` before every name. -/
def textLength (p : Path) : Nat := (p.map fun n => n.length + 1).sum

/-- The tree below `p` has only files and directories, all of which can be removed, and
their names fit into the buffer. -/
structure Plain (env : Env) (fs : FS) (p : Path) : Prop where
  kinds : ∀ q o, Below p q → (q, o) ∈ fs → o = .dir ∨ ∃ b, o = .reg b
  short : ∀ q o, Below p q → (q, o) ∈ fs → textLength q < PATH_MAX
  list : ∀ q, Below p q → env.noList q = false
  write : ∀ q, Below p q → env.noWrite q = false

end Ulp.Files
