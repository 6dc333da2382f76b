/- When a process can be opened, in one sentence. -/
import Verif.Model.OpenTask
namespace Ulp.OpenTask

/-- The flags ask for something: with bit 0 for the directory of the process, with bit 7 for
its auxiliary vector, with bit 8 for its status. -/
def Asks (flag : BitVec 32) (bit : Nat) : Prop := flag.getLsbD bit = true

/-- Every step the flags ask for succeeds. -/
structure Opens (a : Answers) (flag : BitVec 32) : Prop where
  exist : a.exist = true
  malloc : a.malloc = true
  auxv : Asks flag 7 → a.auxv = 0
  status : Asks flag 8 → a.status = 0
  comm : a.comm = 0
  exe : a.exe = true
  mem : 0 < a.mem
  vmas : a.vmas = 0
  libc : a.libc = true
  stack : a.stack = true
  dirs : Asks flag 0 → a.mkdirPid = true ∧ a.mkdirMaps = true

/-- `comm` can be written if it has to be. -/
def Writable (a : Answers) (flag : BitVec 32) : Prop := Asks flag 0 → a.fopenComm = true

/-- The first step that fails is one that says why: its error number. -/
inductive Why (a : Answers) (flag : BitVec 32) : Int → Prop
  | exist : a.exist = false → Why a flag 2
  | auxv : a.exist = true → a.malloc = true → Asks flag 7 → a.auxv ≠ 0 → Why a flag (-a.auxv)
  | status : a.exist = true → a.malloc = true → (Asks flag 7 → a.auxv = 0) → Asks flag 8 →
      a.status ≠ 0 → Why a flag (-a.status)
  | comm : a.exist = true → a.malloc = true → (Asks flag 7 → a.auxv = 0) →
      (Asks flag 8 → a.status = 0) → a.comm ≠ 0 → Why a flag (-a.comm)
  | vmas : a.exist = true → a.malloc = true → (Asks flag 7 → a.auxv = 0) →
      (Asks flag 8 → a.status = 0) → a.comm = 0 → a.exe = true → 0 < a.mem → a.vmas ≠ 0 →
      Why a flag (-a.vmas)

end Ulp.OpenTask
