/- The ways `open_task` can end. -/
import Verif.Spec.OpenTask
import Verif.Proof.Flag
namespace Ulp.OpenTask
open Ulp.WorkDir

theorem has_auxv {flag : BitVec 32} : has flag FTO_AUXV = true ↔ Asks flag 7 := by
  unfold has Asks
  rw [decide_eq_true_eq, ← Flag.and_twoPow]
  exact Iff.rfl

theorem has_status {flag : BitVec 32} : has flag FTO_STATUS = true ↔ Asks flag 8 := by
  unfold has Asks
  rw [decide_eq_true_eq, ← Flag.and_twoPow]
  exact Iff.rfl

theorem has_proc {flag : BitVec 32} : has flag FTO_PROC = true ↔ Asks flag 0 := by
  unfold has Asks
  rw [decide_eq_true_eq, ← Flag.and_twoPow]
  exact Iff.rfl

def noAuxv (a : Answers) (flag : BitVec 32) : Prop := has flag FTO_AUXV ∧ a.auxv ≠ 0
def noStatus (a : Answers) (flag : BitVec 32) : Prop := has flag FTO_STATUS ∧ a.status ≠ 0

/-- The resources after the allocation, and after /proc/PID/mem was opened. -/
def r1 (r : Res) : Res := ⟨r.fds, r.heap + 1, r.dir, r.errno⟩
def r2 (a : Answers) (r : Res) : Res := ⟨a.mem :: r.fds, r.heap + 1, r.dir, r.errno⟩

variable (a : Answers) (flag : BitVec 32) (live : List Name) (name : Content) (r : Res)

inductive Early : Int → Prop
  | auxv : noAuxv a flag → Early a.auxv
  | status : ¬ noAuxv a flag → noStatus a flag → Early a.status
  | comm : ¬ noAuxv a flag → ¬ noStatus a flag → a.comm ≠ 0 → Early a.comm
  | exe : ¬ noAuxv a flag → ¬ noStatus a flag → a.comm = 0 → a.exe = false → Early 0

structure Late : Prop where
  auxv : ¬ noAuxv a flag
  status : ¬ noStatus a flag
  comm : a.comm = 0
  exe : a.exe = true

inductive Outcome : Option (Option Session × Res) → Prop
  | exist : a.exist = false → Outcome (some (none, { r with errno := 2 }))
  | malloc : a.exist = true → a.malloc = false → Outcome (some (none, { r with errno := 0 }))
  | early (e : Int) : a.exist = true → a.malloc = true → Early a flag e →
      Outcome (fail ⟨flag, 0, []⟩ e (r1 r))
  | memNeg : a.exist = true → a.malloc = true → Late a flag → a.mem < 0 →
      Outcome (fail ⟨flag, a.mem, []⟩ 0 (r1 r))
  | memZero : a.exist = true → a.malloc = true → Late a flag → a.mem = 0 →
      Outcome (fail ⟨flag, a.mem, []⟩ 0 (r2 a r))
  | vmas : a.exist = true → a.malloc = true → Late a flag → 0 < a.mem → a.vmas ≠ 0 →
      Outcome (fail ⟨flag, a.mem, []⟩ a.vmas (r2 a r))
  | libc : a.exist = true → a.malloc = true → Late a flag → 0 < a.mem → a.vmas = 0 →
      a.libc = false ∨ a.stack = false → Outcome (fail ⟨flag, a.mem, live⟩ 0 (r2 a r))
  | dirs : a.exist = true → a.malloc = true → Late a flag → 0 < a.mem → a.vmas = 0 →
      a.libc = true → a.stack = true → Outcome (makeDirs a name ⟨flag, a.mem, live⟩ (r2 a r))

theorem outcome : Outcome a flag live name r (openTask a flag live name r) := by
  unfold openTask
  by_cases h1 : a.exist = false
  · rw [if_pos h1]; exact .exist h1
  rw [if_neg h1]
  by_cases h2 : a.malloc = false
  · rw [if_pos h2]; exact .malloc (by simpa using h1) h2
  rw [if_neg h2]
  replace h1 : a.exist = true := by simpa using h1
  replace h2 : a.malloc = true := by simpa using h2
  dsimp only
  by_cases h3 : has flag FTO_AUXV = true ∧ a.auxv ≠ 0
  · rw [if_pos h3]; exact .early _ h1 h2 (.auxv h3)
  rw [if_neg h3]
  by_cases h4 : has flag FTO_STATUS = true ∧ a.status ≠ 0
  · rw [if_pos h4]; exact .early _ h1 h2 (.status h3 h4)
  rw [if_neg h4]
  by_cases h5 : a.comm ≠ 0
  · rw [if_pos h5]; exact .early _ h1 h2 (.comm h3 h4 h5)
  rw [if_neg h5]
  replace h5 : a.comm = 0 := by simpa using h5
  by_cases h6 : a.exe = false
  · rw [if_pos h6]; exact .early _ h1 h2 (.exe h3 h4 h5 h6)
  rw [if_neg h6]
  replace h6 : a.exe = true := by simpa using h6
  have hl : Late a flag := ⟨h3, h4, h5, h6⟩
  by_cases h7 : a.mem < 0
  · rw [if_pos (by omega), if_neg (by omega)]; exact .memNeg h1 h2 hl h7
  rw [if_pos (c := a.mem ≥ 0) (by omega)]
  by_cases h8 : a.mem = 0
  · rw [if_pos (by omega)]; exact .memZero h1 h2 hl h8
  rw [if_neg (by omega)]
  have h9 : 0 < a.mem := by omega
  by_cases h10 : a.vmas ≠ 0
  · rw [if_pos h10]; exact .vmas h1 h2 hl h9 h10
  rw [if_neg h10]
  replace h10 : a.vmas = 0 := by simpa using h10
  by_cases h11 : a.libc = false ∨ a.stack = false
  · rw [if_pos h11]; exact .libc h1 h2 hl h9 h10 h11
  rw [if_neg h11]
  simp only [not_or, Bool.not_eq_false] at h11
  exact .dirs h1 h2 hl h9 h10 h11.1 h11.2

/-- What `close_task` leaves. -/
theorem closeTask_eq (t : Session) (r : Res) :
    closeTask t r = ⟨if t.fd > 2 then r.fds.erase t.fd else r.fds, r.heap - 1,
      if has t.flag FTO_PROC then checkAndFree t.known r.dir else r.dir, r.errno⟩ := by
  unfold closeTask
  by_cases h : t.fd > 2 <;> by_cases hp : has t.flag FTO_PROC <;> simp [h, hp]

theorem fail_eq (t : Session) (e : Int) (r : Res) :
    fail t e r = some (none, ⟨if t.fd > 2 then r.fds.erase t.fd else r.fds, r.heap - 1,
      if has t.flag FTO_PROC then checkAndFree t.known r.dir else r.dir, -e⟩) := by
  rw [fail, closeTask_eq]

/-- The ways the last part can end. -/
inductive Dirs (t : Session) : Option (Option Session × Res) → Prop
  | none : has t.flag FTO_PROC = false → Dirs t (some (some t, r))
  | noPid : has t.flag FTO_PROC → a.mkdirPid = false → Dirs t (fail t 0 r)
  | crash : has t.flag FTO_PROC → a.mkdirPid = true → a.fopenComm = false → Dirs t Option.none
  | noMaps : has t.flag FTO_PROC → a.mkdirPid = true → a.mkdirMaps = false →
      Dirs t (fail t 0 { r with dir := openPid name r.dir })
  | ok : has t.flag FTO_PROC → a.mkdirPid = true → a.mkdirMaps = true →
      Dirs t (some (some t, { r with dir := openMaps (openPid name r.dir) }))

theorem dirs (t : Session) : Dirs a name r t (makeDirs a name t r) := by
  unfold makeDirs
  by_cases h1 : has t.flag FTO_PROC
  · rw [if_pos h1]
    by_cases h2 : a.mkdirPid
    · rw [if_pos h2]
      by_cases h3 : a.fopenComm
      · rw [if_pos h3]
        dsimp only
        by_cases h4 : a.mkdirMaps
        · rw [if_pos h4]; exact .ok h1 h2 h4
        · rw [if_neg h4]; exact .noMaps h1 h2 (by simpa using h4)
      · rw [if_neg h3]; exact .crash h1 h2 (by simpa using h3)
    · rw [if_neg h2]; exact .noPid h1 (by simpa using h2)
  · rw [if_neg h1]; exact .none (by simpa using h1)

variable {a flag live name r}

theorem ok_of {t : Session} {r' : Res} (h : openTask a flag live name r = some (some t, r')) :
    (a.exist = true ∧ a.malloc = true ∧ Late a flag ∧ 0 < a.mem ∧ a.vmas = 0 ∧ a.libc = true ∧
      a.stack = true ∧ (has flag FTO_PROC → a.mkdirPid = true ∧ a.mkdirMaps = true)) ∧
    t = ⟨flag, a.mem, live⟩ ∧
    r' = { r2 a r with dir := if has flag FTO_PROC then openMaps (openPid name r.dir) else r.dir } := by
  have o := outcome a flag live name r
  generalize openTask a flag live name r = x at o h
  cases o with
  | exist _ => cases h
  | malloc _ _ => cases h
  | early e _ _ _ => rw [fail_eq] at h; cases h
  | memNeg _ _ _ _ => rw [fail_eq] at h; cases h
  | memZero _ _ _ _ => rw [fail_eq] at h; cases h
  | vmas _ _ _ _ _ => rw [fail_eq] at h; cases h
  | libc _ _ _ _ _ _ => rw [fail_eq] at h; cases h
  | dirs h1 h2 h3 h4 h5 h6 h7 =>
    have d := dirs a name (r2 a r) ⟨flag, a.mem, live⟩
    generalize makeDirs a name ⟨flag, a.mem, live⟩ (r2 a r) = x at d h
    cases d with
    | none hp =>
      cases h
      dsimp only at hp
      exact ⟨⟨h1, h2, h3, h4, h5, h6, h7, fun h => by rw [hp] at h; cases h⟩, rfl, by rw [hp]; rfl⟩
    | noPid _ _ => rw [fail_eq] at h; cases h
    | crash _ _ _ => cases h
    | noMaps _ _ _ => rw [fail_eq] at h; cases h
    | ok hp h8 h9 =>
      cases h
      dsimp only at hp
      exact ⟨⟨h1, h2, h3, h4, h5, h6, h7, fun _ => ⟨h8, h9⟩⟩, rfl, by rw [if_pos hp]; rfl⟩

end Ulp.OpenTask
