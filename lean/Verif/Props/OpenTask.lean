/-
C63: opening a process succeeds exactly when all its steps do, and a failed or closed
session keeps nothing.
-/
import Verif.Proof.OpenTask
import Verif.Model.Load
namespace Ulp.OpenTask
open Ulp.WorkDir

/-- C63.  A session is returned exactly when every step the flags ask for succeeds; it
then has the descriptor and knows the patches of the process. -/
theorem C63_opens_iff (a : Answers) (flag : BitVec 32) (live : List Name) (name : Content) (r : Res)
    (hw : Writable a flag) :
    (∃ t r', openTask a flag live name r = some (some t, r')) ↔ Opens a flag := by
  constructor
  · rintro ⟨t, r', h⟩
    obtain ⟨⟨h1, h2, hl, h3, h4, h5, h6, hm⟩, -⟩ := ok_of h
    refine ⟨h1, h2, fun g => ?_, fun g => ?_, hl.comm, hl.exe, h3, h4, h5, h6, fun g => hm (has_proc.2 g)⟩
    · exact Classical.byContradiction fun hx => hl.auxv ⟨has_auxv.2 g, hx⟩
    · exact Classical.byContradiction fun hx => hl.status ⟨has_status.2 g, hx⟩
  · rintro ⟨h1, h2, h3, h4, h5, h6, h7, h8, h9, h10, h11⟩
    refine ⟨⟨flag, a.mem, live⟩, ?_⟩
    have e1 : ¬ (has flag FTO_AUXV ∧ a.auxv ≠ 0) := fun h => h.2 (h3 (has_auxv.1 h.1))
    have e2 : ¬ (has flag FTO_STATUS ∧ a.status ≠ 0) := fun h => h.2 (h4 (has_status.1 h.1))
    have e3 : ¬ a.mem ≤ 0 := by omega
    simp only [openTask, h1, h2, e1, e2, h5, h6, e3, h8, h9, h10, if_false, makeDirs]
    by_cases hp : has flag FTO_PROC
    · simp [hp, h11 (has_proc.1 hp), hw (has_proc.1 hp)]
    · simp [hp]

/-- C63.  What a session that was returned has. -/
theorem C63_session (a : Answers) (flag : BitVec 32) (live : List Name) (name : Content) (r r' : Res)
    (t : Session) (h : openTask a flag live name r = some (some t, r')) :
    t = ⟨flag, a.mem, live⟩ ∧ r'.fds = a.mem :: r.fds ∧ r'.heap = r.heap + 1 ∧
      r'.dir = if flag.getLsbD 0 then openMaps (openPid name r.dir) else r.dir := by
  obtain ⟨-, rfl, rfl⟩ := ok_of h
  refine ⟨rfl, rfl, rfl, ?_⟩
  by_cases hp : has flag FTO_PROC = true
  · rw [if_pos (show flag.getLsbD 0 = true from has_proc.1 hp)]
    exact if_pos hp
  · rw [if_neg (show ¬ flag.getLsbD 0 = true from fun h => hp (has_proc.2 h))]
    exact if_neg hp

/-- C63.  An open that fails gives back everything it took: no descriptor stays open, no
memory allocated, if descriptors 0 to 2 are in use. -/
theorem C63_failed_clean (a : Answers) (flag : BitVec 32) (live : List Name) (name : Content) (r r' : Res)
    (hm : 0 ≤ a.mem → 2 < a.mem) (h : openTask a flag live name r = some (none, r')) :
    r'.fds = r.fds ∧ r'.heap = r.heap := by
  have fin : 0 < a.mem → (if a.mem > 2 then (a.mem :: r.fds).erase a.mem else a.mem :: r.fds) = r.fds ∧
      r.heap + 1 - 1 = r.heap := by
    intro g
    rw [if_pos (hm (by omega))]
    simp
  have o := outcome a flag live name r
  generalize openTask a flag live name r = x at o h
  cases o with
  | exist g1 => cases h; exact ⟨rfl, rfl⟩
  | malloc g1 g2 => cases h; exact ⟨rfl, rfl⟩
  | early e g1 g2 ge => rw [fail_eq] at h; cases h; exact ⟨rfl, rfl⟩
  | memNeg g1 g2 gl gm => rw [fail_eq] at h; cases h; exact ⟨if_neg (by dsimp only; omega), rfl⟩
  | memZero g1 g2 gl gm => rw [fail_eq] at h; cases h; exact absurd (hm (by omega)) (by omega)
  | vmas g1 g2 gl gm gv => rw [fail_eq] at h; cases h; exact fin gm
  | libc g1 g2 gl gm gv gc => rw [fail_eq] at h; cases h; exact fin gm
  | dirs g1 g2 gl gm gv gc gs =>
    have d := dirs a name (r2 a r) ⟨flag, a.mem, live⟩
    generalize makeDirs a name ⟨flag, a.mem, live⟩ (r2 a r) = x at d h
    cases d with
    | none hp => cases h
    | noPid hp h8 => rw [fail_eq] at h; cases h; exact fin gm
    | crash _ _ _ => cases h
    | noMaps hp h8 h9 => rw [fail_eq] at h; cases h; exact fin gm
    | ok hp h8 h9 => cases h

/-- C63.  Opening and closing gives back everything. -/
theorem C63_closed_clean (a : Answers) (flag : BitVec 32) (live : List Name) (name : Content) (r r' : Res)
    (t : Session) (hm : 2 < a.mem) (h : openTask a flag live name r = some (some t, r')) :
    (closeTask t r').fds = r.fds ∧ (closeTask t r').heap = r.heap := by
  obtain ⟨rfl, h1, h2, -⟩ := C63_session a flag live name r r' t h
  unfold closeTask
  by_cases hp : has flag FTO_PROC <;> simp [hp, hm, h1, h2]

/-- C63 (the part that holds).  If the first step that fails is one that says why, its
error number is reported. -/
theorem C63_errno_partial (a : Answers) (flag : BitVec 32) (live : List Name) (name : Content) (r : Res)
    (e : Int) (h : Why a flag e) :
    ∃ r', openTask a flag live name r = some (none, r') ∧ r'.errno = e := by
  cases h with
  | exist h => exact ⟨_, by rw [openTask, if_pos h], rfl⟩
  | auxv h1 h2 h3 h4 =>
    suffices hs : openTask a flag live name r = fail ⟨flag, 0, []⟩ a.auxv (r1 r) by
      exact ⟨_, hs, rfl⟩
    · rw [openTask, if_neg (by simp [h1]), if_neg (by simp [h2])]
      dsimp only
      rw [if_pos ⟨has_auxv.2 h3, h4⟩]; rfl
  | status h1 h2 h3 h4 h5 =>
    suffices hs : openTask a flag live name r = fail ⟨flag, 0, []⟩ a.status (r1 r) by
      exact ⟨_, hs, rfl⟩
    · rw [openTask, if_neg (by simp [h1]), if_neg (by simp [h2])]
      dsimp only
      rw [if_neg (fun h => h.2 (h3 (has_auxv.1 h.1))), if_pos ⟨has_status.2 h4, h5⟩]; rfl
  | comm h1 h2 h3 h4 h5 =>
    suffices hs : openTask a flag live name r = fail ⟨flag, 0, []⟩ a.comm (r1 r) by
      exact ⟨_, hs, rfl⟩
    · rw [openTask, if_neg (by simp [h1]), if_neg (by simp [h2])]
      dsimp only
      rw [if_neg (fun h => h.2 (h3 (has_auxv.1 h.1))), if_neg (fun h => h.2 (h4 (has_status.1 h.1))), if_pos h5]; rfl
  | vmas h1 h2 h3 h4 h5 h6 h7 h8 =>
    suffices hs : openTask a flag live name r = fail ⟨flag, a.mem, []⟩ a.vmas (r2 a r) by
      exact ⟨_, hs, rfl⟩
    · rw [openTask, if_neg (by simp [h1]), if_neg (by simp [h2])]
      dsimp only
      rw [if_neg (fun h => h.2 (h3 (has_auxv.1 h.1))), if_neg (fun h => h.2 (h4 (has_status.1 h.1))), if_neg (by simp [h5]),
        if_neg (by simp [h6]), if_pos (c := a.mem ≥ 0) (by omega), if_neg (c := a.mem ≤ 0) (by omega), if_pos h8]
      rfl

/-- Finding: of the other steps none is reported.  A missing executable, memory that may
not be opened, a process without C library or stack, and a directory that cannot be made
give no session and `errno` zero, which the tools show as success. -/
theorem C63_errno_zero (a : Answers) (flag : BitVec 32) (live : List Name) (name : Content) (r r' : Res)
    (h0 : a.exist = true) (h1 : a.auxv = 0) (h2 : a.status = 0) (h3 : a.comm = 0) (h4 : a.vmas = 0)
    (h : openTask a flag live name r = some (none, r')) : r'.errno = 0 := by
  have o := outcome a flag live name r
  generalize openTask a flag live name r = x at o h
  cases o with
  | exist g1 => rw [h0] at g1; cases g1
  | malloc g1 g2 => cases h; rfl
  | early e g1 g2 ge => rw [fail_eq] at h; cases h; cases ge <;> simp [*]
  | memNeg g1 g2 gl gm => rw [fail_eq] at h; cases h; rfl
  | memZero g1 g2 gl gm => rw [fail_eq] at h; cases h; rfl
  | vmas g1 g2 gl gm gv => rw [fail_eq] at h; cases h; exact absurd h4 gv
  | libc g1 g2 gl gm gv gc => rw [fail_eq] at h; cases h; rfl
  | dirs g1 g2 gl gm gv gc gs =>
    have d := dirs a name (r2 a r) ⟨flag, a.mem, live⟩
    generalize makeDirs a name ⟨flag, a.mem, live⟩ (r2 a r) = x at d h
    cases d with
    | none hp => cases h
    | noPid hp h8 => rw [fail_eq] at h; cases h; rfl
    | crash _ _ _ => cases h
    | noMaps hp h8 h9 => rw [fail_eq] at h; cases h; rfl
    | ok hp h8 h9 => cases h

/-- What happens to the directory, as a step of C62. -/
def opOf (a : Answers) (flag : BitVec 32) (s : Nat) : Option Op :=
  if a.exist = false ∨ a.malloc = false ∨ flag.getLsbD 0 = false then none
  else if flag.getLsbD 7 ∧ a.auxv ≠ 0 ∨ flag.getLsbD 8 ∧ a.status ≠ 0 ∨ a.comm ≠ 0 ∨ a.exe = false ∨
      a.mem ≤ 0 ∨ a.vmas ≠ 0 then some (.openFail .unread)
  else if a.libc = false ∨ a.stack = false ∨ a.mkdirPid = false then some (.openFail .read)
  else if a.mkdirMaps = false then some (.openFail .mkdir)
  else some (.open s)

theorem opOf_eq (a : Answers) (flag : BitVec 32) (s : Nat) : opOf a flag s =
    if a.exist = false ∨ a.malloc = false ∨ has flag FTO_PROC = false then none
    else if has flag FTO_AUXV ∧ a.auxv ≠ 0 ∨ has flag FTO_STATUS ∧ a.status ≠ 0 ∨ a.comm ≠ 0 ∨ a.exe = false ∨
        a.mem ≤ 0 ∨ a.vmas ≠ 0 then some (.openFail .unread)
    else if a.libc = false ∨ a.stack = false ∨ a.mkdirPid = false then some (.openFail .read)
    else if a.mkdirMaps = false then some (.openFail .mkdir)
    else some (.open s) := by
  have e0 : flag.getLsbD 0 = has flag FTO_PROC := Bool.eq_iff_iff.2 has_proc.symm
  have e7 : flag.getLsbD 7 = has flag FTO_AUXV := Bool.eq_iff_iff.2 has_auxv.symm
  have e8 : flag.getLsbD 8 = has flag FTO_STATUS := Bool.eq_iff_iff.2 has_status.symm
  rw [opOf, e0, e7, e8]

/-- C63.  Every open, whatever the steps answer, changes the directory as one of the
steps of the histories of C62, or not at all. -/
theorem C63_is_step (a : Answers) (flag : BitVec 32) (w : World) (s : Nat) (r r' : Res) (t : Option Session)
    (hd : r.dir = w.dir) (h : openTask a flag (w.live.map (·.1)) w.comm r = some (t, r')) :
    r'.dir = match opOf a flag s with
      | none => w.dir
      | some o => (step w o).1.dir := by
  have late : a.exist = true → a.malloc = true →
      (has flag FTO_AUXV ∧ a.auxv ≠ 0 ∨ has flag FTO_STATUS ∧ a.status ≠ 0 ∨ a.comm ≠ 0 ∨ a.exe = false ∨
        a.mem ≤ 0 ∨ a.vmas ≠ 0) →
      (if has flag FTO_PROC then checkAndFree [] r.dir else r.dir) = match opOf a flag s with
        | none => w.dir
        | some o => (step w o).1.dir := by
    intro g1 g2 g
    by_cases hp : has flag FTO_PROC = true
    · rw [if_pos hp, opOf_eq, if_neg (by simp [g1, g2, hp]), if_pos g, hd]; rfl
    · rw [if_neg hp, opOf_eq, if_pos (by simpa using Or.inr (Or.inr hp)), hd]
  have opo : a.exist = true → a.malloc = true → Late a flag → 0 < a.mem → a.vmas = 0 → has flag FTO_PROC = true →
      opOf a flag s = if a.libc = false ∨ a.stack = false ∨ a.mkdirPid = false then some (.openFail .read)
        else if a.mkdirMaps = false then some (.openFail .mkdir) else some (.open s) := by
    rintro g1 g2 ⟨l1, l2, l3, l4⟩ gm gv hp
    rw [opOf_eq, if_neg (by simp [g1, g2, hp]), if_neg]
    rintro (h | h | h | h | h | h)
    · exact l1 h
    · exact l2 h
    · exact h l3
    · rw [l4] at h; cases h
    · omega
    · exact h gv
  have opn : has flag FTO_PROC = false → opOf a flag s = none := by
    intro hp; rw [opOf_eq, if_pos (Or.inr (Or.inr hp))]
  have o := outcome a flag (w.live.map (·.1)) w.comm r
  generalize openTask a flag (w.live.map (·.1)) w.comm r = x at o h
  cases o with
  | exist g1 => cases h; simp [opOf_eq, g1, hd]
  | malloc g1 g2 => cases h; simp [opOf_eq, g2, hd]
  | early e g1 g2 ge => rw [fail_eq] at h; cases h; exact late g1 g2 (by
      cases ge with
      | auxv h => exact Or.inl h
      | status _ h => exact Or.inr (Or.inl h)
      | comm _ _ h => exact Or.inr (Or.inr (Or.inl h))
      | exe _ _ _ h => exact Or.inr (Or.inr (Or.inr (Or.inl h))))
  | memNeg g1 g2 gl gm => rw [fail_eq] at h; cases h; exact late g1 g2 (Or.inr (Or.inr (Or.inr (Or.inr (Or.inl (by omega))))))
  | memZero g1 g2 gl gm => rw [fail_eq] at h; cases h; exact late g1 g2 (Or.inr (Or.inr (Or.inr (Or.inr (Or.inl (by omega))))))
  | vmas g1 g2 gl gm gv => rw [fail_eq] at h; cases h; exact late g1 g2 (Or.inr (Or.inr (Or.inr (Or.inr (Or.inr gv)))))
  | libc g1 g2 gl gm gv gc =>
      rw [fail_eq] at h
      cases h
      dsimp only
      by_cases hp : has flag FTO_PROC = true
      · rw [if_pos hp, opo g1 g2 gl gm gv hp, if_pos (by rcases gc with h | h; exact Or.inl h; exact Or.inr (Or.inl h))]
        exact congrArg (checkAndFree _) hd
      · rw [if_neg hp, opn (by simpa using hp)]; exact hd
  | dirs g1 g2 gl gm gv gc gs =>
    have d := dirs a w.comm (r2 a r) ⟨flag, a.mem, (w.live.map (·.1))⟩
    generalize makeDirs a w.comm ⟨flag, a.mem, (w.live.map (·.1))⟩ (r2 a r) = x at d h
    cases d with
    | none hp => cases h; rw [opn hp]; exact hd
    | noPid hp h8 =>
      rw [fail_eq] at h
      cases h
      dsimp only at hp ⊢
      rw [if_pos hp, opo g1 g2 gl gm gv hp, if_pos (Or.inr (Or.inr h8))]
      exact congrArg (checkAndFree _) hd
    | crash _ _ _ => cases h
    | noMaps hp h8 h9 =>
      rw [fail_eq] at h
      cases h
      dsimp only at hp ⊢
      rw [if_pos hp, opo g1 g2 gl gm gv hp, if_neg (by simp [gc, gs, h8]), if_pos h9]
      exact congrArg (fun d => checkAndFree _ (openPid _ d)) hd
    | ok hp h8 h9 =>
      cases h
      dsimp only at hp ⊢
      rw [opo g1 g2 gl gm gv hp, if_neg (by simp [gc, gs, h8]), if_neg (by simp [h9])]
      exact congrArg (fun d => openMaps (openPid _ d)) hd

/-- All steps succeed; and an executable that was removed. -/
def exAnswers : Answers := ⟨true, true, 0, 0, 0, true, 5, 0, true, true, true, true, true⟩

example : Opens exAnswers FTO_ALL ∧ Writable exAnswers FTO_ALL := by
  refine ⟨⟨rfl, rfl, fun _ => rfl, fun _ => rfl, rfl, rfl, by decide, rfl, rfl, rfl, fun _ => ⟨rfl, rfl⟩⟩, fun _ => rfl⟩

example : Why { exAnswers with status := -2 } FTO_ALL 2 :=
  Why.status rfl rfl (fun _ => rfl) (show (0xffffffff : BitVec 32).getLsbD 8 = true by decide) (by decide)

example : ∃ r', openTask { exAnswers with exe := false } FTO_ALL [] [] ⟨[0, 1, 2], 0, Dir.none, 17⟩ =
    some (none, r') ∧ r'.errno = 0 ∧ r'.fds = [0, 1, 2] := ⟨_, rfl, rfl, rfl⟩

end Ulp.OpenTask
