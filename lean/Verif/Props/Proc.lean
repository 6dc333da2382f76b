/-
C60: What the tool knows about the auxiliary vector of a process is what the kernel
says in `/proc/PID/auxv`.
C61: What it knows about users, groups and the name of a process is what the kernel
says in `/proc/PID/status` and `/proc/PID/comm`.
-/
import Verif.Proof.Proc
namespace Ulp.Proc
open Ulp.MapsFile Ulp.ProcFiles Ulp.ProcMaps
open Ulp.MapKind (text)
open Ulp.Str (isSpace)

/-! ### C60 -/

/-- The five values, each that of the last entry of its type, if none is zero.  The
file may have any entries in any order and an incomplete one at the end. -/
theorem C60_values (es : List (BitVec 64 × BitVec 64)) (tail : List Byte) (ht : tail.length < 16)
    (fuel : Nat) (hf : es.length < fuel) (e0 : BitVec 64 × BitVec 64) (p q n b e : BitVec 64)
    (hp : Last es AT_PHDR p) (hq : Last es AT_PHENT q) (hn : Last es AT_PHNUM n) (hb : Last es AT_BASE b)
    (he : Last es AT_ENTRY e) (h0 : p ≠ 0 ∧ q ≠ 0 ∧ n ≠ 0 ∧ b ≠ 0 ∧ e ≠ 0) :
    loadTaskAuxv fuel (.ok (fileReads (auxvBytes es ++ tail))) e0 = some (0, ⟨p, q, n, b, e⟩) := by
  have hl := auxvLoop_file tail ht es (fileReads (auxvBytes es ++ tail)) fuel 0 e0 ⟨0, 0, 0, 0, 0⟩
    (fun j => by rw [Nat.zero_add]) hf
  have ff := fold_fields es ⟨0, 0, 0, 0, 0⟩
  have g1 := (ff _ _ (Or.inl rfl)).2 p hp
  have g2 := (ff _ _ (Or.inr (Or.inl rfl))).2 q hq
  have g3 := (ff _ _ (Or.inr (Or.inr (Or.inl rfl)))).2 n hn
  have g4 := (ff _ _ (Or.inr (Or.inr (Or.inr (Or.inl rfl))))).2 b hb
  have g5 := (ff _ _ (Or.inr (Or.inr (Or.inr (Or.inr rfl))))).2 e he
  simp only [loadTaskAuxv, hl, Option.map_some]
  generalize es.foldl auxvSet ⟨0, 0, 0, 0, 0⟩ = a at *
  obtain ⟨a1, a2, a3, a4, a5⟩ := a
  dsimp only at g1 g2 g3 g4 g5
  subst g1 g2 g3 g4 g5
  rw [if_neg h0.1, if_neg h0.2.1, if_neg h0.2.2.1, if_neg h0.2.2.2.1, if_neg h0.2.2.2.2]

/-- If an entry of one of the five types is missing, or the last of them is zero, the
answer is that there is no such entry. -/
theorem C60_missing (es : List (BitVec 64 × BitVec 64)) (tail : List Byte) (ht : tail.length < 16)
    (fuel : Nat) (hf : es.length < fuel) (e0 : BitVec 64 × BitVec 64) (k : BitVec 64)
    (hk : k ∈ [AT_PHDR, AT_PHENT, AT_PHNUM, AT_BASE, AT_ENTRY])
    (h : (∀ e ∈ es, e.1 ≠ k) ∨ Last es k 0) :
    ∃ a, loadTaskAuxv fuel (.ok (fileReads (auxvBytes es ++ tail))) e0 = some (-2, a) := by
  have hl := auxvLoop_file tail ht es (fileReads (auxvBytes es ++ tail)) fuel 0 e0 ⟨0, 0, 0, 0, 0⟩
    (fun j => by rw [Nat.zero_add]) hf
  have ff := fold_fields es ⟨0, 0, 0, 0, 0⟩
  simp only [loadTaskAuxv, hl, Option.map_some]
  generalize es.foldl auxvSet ⟨0, 0, 0, 0, 0⟩ = a at *
  have fin : a.phdr = 0 ∨ a.phent = 0 ∨ a.phnum = 0 ∨ a.interp = 0 ∨ a.entry = 0 := by
    simp only [List.mem_cons, List.not_mem_nil, or_false] at hk
    rcases hk with rfl | rfl | rfl | rfl | rfl
    · have := ff _ _ (Or.inl rfl)
      exact Or.inl (h.elim this.1 (this.2 0))
    · have := ff _ _ (Or.inr (Or.inl rfl))
      exact Or.inr (Or.inl (h.elim this.1 (this.2 0)))
    · have := ff _ _ (Or.inr (Or.inr (Or.inl rfl)))
      exact Or.inr (Or.inr (Or.inl (h.elim this.1 (this.2 0))))
    · have := ff _ _ (Or.inr (Or.inr (Or.inr (Or.inl rfl))))
      exact Or.inr (Or.inr (Or.inr (Or.inl (h.elim this.1 (this.2 0)))))
    · have := ff _ _ (Or.inr (Or.inr (Or.inr (Or.inr rfl))))
      exact Or.inr (Or.inr (Or.inr (Or.inr (h.elim this.1 (this.2 0)))))
  refine ⟨a, ?_⟩
  show some _ = some (ENOENT, a)
  congr 1
  split
  · rfl
  split
  · rfl
  split
  · rfl
  split
  · rfl
  split
  · rfl
  · rename_i h1 h2 h3 h4 h5
    rcases fin with h | h | h | h | h <;> contradiction

/-- A file that cannot be opened is reported with the error number. -/
theorem C60_open_error (fuel : Nat) (err : Int) (e0 : BitVec 64 × BitVec 64) :
    loadTaskAuxv fuel (.error err) e0 = some (-err, ⟨0, 0, 0, 0, 0⟩) := rfl

/-- Finding: a statically linked program, whose kernel entry `AT_BASE` is zero, is
refused, whatever else is in the file. -/
theorem C60_static (es : List (BitVec 64 × BitVec 64)) (fuel : Nat) (hf : es.length < fuel)
    (e0 : BitVec 64 × BitVec 64) (h : Last es AT_BASE 0) :
    ∃ a, loadTaskAuxv fuel (.ok (fileReads (auxvBytes es))) e0 = some (-2, a) := by
  have := C60_missing es [] (by decide) fuel hf e0 AT_BASE (by simp) (Or.inr h)
  rwa [List.append_nil] at this

/-- Finding: when `read` fails, and goes on failing, the loop is never left. -/
theorem C60_read_error_hangs (fuel : Nat) (e0 : BitVec 64 × BitVec 64) :
    loadTaskAuxv fuel (.ok fun _ => .error) e0 = none := by
  have : ∀ fuel i e a, auxvLoop (fun _ => .error) fuel i e a = none := by
    intro fuel
    induction fuel with
    | zero => intros; rfl
    | succ n ih => intro i e a; rw [auxvLoop]; exact ih _ _ _
  simp [loadTaskAuxv, this]

/-- An auxiliary vector with other entries between, and one type twice. -/
def exAuxv : List (BitVec 64 × BitVec 64) :=
  [(33, 0x7ffd1000), (3, 0x400040), (4, 56), (5, 13), (7, 0x7f0000), (9, 0x1), (9, 0x401000), (23, 0), (0, 0)]

example : loadTaskAuxv 100 (.ok (fileReads (auxvBytes exAuxv ++ [1, 2, 3]))) (0, 0) =
    some (0, ⟨0x400040, 56, 13, 0x7f0000, 0x401000⟩) :=
  C60_values exAuxv [1, 2, 3] (by decide) 100 (by decide) (0, 0) _ _ _ _ _
    ⟨[(33, 0x7ffd1000)], _, rfl, by decide⟩
    ⟨[(33, 0x7ffd1000), (3, 0x400040)], _, rfl, by decide⟩
    ⟨[(33, 0x7ffd1000), (3, 0x400040), (4, 56)], _, rfl, by decide⟩
    ⟨[(33, 0x7ffd1000), (3, 0x400040), (4, 56), (5, 13)], _, rfl, by decide⟩
    ⟨[(33, 0x7ffd1000), (3, 0x400040), (4, 56), (5, 13), (7, 0x7f0000), (9, 0x1)], _, rfl, by decide⟩
    (by decide)

example : ∃ a, loadTaskAuxv 3 (.ok (fileReads (auxvBytes [(3, 1), (7, 0)]))) (0, 0) = some (-2, a) :=
  C60_static [(3, 1), (7, 0)] 3 (by decide) (0, 0) ⟨[(3, 1)], [], rfl, by simp⟩

/-! ### C61 -/

/-- The eight numbers are read back, whatever the other lines say. -/
theorem C61_status (errno : Int) (st : Status) (pre mid post : List (List Byte))
    (h1 : ∀ l ∈ pre, Other l) (h2 : ∀ l ∈ mid, Other l) (h3 : ∀ l ∈ post, Other l) (a b c d e f g h : Nat)
    (hr : ∀ n ∈ [a, b, c, d, e, f, g, h], n < 2 ^ 32 - 1) :
    procGetPidStatus errno
      (some (lines pre ++ idLine "Uid" a b c d ++ lines mid ++ idLine "Gid" e f g h ++ lines post)) st =
      some (0, ⟨BitVec.ofNat 32 a, BitVec.ofNat 32 b, BitVec.ofNat 32 c, BitVec.ofNat 32 d, BitVec.ofNat 32 e,
        BitVec.ofNat 32 f, BitVec.ofNat 32 g, BitVec.ofNat 32 h⟩) := by
  simp only [List.forall_mem_cons, List.not_mem_nil, false_imp_iff, implies_true, and_true] at hr
  obtain ⟨ra, rb, rc, rd, re, rf, rg, rh⟩ := hr
  have key : ∀ n, n < 2 ^ 32 - 1 → BitVec.ofNat 32 n ≠ -1 := by
    intro n hn h
    have := congrArg BitVec.toNat h
    rw [BitVec.toNat_ofNat] at this
    have e : (-1 : BitVec 32).toNat = 2 ^ 32 - 1 := rfl
    omega
  rw [show lines pre ++ idLine "Uid" a b c d ++ lines mid ++ idLine "Gid" e f g h ++ lines post =
    lines pre ++ (idLine "Uid" a b c d ++ (lines mid ++ (idLine "Gid" e f g h ++ (lines post ++ [])))) by simp]
  unfold procGetPidStatus
  dsimp only
  rw [statusLoop_other h1, statusLoop_uid (by omega) (by omega) (by omega) (by omega), statusLoop_other h2,
    statusLoop_gid (by omega) (by omega) (by omega) (by omega), statusLoop_other h3, statusLoop]
  dsimp only [Option.map_some]
  rw [if_neg]
  simp only [not_or]
  exact ⟨key a ra, key b rb, key c rc, key d rd, key e re, key f rf, key g rg, key h rh⟩

/-- Without the line of the users, or without that of the groups, the answer is that
there is none, and nothing is stored. -/
theorem C61_status_missing (errno : Int) (st : Status) (pre post : List (List Byte))
    (h1 : ∀ l ∈ pre, Other l) (h2 : ∀ l ∈ post, Other l) (a b c d : Nat)
    (hr : ∀ n ∈ [a, b, c, d], n < 2 ^ 32 - 1) :
    procGetPidStatus errno (some (lines pre ++ idLine "Uid" a b c d ++ lines post)) st = some (-2, st) ∧
      procGetPidStatus errno (some (lines pre ++ idLine "Gid" a b c d ++ lines post)) st = some (-2, st) ∧
      procGetPidStatus errno (some (lines pre)) st = some (-2, st) := by
  simp only [List.forall_mem_cons, List.not_mem_nil, false_imp_iff, implies_true, and_true] at hr
  obtain ⟨ra, rb, rc, rd⟩ := hr
  rw [show ∀ x, lines pre ++ x ++ lines post = lines pre ++ (x ++ (lines post ++ [])) by simp,
    show ∀ x, lines pre ++ x ++ lines post = lines pre ++ (x ++ (lines post ++ [])) by simp,
    show lines pre = lines pre ++ [] by simp]
  unfold procGetPidStatus
  dsimp only
  simp only [List.append_assoc, List.nil_append]
  rw [statusLoop_other h1, statusLoop_other h1, statusLoop_other h1,
    statusLoop_uid (by omega) (by omega) (by omega) (by omega),
    statusLoop_gid (by omega) (by omega) (by omega) (by omega), statusLoop_other h2, statusLoop_other h2,
    statusLoop, statusLoop, statusLoop]
  refine ⟨?_, ?_, ?_⟩ <;> (simp only [Option.map_some]; rw [if_pos (by simp)]; rfl)

/-- A name without white space is read back. -/
theorem C61_comm_partial (errno : Int) (old name : List Byte) (h0 : name ≠ []) (hl : name.length ≤ 127)
    (hb : ∀ c ∈ name, isSpace c = false) :
    procPidComm errno (some (name ++ text "\n")) old = some (0, name) := by
  have := scanWord_ok (sp := []) (by simp) hb h0 (rest := text "\n") (by rintro c r h; cases h; rfl)
  rw [List.nil_append] at this
  simp only [procPidComm, this]
  exact if_neg (Nat.not_lt.2 hl)

/-- Finding: a name with white space in it is cut there. -/
theorem C61_comm_blank (errno : Int) (old w rest : List Byte) (h0 : w ≠ []) (hl : w.length ≤ 127)
    (hb : ∀ c ∈ w, isSpace c = false) :
    procPidComm errno (some (w ++ text " " ++ rest ++ text "\n")) old = some (0, w) := by
  have := scanWord_ok (sp := []) (by simp) hb h0 (rest := text " " ++ rest ++ text "\n")
    (by rintro c r h; simp only [List.append_assoc] at h; cases h; rfl)
  rw [List.nil_append] at this
  rw [show w ++ text " " ++ rest ++ text "\n" = w ++ (text " " ++ rest ++ text "\n") by simp]
  simp only [procPidComm, this]
  exact if_neg (Nat.not_lt.2 hl)

/-- A file without a word in it fails, unless `errno` happens to be 0; the old name stays. -/
theorem C61_comm_empty (errno : Int) (old file : List Byte) (hb : ∀ c ∈ file, isSpace c = true) :
    procPidComm errno (some file) old = some (-errno, old) := by
  have : scanWord none file = none := by
    have e : file.dropWhile isSpace = [] := by
      have := List.dropWhile_append_of_pos (l₂ := []) hb
      simpa using this
    simp [scanWord, e]
  simp only [procPidComm, this]

/-- Finding: a process that ends before its files are opened makes the tool use a null
pointer. -/
theorem C61_gone (errno : Int) (st : Status) (old : List Byte) :
    procGetPidStatus errno none st = none ∧ procPidComm errno none old = none := ⟨rfl, rfl⟩

/-- A status file with the name of the program like a key, and a long line of groups. -/
def exPre : List (List Byte) := [text "Name:\tUid:", text "Umask:\t0022", text "Pid:\t4242"]
def exPost : List (List Byte) := [text "Groups:\t" ++ List.replicate 3000 52, text "VmPeak:\t  100 kB"]

example : procGetPidStatus 0
    (some (lines exPre ++ idLine "Uid" 1000 1001 1002 4294967294 ++ lines [] ++ idLine "Gid" 0 5 6 7 ++
      lines exPost)) ⟨0, 0, 0, 0, 0, 0, 0, 0⟩ =
    some (0, ⟨1000, 1001, 1002, 4294967294, 0, 5, 6, 7⟩) := by
  apply C61_status
  · intro l hl
    simp only [exPre, List.mem_cons, List.not_mem_nil, or_false] at hl
    rcases hl with rfl | rfl | rfl <;> exact ⟨by decide, Or.inl (by decide)⟩
  · simp
  · intro l hl
    simp only [exPost, List.mem_cons, List.not_mem_nil, or_false] at hl
    rcases hl with rfl | rfl
    · refine ⟨?_, Or.inr ⟨?_, ?_⟩⟩
      · simp only [List.mem_append, List.mem_replicate, not_or]
        exact ⟨by decide, fun h => absurd h.2 (by decide)⟩
      · intro h
        have : (85 : Byte) ∈ text "Groups:\t" ++ List.replicate 3000 52 := h.subset (by decide)
        simp only [List.mem_append, List.mem_replicate] at this
        exact this.elim (fun h => absurd h (by decide)) (fun h => absurd h.2 (by decide))
      · intro h
        have : (100 : Byte) ∈ text "Groups:\t" ++ List.replicate 3000 52 := h.subset (by decide)
        simp only [List.mem_append, List.mem_replicate] at this
        exact this.elim (fun h => absurd h (by decide)) (fun h => absurd h.2 (by decide))
    · exact ⟨by decide, Or.inl (by decide)⟩
  · decide

example : procPidComm 0 (some (text "nginx" ++ text "\n")) [] = some (0, text "nginx") :=
  C61_comm_partial 0 [] (text "nginx") (by decide) (by decide) (by decide)

example : procPidComm 2 (some (text "\n")) (text "old") = some (-2, text "old") :=
  C61_comm_empty 2 (text "old") _ (by decide)

example : procPidComm 0 (some (text "Web" ++ text " " ++ text "Content" ++ text "\n")) [] =
    some (0, text "Web") :=
  C61_comm_blank 0 [] (text "Web") (text "Content") (by decide) (by decide) (by decide)

end Ulp.Proc
