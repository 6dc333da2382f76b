/-
C107: the files and links of a process in `/proc`.
-/
import Verif.Model.ProcLinks
import Verif.Props.TaskList
namespace Ulp.ProcLinks
open Ulp.Load (lit)
open Ulp.TaskList (fmtInt fmtInt_eq)
open Ulp.ProcMaps (decimal)
open Ulp.MapKind (text)

theorem decimal_length (k n : Nat) (h : n < 10 ^ (k + 1)) : (decimal n).length ≤ k + 1 := by
  induction k generalizing n with
  | zero =>
    rw [decimal, if_pos (by simpa using h)]; simp
  | succ k ih =>
    rw [decimal]
    by_cases h1 : n < 10
    · rw [if_pos h1]; simp
    · rw [if_neg h1, List.length_append, List.length_singleton]
      have := ih (n / 10) (by rw [Nat.pow_succ] at h; omega)
      omega

/-- The array holds the string. -/
def Holds (buf s : List Byte) : Prop := s ++ [0] <+: buf

/-- The name of a file of a process. -/
def procFile (pid : Nat) (name : String) : List Byte :=
  text "/proc/" ++ decimal pid ++ text "/" ++ text name

theorem pid_fits (pid : Nat) (h : pid < 2 ^ 31) : (decimal pid).length ≤ 10 :=
  decimal_length 9 pid (by omega)

/-- **C107.**  The map and the memory that are opened are those of the process; a descriptor
other than 0 is returned as it is, and -1 becomes a negative number. -/
theorem C107_open_partial (s : Sys) (errno : BitVec 32) (pid : Nat) (flags : BitVec 32)
    (hp : pid < 2 ^ 31) :
    (openPidMaps s (BitVec.ofNat 32 pid)).1 = procFile pid "maps" ∧
    (openPidMemFlags s errno (BitVec.ofNat 32 pid) flags).1 = procFile pid "mem" ∧
    (0 < (s.openFile (procFile pid "maps") 0).toInt →
      (openPidMaps s (BitVec.ofNat 32 pid)).2 = s.openFile (procFile pid "maps") 0) ∧
    (0 < (s.openFile (procFile pid "mem") flags).toInt →
      (openPidMemFlags s errno (BitVec.ofNat 32 pid) flags).2 =
        s.openFile (procFile pid "mem") flags) ∧
    ((s.openFile (procFile pid "maps") 0).toInt < 0 →
      (openPidMaps s (BitVec.ofNat 32 pid)).2.toInt < 0) ∧
    ((s.openFile (procFile pid "mem") flags).toInt < 0 → 0 < errno.toInt →
      (openPidMemFlags s errno (BitVec.ofNat 32 pid) flags).2.toInt = -errno.toInt) := by
  have hl := pid_fits pid hp
  have e1 : fit 22 (lit "/proc/" ++ fmtInt (BitVec.ofNat 32 pid) ++ lit "/maps") =
      procFile pid "maps" := by
    rw [fmtInt_eq pid hp, fit, List.take_of_length_le]
    · show _ = lit "/proc/" ++ decimal pid ++ lit "/" ++ lit "maps"
      rw [List.append_assoc _ (lit "/")]; rfl
    · have a : (lit "/proc/").length = 6 := by decide
      have b : (lit "/maps").length = 5 := by decide
      simp only [List.length_append, a, b]; omega
  have e2 : fit 21 (lit "/proc/" ++ fmtInt (BitVec.ofNat 32 pid) ++ lit "/mem") =
      procFile pid "mem" := by
    rw [fmtInt_eq pid hp, fit, List.take_of_length_le]
    · show _ = lit "/proc/" ++ decimal pid ++ lit "/" ++ lit "mem"
      rw [List.append_assoc _ (lit "/")]; rfl
    · have a : (lit "/proc/").length = 6 := by decide
      have b : (lit "/mem").length = 4 := by decide
      simp only [List.length_append, a, b]; omega
  simp only [openPidMaps, openPidMemFlags, e1, e2, true_and]
  refine ⟨fun h => ?_, fun h => ?_, fun h => ?_, fun h he => ?_⟩
  · rw [if_neg (by omega)]
  · rw [if_neg (by omega)]
  · rw [if_pos (by omega)]; decide
  · rw [if_pos (by omega)]
    have h1 : errno ≠ BitVec.intMin 32 := by
      rintro rfl; revert he; decide
    exact BitVec.toInt_neg_of_ne_intMin h1

/-- **C107.**  The memory is opened for reading only, or for reading and writing, as it was asked
for. -/
theorem C107_modes (s : Sys) (errno : BitVec 32) (pid : Nat) (hp : pid < 2 ^ 31) :
    (openPidMemRo s errno (BitVec.ofNat 32 pid)).1 = procFile pid "mem" ∧
    (openPidMemRw s errno (BitVec.ofNat 32 pid)).1 = procFile pid "mem" ∧
    (0 < (s.openFile (procFile pid "mem") 0).toInt →
      (openPidMemRo s errno (BitVec.ofNat 32 pid)).2 = s.openFile (procFile pid "mem") 0) ∧
    (0 < (s.openFile (procFile pid "mem") 2).toInt →
      (openPidMemRw s errno (BitVec.ofNat 32 pid)).2 = s.openFile (procFile pid "mem") 2) := by
  obtain ⟨-, a1, -, a2, -⟩ := C107_open_partial s errno pid 0 hp
  obtain ⟨-, b1, -, b2, -⟩ := C107_open_partial s errno pid 2 hp
  exact ⟨a1, b1, a2, b2⟩

/-- **C107.**  A process exists if its directory does. -/
theorem C107_exist (s : Sys) (pid : Nat) (hp : pid < 2 ^ 31) :
    procPidExist s (BitVec.ofNat 32 pid) = s.exist (text "/proc/" ++ decimal pid) := by
  have hl := pid_fits pid hp
  rw [procPidExist, fmtInt_eq pid hp, fit, List.take_of_length_le]
  · rfl
  · have a : (lit "/proc/").length = 6 := by decide
    simp only [List.length_append, a, PATH_MAX]; omega

theorem symlink_eq (s : Sys) (pid : Nat) (name : String) (buf : List Byte) (bufsz : Nat)
    (hp : pid < 2 ^ 31) (hn : (lit name).length < 4000) :
    readProcPidSymlink s (BitVec.ofNat 32 pid) (lit name) buf bufsz =
      (match s.link (procFile pid name) with
       | none => .ok none
       | some target =>
         let realpath := target.take PATH_MAX
         if PATH_MAX ≤ realpath.length then .error .overflow
         else if s.exist realpath = false then .ok none
         else if buf.length < bufsz then .error .overflow
         else .ok (some (strncpy buf realpath bufsz))) := by
  have hl := pid_fits pid hp
  have e : fit PATH_MAX (lit "/proc/" ++ fmtInt (BitVec.ofNat 32 pid) ++ lit "/" ++ lit name) =
      procFile pid name := by
    rw [fmtInt_eq pid hp, fit, List.take_of_length_le]
    · rfl
    · have a : (lit "/proc/").length = 6 := by decide
      have b : (lit "/").length = 1 := by decide
      simp only [List.length_append, a, b, PATH_MAX]; omega
  rw [readProcPidSymlink, e]
  rfl

theorem holds_strncpy (buf p : List Byte) (n : Nat) (h : p.length < n) :
    Holds (strncpy buf p n) p := by
  rw [Holds, strncpy, List.take_of_length_le (by omega)]
  obtain ⟨k, hk⟩ : ∃ k, n - p.length = k + 1 := ⟨n - p.length - 1, by omega⟩
  rw [hk, List.replicate_succ, List.append_assoc]
  exact (List.prefix_append_right_inj p).mpr ⟨List.replicate k 0 ++ buf.drop n, by simp⟩

/-- What the two functions say about the link of this name. -/
def Reads (f : Sys → BitVec 32 → List Byte → Nat → Except Crash (Option (List Byte)))
    (name : String) : Prop :=
  ∀ (s : Sys) (pid : Nat) (buf : List Byte) (bufsz : Nat), pid < 2 ^ 31 → bufsz ≤ buf.length →
    (s.link (procFile pid name) = none → f s (BitVec.ofNat 32 pid) buf bufsz = .ok none) ∧
    ∀ p : List Byte, s.link (procFile pid name) = some p → p.length < 4096 →
      (s.exist p = false → f s (BitVec.ofNat 32 pid) buf bufsz = .ok none) ∧
      (s.exist p = true → p.length < bufsz → ∃ b : List Byte,
        f s (BitVec.ofNat 32 pid) buf bufsz = .ok (some b) ∧ Holds b p ∧
        b.length = buf.length ∧ b.drop bufsz = buf.drop bufsz)

theorem reads_symlink (name : String) (hn : (lit name).length < 4000) :
    Reads (fun s pid buf bufsz => readProcPidSymlink s pid (lit name) buf bufsz) name := by
  intro s pid buf bufsz hp hb
  constructor
  · intro h
    dsimp only
    rw [symlink_eq s pid name buf bufsz hp hn, h]
  · intro p h hl
    have ht : p.take PATH_MAX = p := List.take_of_length_le (by rw [PATH_MAX]; omega)
    dsimp only
    rw [symlink_eq s pid name buf bufsz hp hn, h]
    dsimp only
    rw [ht, if_neg (by rw [PATH_MAX]; omega)]
    refine ⟨fun he => by rw [if_pos he], fun he hs => ?_⟩
    rw [if_neg (by simp [he]), if_neg (by omega)]
    have hx : (p.take bufsz ++ List.replicate (bufsz - p.length) (0 : Byte)).length = bufsz := by
      rw [List.length_append, List.length_take, List.length_replicate]; omega
    refine ⟨_, rfl, holds_strncpy buf p bufsz hs, ?_, ?_⟩
    · rw [strncpy, List.length_append, hx, List.length_drop]; omega
    · rw [strncpy, List.drop_append_of_le_length (by omega), List.drop_of_length_le (by omega)]; rfl

/-- **C107.**  The executable and the current directory of a process: if the link leads to a
file that is there, the caller's array holds its name, if that fits, and nothing behind the
size that was given is written; otherwise the null pointer is returned. -/
theorem C107_links_partial : Reads procPidExe "exe" ∧ Reads procPidCwd "cwd" :=
  ⟨reads_symlink "exe" (by decide), reads_symlink "cwd" (by decide)⟩

/-- **Finding.**  A name that has as many bytes as the caller's array, or more, is returned cut
and without a NUL. -/
theorem C107_unterminated (s : Sys) (pid : Nat) (buf p : List Byte) (hp : pid < 2 ^ 31)
    (hk : s.link (procFile pid "exe") = some p) (he : s.exist p = true) (hl : p.length < 4096)
    (hz : (0 : Byte) ∉ p) (hb : buf.length ≤ p.length) :
    ∃ b : List Byte, procPidExe s (BitVec.ofNat 32 pid) buf buf.length = .ok (some b) ∧
      b.length = buf.length ∧ (0 : Byte) ∉ b := by
  have ht : p.take PATH_MAX = p := List.take_of_length_le (by rw [PATH_MAX]; omega)
  rw [procPidExe, symlink_eq s pid "exe" buf buf.length hp (by decide), hk]
  dsimp only
  rw [ht, if_neg (by rw [PATH_MAX]; omega), if_neg (by simp [he]), if_neg (by omega)]
  refine ⟨_, rfl, ?_, ?_⟩
  · rw [strncpy]; simp; omega
  · rw [strncpy, Nat.sub_eq_zero_of_le hb]
    simp only [List.replicate_zero, List.append_nil, List.drop_length]
    exact fun h => hz (List.mem_of_mem_take h)

/-- **Finding.**  The link of a program whose file was deleted ends in " (deleted)"; a file that
has this name is reported as the executable of the process. -/
theorem C107_deleted (s : Sys) (pid : Nat) (buf p : List Byte) (hp : pid < 2 ^ 31)
    (hk : s.link (procFile pid "exe") = some (p ++ text " (deleted)"))
    (he : s.exist (p ++ text " (deleted)") = true) (hl : p.length < 4086)
    (hb : 4096 ≤ buf.length) :
    ∃ b : List Byte, procPidExe s (BitVec.ofNat 32 pid) buf 4096 = .ok (some b) ∧
      Holds b (p ++ text " (deleted)") := by
  have hd : (text " (deleted)").length = 10 := by decide
  have hlen : (p ++ text " (deleted)").length < 4096 := by rw [List.length_append, hd]; omega
  obtain ⟨b, h1, h2, -⟩ := ((C107_links_partial.1 s pid buf 4096 hp hb).2 _ hk hlen).2 he hlen
  exact ⟨b, h1, h2⟩

/-- **Finding.**  A descriptor 0 is taken for a failure: the map is open and -1 is returned;
the result for the memory is what is in errno, 0 if no call has failed before. -/
theorem C107_fd_zero (s : Sys) (errno : BitVec 32) (pid : Nat) (flags : BitVec 32)
    (hp : pid < 2 ^ 31) (h1 : s.openFile (procFile pid "maps") 0 = 0)
    (h2 : s.openFile (procFile pid "mem") flags = 0) :
    (openPidMaps s (BitVec.ofNat 32 pid)).2 = -1 ∧
    (openPidMemFlags s errno (BitVec.ofNat 32 pid) flags).2 = -errno := by
  obtain ⟨e1, e2, -⟩ := C107_open_partial s errno pid flags hp
  simp only [openPidMaps] at e1
  simp only [openPidMemFlags] at e2
  simp only [openPidMaps, openPidMemFlags, e1, e2, h1, h2]
  exact ⟨rfl, rfl⟩

/-- **Finding.**  A link of 4096 bytes or more makes the program write behind its array; Linux
gives links of processes of at most 4095 bytes. -/
theorem C107_overflow (s : Sys) (pid : Nat) (buf p : List Byte) (bufsz : Nat) (hp : pid < 2 ^ 31)
    (hk : s.link (procFile pid "exe") = some p) (hl : 4096 ≤ p.length) :
    procPidExe s (BitVec.ofNat 32 pid) buf bufsz = .error .overflow := by
  rw [procPidExe, symlink_eq s pid "exe" buf bufsz hp (by decide), hk]
  dsimp only
  rw [if_pos (by rw [List.length_take, PATH_MAX]; omega)]

/-- A system with the process 1200 that runs `/bin/app` in `/srv`, which was deleted. -/
def exSys : Sys where
  link p := if p = lit "/proc/1200/exe" then some (lit "/bin/app")
    else if p = lit "/proc/1200/cwd" then some (lit "/srv (deleted)") else none
  exist p := decide (p = lit "/proc/1200" ∨ p = lit "/bin/app")
  openFile p _ := if p = lit "/proc/1200/maps" then 3 else if p = lit "/proc/1200/mem" then 4 else -1

example : (procPidExe exSys 1200 (List.replicate 16 7) 12).toOption.join =
    some (lit "/bin/app" ++ [0, 0, 0, 0, 7, 7, 7, 7]) ∧
    (procPidCwd exSys 1200 (List.replicate 16 7) 12).toOption = some none ∧
    procPidExist exSys 1200 = true ∧ procPidExist exSys 1201 = false ∧
    openPidMaps exSys 1200 = (lit "/proc/1200/maps", 3) ∧
    openPidMemRw exSys 0 1200 = (lit "/proc/1200/mem", 4) ∧
    openPidMemRo exSys 2 1201 = (lit "/proc/1201/mem", -2) := by decide +kernel

example : ∃ b : List Byte, procPidExe exSys 1200 (List.replicate 8 7) 8 = .ok (some b) ∧
    b.length = 8 ∧ (0 : Byte) ∉ b := by
  have h := C107_unterminated exSys 1200 (List.replicate 8 7) (lit "/bin/app") (by decide)
    (by decide +kernel) (by decide +kernel) (by decide) (by decide) (by decide)
  simpa using h

end Ulp.ProcLinks
