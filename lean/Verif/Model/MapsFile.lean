/-
Reading `/proc/PID/maps` (src/task/vma.c:321-405): the lines and their fields.
What is done with the mappings then is `Verif.Model.Vma`.
-/
import Verif.Model.VmaType
import Verif.Model.Align
import Verif.Model.Vma
namespace Ulp.MapsFile
open Ulp.Str (isSpace digitOf digits skip0x)
open Ulp.VmaType (VmaType getVmaType)
open Ulp.Align

/-- `fgets` (libc) with room for `n` bytes and the NUL: the bytes stored and what is
left of the file. -/
def fgets : Nat → List Byte → List Byte × List Byte
  | 0, s => ([], s)
  | _ + 1, [] => ([], [])
  | n + 1, c :: s =>
    if c = 10 then ([c], s)
    else
      let r := fgets n s
      (c :: r.1, r.2)

/-! ### sscanf (libc) -/

/-- A directive of a format. -/
inductive Fmt
  /-- this character -/
  | char (c : Byte)
  /-- any amount of white space -/
  | space
  /-- `%x` and `%d`: an integer in this base -/
  | num (base : Nat)
  /-- `%s`, with a maximal width -/
  | word (width : Option Nat)

/-- A converted value: an integer with its sign, or a word. -/
inductive Val
  | num (neg : Bool) (mag : Nat)
  | word (w : List Byte)

/-- A digit of the base. -/
def isDig (base : Nat) (c : Byte) : Bool :=
  match digitOf c with
  | some d => decide (d < base)
  | none => false

/-- An unsigned number, `0x` allowed before base 16; none without a digit. -/
def scanMag (base : Nat) (s : List Byte) : Option (Nat × List Byte) :=
  let s := skip0x base s
  if s.takeWhile (isDig base) = [] then none
  else some (digits base 0 (s.takeWhile (isDig base)), s.dropWhile (isDig base))

/-- An integer: white space, sign, number. -/
def scanNum (base : Nat) (s : List Byte) : Option (Val × List Byte) :=
  match s.dropWhile isSpace with
  | [] => none
  | c :: r =>
    if c = 45 then (scanMag base r).map fun q => (.num true q.1, q.2)
    else if c = 43 then (scanMag base r).map fun q => (.num false q.1, q.2)
    else (scanMag base (c :: r)).map fun q => (.num false q.1, q.2)

/-- A word: white space, then up to `width` bytes that are none. -/
def scanWord (width : Option Nat) (s : List Byte) : Option (Val × List Byte) :=
  let s := s.dropWhile isSpace
  let w := s.takeWhile fun c => !isSpace c
  let w := match width with
    | some n => w.take n
    | none => w
  if w = [] then none else some (.word w, s.drop w.length)

/-- `sscanf`: the values converted, in order, up to the first directive that fails.
What it returns is their number (or −1 instead of 0, which makes no difference
here). -/
def sscanf : List Fmt → List Byte → List Val
  | [], _ => []
  | .char c :: f, s =>
    match s with
    | [] => []
    | d :: s => if d = c then sscanf f s else []
  | .space :: f, s => sscanf f (s.dropWhile isSpace)
  | .num b :: f, s =>
    match scanNum b s with
    | none => []
    | some q => q.1 :: sscanf f q.2
  | .word w :: f, s =>
    match scanWord w s with
    | none => []
    | some q => q.1 :: sscanf f q.2

/-- `"%lx-%lx %s %lx %x:%x %ld %255s"` (src/task/vma.c:352) -/
def mapsFmt : List Fmt :=
  [.num 16, .char 45, .num 16, .space, .word none, .space, .num 16, .space, .num 16, .char 58,
   .num 16, .space, .num 10, .space, .word (some 255)]

/-- `%lx` storing into an `unsigned long`; a value that was not converted stays 0. -/
def toUlong : Option Val → BitVec 64
  | some (.num neg m) =>
    if m < 2 ^ 64 then (if neg then - BitVec.ofNat 64 m else BitVec.ofNat 64 m) else BitVec.allOnes 64
  | _ => 0

/-- `%ld` -/
def toLong : Option Val → BitVec 64
  | some (.num neg m) =>
    BitVec.ofInt 64 (if neg then max (-(m : Int)) (-(2 ^ 63)) else min (m : Int) (2 ^ 63 - 1))
  | _ => 0

/-- `%s`; a word that was not converted stays empty. -/
def toWord : Option Val → List Byte
  | some (.word w) => w
  | _ => []

/-- The local variables of the loop (src/task/vma.c:337-341). -/
structure Rec where
  start : BitVec 64
  stop : BitVec 64
  perms : List Byte
  off : BitVec 64
  major : BitVec 32
  minor : BitVec 32
  inode : BitVec 64
  name : List Byte
  deriving DecidableEq

/-- The call of `sscanf` and the test of its result (src/task/vma.c:352-357).
`perms` has room for four bytes and the NUL; a longer word is written past its end
(the outer `none`).  The inner `none` is the return of −1. -/
def parseLine (line : List Byte) : Option (Option Rec) :=
  let v := sscanf mapsFmt line
  if (toWord v[2]?).length > 4 then none
  else if v.length = 0 then some none
  else
    some (some ⟨toUlong v[0]?, toUlong v[1]?, toWord v[2]?, toUlong v[3]?, (toUlong v[4]?).truncate 32,
      (toUlong v[5]?).truncate 32, toLong v[6]?, toWord v[7]?⟩)

theorem fgets_lt (n : Nat) (c : Byte) (s : List Byte) :
    (fgets (n + 1) (c :: s)).2.length < (c :: s).length := by
  have key : ∀ (n : Nat) (s : List Byte), (fgets n s).2.length ≤ s.length := by
    intro n
    induction n with
    | zero => intro s; cases s <;> simp [fgets]
    | succ n ih =>
      intro s
      cases s with
      | nil => simp [fgets]
      | cons c s =>
        rw [fgets]
        split
        · simp
        · exact Nat.le_succ_of_le (ih s)
  rw [fgets]
  split
  · simp
  · exact Nat.lt_succ_of_le (key n s)

/-- The loop of `read_task_vmas` (src/task/vma.c:335-400) as far as it reads: what
was read from each line, and what is returned.  `file` is the contents of the file
(a C string ends at a NUL byte); `none` is undefined. -/
def readMaps (file : List Byte) : Option (List Rec × Int) :=
  match file with
  | [] => some ([], 0)
  | c :: s =>
    match parseLine ((fgets 1023 (c :: s)).1.takeWhile (· ≠ 0)) with
    | none => none
    | some none => some ([], -1)
    | some (some r) => (readMaps (fgets 1023 (c :: s)).2).map fun q => (r :: q.1, q.2)
  termination_by file.length
  decreasing_by exact fgets_lt 1022 c s

/-- What a mapping is recorded with (src/task/vma.c:374-384). -/
structure MapInfo where
  start : BitVec 64
  stop : BitVec 64
  prot : BitVec 32
  pgoff : BitVec 64
  major : BitVec 32
  minor : BitVec 32
  inode : BitVec 64
  name : List Byte
  type : VmaType
  deriving DecidableEq

/-- src/task/vma.c:374-384; `perms` was filled with zero bytes before. -/
def mapInfo (shift pid : Nat) (exe : List Byte) (r : Rec) : Option MapInfo :=
  (perms2prot (r.perms ++ List.replicate (5 - r.perms.length) 0)).map fun prot =>
    ⟨r.start, r.stop, prot, r.off >>> shift, r.major, r.minor, r.inode, r.name, getVmaType pid exe r.name⟩

/-- `task->vma_root.libc_code` (src/task/vma.c:386-391), with the mappings numbered;
`old` is what it was before. -/
def libcCode (old : Option Nat) : List (Nat × MapInfo) → Option Nat
  | [] => old
  | (p, v) :: l =>
    libcCode (if old = none ∧ v.type = .libc ∧ v.prot &&& PROT_EXEC ≠ 0 then some p else old) l

/-- `task->vma_root.stack` (src/task/vma.c:393-395) -/
def stackVma (old : Option Nat) : List (Nat × MapInfo) → Option Nat
  | [] => old
  | (p, v) :: l => stackVma (if old = none ∧ v.type = .stack then some p else old) l

/-- `read_task_vmas` (src/task/vma.c:321-405) from the contents of the file on.
`ptr i` is what `malloc` returns for the `i`-th line. -/
def readTask (ptr : Nat → Nat) (s : Vma.Vmas) (update : Bool) (file : List Byte) : Option (Vma.Vmas × Int) :=
  (readMaps file).bind fun q =>
    (Vma.readTaskVmas s update (q.1.mapIdx fun i r => (ptr i, ⟨r.start, r.stop, r.name⟩))).map fun s => (s, q.2)

end Ulp.MapsFile
