/-
The digest of a file (src/utils/md5_evp.c).

The digest itself is in the library of OpenSSL: here it is any three functions.  What the
operating system and that library answer is a parameter.
-/
import Verif.Model.Mem
namespace Ulp.Md5

/-- The digest of OpenSSL (src/utils/md5_evp.c:37-67): a state that is started, fed with bytes
and turned into the result. -/
structure Evp (S : Type) where
  init : S
  update : S → List Byte → S
  final : S → List Byte

/-- Which calls succeed (src/utils/md5_evp.c:29, 38, 49, 65): for `EVP_DigestUpdate`, by the
number of the call. -/
structure Answers where
  new : Bool
  init : Bool
  update : Nat → Bool
  final : Bool

/-- What is taken and given back, in order (src/utils/md5_evp.c:22-73). -/
inductive Ev where
  | fopen | fclose | ctxNew | ctxFree
deriving DecidableEq

/-- The file at the path: its bytes, and the first position at which reading fails, if any. -/
structure Input where
  data : List Byte
  bad : Option Nat

/-- How many bytes can be read (libc and the system, for src/utils/md5_evp.c:48). -/
def Input.stop (f : Input) : Nat :=
  match f.bad with
  | some b => min b f.data.length
  | none => f.data.length

/-- `fread(buffer, 1, 1024, file)` at a position (libc, for src/utils/md5_evp.c:45-48): as much as
there is, up to the size of the buffer. -/
def fread (f : Input) (pos : Nat) : List Byte := ((f.data.take f.stop).drop pos).take 1024

/-- `ferror(file)` after the end of reading (libc, for src/utils/md5_evp.c:57): reading failed
before, or where, the end would have been found. -/
def ferror (f : Input) : Bool :=
  match f.bad with
  | some b => b ≤ f.data.length
  | none => false

/-- The loop (src/utils/md5_evp.c:48-55): the state at the end, or `none` if a call failed. -/
def feed {S : Type} (evp : Evp S) (ok : Nat → Bool) (f : Input) (k pos : Nat) (s : S) : Option S :=
  match h : fread f pos with
  | [] => some s
  | c :: r =>
    if ok k then feed evp ok f (k + 1) (pos + (c :: r).length) (evp.update s (c :: r)) else none
  termination_by f.data.length - pos
  decreasing_by
    have h1 : (fread f pos).length = r.length + 1 := by rw [h]; rfl
    have h2 : (fread f pos).length ≤ f.data.length - pos := by
      unfold fread
      simp only [List.length_take, List.length_drop]
      omega
    simp only [List.length_cons]
    omega

/-- `fmd5sum` (src/utils/md5_evp.c:20-74): the value returned, what is written to
`md5_result`, and what was taken and given back.  The file cannot be opened with `.error e`.
A call that fails writes nothing. -/
def fmd5sum {S : Type} (evp : Evp S) (ans : Answers) (file : Except Nat Input) : Int × Option (List Byte) × List Ev :=
  match file with
  | .error e => (-(e : Int), none, [])
  | .ok f =>
    if ans.new = false then (-1, none, [.fopen, .fclose])
    else if ans.init = false then (-1, none, [.fopen, .ctxNew, .ctxFree, .fclose])
    else
      match feed evp ans.update f 0 0 evp.init with
      | none => (-1, none, [.fopen, .ctxNew, .ctxFree, .fclose])
      | some s =>
        if ferror f then (-1, none, [.fopen, .ctxNew, .ctxFree, .fclose])
        else if ans.final = false then (-1, none, [.fopen, .ctxNew, .ctxFree, .fclose])
        else (0, some (evp.final s), [.fopen, .ctxNew, .ctxFree, .fclose])

end Ulp.Md5
