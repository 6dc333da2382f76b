/-
Text handling (src/utils/string.c:93-377).

A C string is the list of its bytes without the terminating NUL, so a model
string never contains 0.  A store outside the caller's buffer is the explicit
part of the result that the theorems talk about.
-/
import Verif.Model.Load
namespace Ulp.Str
open Ulp.Load (lit)

/-- Value of a digit in bases up to 16 (glibc `strtoull`). -/
def digitOf (c : Byte) : Option Nat :=
  if 48 ≤ c.toNat ∧ c.toNat ≤ 57 then some (c.toNat - 48)
  else if 97 ≤ c.toNat ∧ c.toNat ≤ 102 then some (c.toNat - 87)
  else if 65 ≤ c.toNat ∧ c.toNat ≤ 70 then some (c.toNat - 55)
  else none

/-- The longest run of digits of `base` read from the left, on top of `v`. -/
def digits (base : Nat) (v : Nat) : List Byte → Nat
  | [] => v
  | c :: s =>
    match digitOf c with
    | none => v
    | some d => if d < base then digits base (v * base + d) s else v

/-- `isspace` in the C locale. -/
def isSpace (c : Byte) : Bool := c.toNat = 32 ∨ (9 ≤ c.toNat ∧ c.toNat ≤ 13)

/-- `strtoull`'s optional `0x`/`0X` before a base-16 number.  If no digit
follows, the number is the `0` itself, which is also what reading no digit gives. -/
def skip0x (base : Nat) (s : List Byte) : List Byte :=
  match s with
  | z :: x :: r => if base = 16 ∧ z = 48 ∧ (x = 120 ∨ x = 88) then r else s
  | _ => s

/-- The value of an unsigned magnitude: clamped when it does not fit. -/
def clamp (v : Nat) : BitVec 64 := if v < 2 ^ 64 then BitVec.ofNat 64 v else BitVec.allOnes 64

/-- `strtoull(s, NULL, base)` for the bases 8, 10 and 16 (libc): white space,
sign, prefix, digits; a magnitude that does not fit gives `ULLONG_MAX`, a minus
sign negates a fitting one. -/
def strtoull (base : Nat) (s : List Byte) : BitVec 64 :=
  match s.dropWhile isSpace with
  | [] => 0
  | c :: r =>
    if c = 45 then
      let v := digits base 0 (skip0x base r)
      if v < 2 ^ 64 then - BitVec.ofNat 64 v else BitVec.allOnes 64
    else if c = 43 then clamp (digits base 0 (skip0x base r))
    else clamp (digits base 0 (skip0x base (c :: r)))

/-- `strstr(s, pat) != NULL` (libc). -/
def hasSub (pat : List Byte) : List Byte → Bool
  | [] => pat.isEmpty
  | c :: s => pat.isPrefixOf (c :: s) || hasSub pat s

/-- `ulp_startswith` (src/utils/string.c:250-253). -/
def startswith (s pre : List Byte) : Bool := pre.isPrefixOf s

/-- `str[0] == '0' && str[1] == 'x'`, the test used at src/utils/string.c:170,
328 and 353. -/
def is0x : List Byte → Bool
  | z :: x :: _ => z = 48 && x = 120
  | _ => false

/-- `strbytes2mem_check` (src/utils/string.c:107-130): true when it returns 0. -/
def check (sep : Byte) : List Byte → Bool
  | [] => true
  | c :: s =>
    if (48 ≤ c.toNat ∧ c.toNat ≤ 57) ∨ (97 ≤ c.toNat ∧ c.toNat ≤ 102) ∨
        (65 ≤ c.toNat ∧ c.toNat ≤ 70) ∨ c = 120 then check sep s
    else if c = sep then check sep s
    else false

/-- Skipping separators: the loops at src/utils/string.c:166-167 and 189-190. -/
def skipSep (sep : Byte) (s : List Byte) : List Byte := s.dropWhile (· = sep)

/-- `strstr(s, str_sep)` for the one-character string `str_sep`
(src/utils/string.c:186); `NULL` and the empty string both end the loop, so both
are `[]`. -/
def toSep (sep : Byte) (s : List Byte) : List Byte := s.dropWhile (· ≠ sep)

theorem skip_toSep_lt (sep c : Byte) (s : List Byte) :
    (skipSep sep (toSep sep (c :: s))).length < (c :: s).length := by
  have h1 : ∀ (p : Byte → Bool) (l : List Byte), (l.dropWhile p).length ≤ l.length :=
    fun p l => (List.dropWhile_suffix p).length_le
  by_cases h : c = sep
  · subst h
    simp only [toSep, ne_eq, not_true_eq_false, decide_false, skipSep, List.dropWhile_cons,
      List.length_cons]
    have := h1 (fun x => decide (x = c)) s
    simp at this ⊢
    omega
  · have h2 : toSep sep (c :: s) = toSep sep s := by simp [toSep, h]
    rw [h2]
    have a := h1 (fun x => decide (x = sep)) (toSep sep s)
    have b := h1 (fun x => decide (x ≠ sep)) s
    simp only [skipSep, List.length_cons]
    simp only [toSep] at *
    omega

/-- The main loop of `strbytes2mem` (src/utils/string.c:169-195) started with
`n` elements already stored.  Result: the bytes stored so far, in order and
starting at `buf[0]`, and `some n` for a return of `buf` with `*nbytes = n` or
`none` for `NULL`.  The store (172) comes before the length test (179). -/
def strbytesLoop (sep : Byte) (bufLen : Nat) (s : List Byte) (w : List Byte) :
    List Byte × Option Nat :=
  match s with
  | [] => (w, some w.length)
  | c :: r =>
    if is0x (c :: r) = false then (w, none)
    else
      let w' := w ++ [(strtoull 16 (c :: r)).setWidth 8]
      if w'.length > bufLen then (w', none)
      else strbytesLoop sep bufLen (skipSep sep (toSep sep (c :: r))) w'
  termination_by s.length
  decreasing_by exact skip_toSep_lt sep c r

/-- `strbytes2mem(bytes, &n, buf, buf_len, seperator)`
(src/utils/string.c:138-200), for non-null `bytes` and `buf`. -/
def strbytes2mem (s : List Byte) (bufLen : Nat) (seperator : Byte) : List Byte × Option Nat :=
  let sep : Byte := if seperator ≠ 0 then seperator else 44
  if bufLen < 1 then ([], none)
  else if check sep s = false then ([], none)
  else strbytesLoop sep bufLen (skipSep sep s) []

/-- A lower-case hexadecimal digit (`printf`'s `%x`). -/
def hexChar (n : Nat) : Byte := if n < 10 then BitVec.ofNat 8 (48 + n) else BitVec.ofNat 8 (87 + n)

/-- `"0x%02x"` (src/utils/string.c:237, 244). -/
def fmt02x (b : Byte) : List Byte :=
  [48, 120, hexChar (b.toNat / 16), hexChar (b.toNat % 16)]

/-- A store of `bs` at `buf + off`; `none` when it does not fit the buffer. -/
def putAt (buf : List Byte) (off : Nat) (bs : List Byte) : Option (List Byte) :=
  if off + bs.length ≤ buf.length then
    some (buf.take off ++ bs ++ buf.drop (off + bs.length))
  else none

/-- The loop of `mem2strbytes` (src/utils/string.c:228-245) from index `i` on;
`mem` is what is left to write.  `i * 5` is an `int` product (230), so it must
not pass `INT_MAX`.  `sprintf` also stores the terminating NUL. -/
def mem2strLoop (sep : Byte) (i : Nat) (buf : List Byte) : List Byte → Option (List Byte)
  | [] => some buf
  | b :: rest =>
    if 5 * i > 2147483647 then none
    else
      let text := if rest.isEmpty then fmt02x b else fmt02x b ++ [sep]
      match putAt buf (5 * i) (text ++ [0]) with
      | none => none
      | some buf' => mem2strLoop sep (i + 1) buf' rest

/-- `mem2strbytes(mem, mem_len, bytes_buf, buf_len, seperator)`
(src/utils/string.c:205-247) for non-null pointers: outer `none` is undefined
behaviour, inner `none` is a `NULL` return, otherwise the final contents of the
buffer. -/
def mem2strbytes (mem buf : List Byte) (sep : Byte) : Option (Option (List Byte)) :=
  if mem.length < 1 ∨ buf.length < 5 then some none
  else if buf.length < 5 * mem.length then some none
  else
    match putAt buf 0 [0] with
    | none => none
    | some buf0 => (mem2strLoop sep 0 buf0 mem).map some

/-- The C string at the start of a buffer. -/
def cstr (buf : List Byte) : List Byte := buf.takeWhile (· ≠ 0)

theorem afterComma_lt (c : Byte) (s : List Byte) :
    ((List.dropWhile (· ≠ 44) (c :: s)).drop 1).length < (c :: s).length := by
  have := (List.dropWhile_suffix (l := c :: s) (fun x : Byte => decide (x ≠ 44))).length_le
  simp only [List.length_drop, List.length_cons] at this ⊢
  omega

/-- The loop of `parse_strstr` (src/utils/string.c:289-305): the names handed to
`__add_to_str_list`, in order.  `*p` after the scan is a comma or the end, so
the `else break` is never taken; allocation failure is not modelled. -/
def parseStrstr (s : List Byte) : List (List Byte) :=
  match s with
  | [] => []
  | c :: r =>
    let name := (c :: r).takeWhile (· ≠ 44)
    let rest := ((c :: r).dropWhile (· ≠ 44)).drop 1
    if name.isEmpty then parseStrstr rest else name :: parseStrstr rest
  termination_by s.length
  decreasing_by all_goals exact afterComma_lt c r

/-- src/utils/macros.h:111-113 -/
def KB : BitVec 64 := 1024
def MB : BitVec 64 := KB * 1024
def GB : BitVec 64 := MB * 1024

/-- `str2size` (src/utils/string.c:319-341). -/
def str2size (s : List Byte) : BitVec 64 :=
  let size := if is0x s then strtoull 16 s else strtoull 10 s
  if hasSub (lit "GB") s then size * GB
  else if hasSub (lit "MB") s then size * MB
  else if hasSub (lit "KB") s then size * KB
  else size

/-- `str[0] == '0' && (str[1] >= '0' && str[1] <= '9')` (src/utils/string.c:356). -/
def isOct : List Byte → Bool
  | z :: x :: _ => z = 48 && (48 ≤ x.toNat && x.toNat ≤ 57)
  | _ => false

/-- `str2addr` (src/utils/string.c:343-362). -/
def str2addr (s : List Byte) : BitVec 64 :=
  if is0x s then strtoull 16 s
  else if isOct s then strtoull 8 s
  else strtoull 10 s

/-- `str2verbose` (src/utils/string.c:364-377). -/
def str2verbose : List Byte → Nat
  | [] => 0
  | c :: s => (if c = 118 then 1 else 0) + str2verbose s

end Ulp.Str
