/-
The hexadecimal dump (src/utils/string.c, `memshow`).  What is written to the stream is a
list of bytes; writing does not fail.
-/
import Verif.Model.Load
namespace Ulp.Dump
open Ulp.Load (lit hexDigit hex2)

/-- What is undefined: reading outside of the memory (src/utils/string.c:46, 56), and an
`int` that counts too far (src/utils/string.c:31). -/
inductive Crash where
  | overread
  | intOverflow
  deriving DecidableEq

/-- `fprintf("%08x")` of an `int` that is not negative (libc, for src/utils/string.c:35). -/
def hex8 (n : Nat) : List Byte := (List.range 8).map fun d => hexDigit (n / 16 ^ (7 - d) % 16)

/-- `isprint` (libc, the C locale, for src/utils/string.c:56). -/
def isprint (b : Byte) : Bool := 32 ≤ b.toNat && b.toNat ≤ 126

/-- One column of bytes: the body of the loop src/utils/string.c:37-49.  `mem` are the bytes
that can be read from `data` on. -/
def hexCol (mem : List Byte) (len k i : Nat) : Except Crash (List Byte) :=
  let e := if i = 16 / 2 - 1 then lit "  " else lit " "
  if len ≤ k * 16 + i then .ok (lit "  " ++ e)
  else
    match mem[k * 16 + i]? with
    | none => .error .overread
    | some b => .ok (hex2 b ++ e)

/-- One character: the body of the loop src/utils/string.c:53-65, which reads the byte even
if it is behind the end. -/
def charCol (mem : List Byte) (len k i : Nat) : Except Crash (List Byte) :=
  match mem[k * 16 + i]? with
  | none => .error .overread
  | some b =>
    let e := if isprint b then b else 46
    if len ≤ k * 16 + i then .ok (lit " ") else .ok [e]

/-- One line (src/utils/string.c:33-67). -/
def line (mem : List Byte) (len k : Nat) : Except Crash (List Byte) := do
  let h ← (List.range 16).mapM (hexCol mem len k)
  let c ← (List.range 16).mapM (charCol mem len k)
  pure (hex8 (k * 16) ++ lit "  " ++ h.flatten ++ lit "  |" ++ c.flatten ++ lit "|\n")

/-- The loop over the lines (src/utils/string.c:31-68) from line `k` on: the text, and what
is added to the variable `len` of the function.  In the loops over the columns another
variable `len` is counted, so only 10 + 3 + 2 characters of each line are. -/
def lines (mem : List Byte) (len k : Nat) : Except Crash (List Byte × Int) :=
  if k * 16 < len then do
    let l ← line mem len k
    let r ← lines mem len (k + 1)
    pure (l ++ r.1, 15 + r.2)
  else if k * 16 < 2 ^ 31 then .ok ([], 0)
  else .error .intOverflow
  termination_by len - k * 16

/-- `memshow` (src/utils/string.c:21-71): the text and the result.  `fp` tells whether there
is a stream; `mem` are the bytes that can be read at `data`, which may be a null pointer. -/
def memshow (fp : Bool) (mem : Option (List Byte)) (dataLen : Int) :
    Except Crash (List Byte × Int) :=
  match mem with
  | none => .ok ([], -22)
  | some mem =>
    if dataLen ≤ 0 then .ok ([], -22)
    else if fp = false then .ok ([], 0)
    else lines mem dataLen.toNat 0

end Ulp.Dump
