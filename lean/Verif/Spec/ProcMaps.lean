/-
The file `/proc/PID/maps` as the kernel writes it (fs/proc/task_mmu.c,
show_map_vma): one line for each mapping.
-/
import Verif.Spec.MapKind
namespace Ulp.ProcMaps
open Ulp.MapKind (text)

/-- A digit, lower case. -/
def digit (d : Nat) : Byte := if d < 10 then BitVec.ofNat 8 (48 + d) else BitVec.ofNat 8 (87 + d)

/-- The numeral of `n` in base 16. -/
def hex (n : Nat) : List Byte := if n < 16 then [digit n] else hex (n / 16) ++ [digit (n % 16)]

/-- The numeral of `n` in base 10. -/
def decimal (n : Nat) : List Byte := if n < 10 then [digit n] else decimal (n / 10) ++ [digit (n % 10)]

/-- With zeros in front, up to `w` digits. -/
def zeros (w : Nat) (s : List Byte) : List Byte := List.replicate (w - s.length) 48 ++ s

/-- A mapping of a process. -/
structure Mapping where
  start : Nat
  stop : Nat
  r : Bool
  w : Bool
  x : Bool
  shared : Bool
  offset : Nat
  major : Nat
  minor : Nat
  inode : Nat
  name : List Byte

def Mapping.perms (m : Mapping) : List Byte :=
  text (if m.r then "r" else "-") ++ text (if m.w then "w" else "-") ++ text (if m.x then "x" else "-") ++
    text (if m.shared then "s" else "p")

/-- The part of the line before the name. -/
def Mapping.front (m : Mapping) : List Byte :=
  zeros 8 (hex m.start) ++ text "-" ++ zeros 8 (hex m.stop) ++ text " " ++ m.perms ++ text " " ++
    zeros 8 (hex m.offset) ++ text " " ++ zeros 2 (hex m.major) ++ text ":" ++ zeros 2 (hex m.minor) ++
    text " " ++ decimal m.inode ++ text " "

/-- The line: a name, if there is one, begins at column 73 or later. -/
def Mapping.line (m : Mapping) : List Byte :=
  m.front ++ (if m.name = [] then [] else List.replicate (72 - m.front.length) 32 ++ [32] ++ m.name) ++ [10]

/-- The file. -/
def file (l : List Mapping) : List Byte := (l.map Mapping.line).flatten

/-- What the kernel's types allow, inode numbers below 2^63. -/
def Mapping.InRange (m : Mapping) : Prop :=
  m.start < 2 ^ 64 ∧ m.stop < 2 ^ 64 ∧ m.offset < 2 ^ 64 ∧ m.major < 2 ^ 32 ∧ m.minor < 2 ^ 32 ∧ m.inode < 2 ^ 63

/-- White space in a name. -/
def blank (c : Byte) : Prop := c.toNat = 32 ∨ (9 ≤ c.toNat ∧ c.toNat ≤ 13)

end Ulp.ProcMaps
