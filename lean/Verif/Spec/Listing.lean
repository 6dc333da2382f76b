/-
Specification: the tables that ultask prints.
-/
import Verif.Spec.ProcMaps
import Verif.Spec.Symbols
namespace Ulp.ListingSpec
open Ulp.MapKind (text shown)
open Ulp.ProcMaps (hex zeros Mapping)
open Ulp.SymSpec (Reg firstOfEach)

/-- `n` spaces. -/
def spaces (n : Nat) : List Byte := List.replicate n 32

/-- A column of width `w`, with the text on the left. -/
def left (w : Nat) (t : List Byte) : List Byte := t ++ spaces (w - t.length)

/-- A column of width `w`, with the text on the right. -/
def right (w : Nat) (t : List Byte) : List Byte := spaces (w - t.length) ++ t

/-- `b` is the last component of the path `f`. -/
def Base (f b : List Byte) : Prop :=
  ∃ dir, f = dir ++ b ∧ (dir = [] ∨ ∃ d, dir = d ++ [47]) ∧ b ≠ [] ∧ 47 ∉ b

/-- An address, in 16 characters. -/
def address (a : BitVec 64) : List Byte :=
  if a = 0 then text "0000000000000000" else text "0x" ++ zeros 14 (hex a.toNat)

/-- The symbols of a name, one for each address, in the order registered. -/
def named (regs : List Reg) (name : List Byte) : List Reg :=
  firstOfEach Reg.addr (regs.filter fun r => r.name = name)

/-- One line of the table of symbols. -/
def symRow (base : Nat → List Byte) (wf wn : Nat) (r : Reg) : List Byte :=
  left wf (base r.id) ++ text " " ++ left wn r.name ++ text " " ++ address r.addr ++ [10]

/-- Unsigned bytes, compared like words in a dictionary. -/
def After (a b : List Byte) : Prop := b.map BitVec.toNat < a.map BitVec.toNat

/-- The letters of a mapping, and its offset to the addresses in the file. -/
structure Role where
  elf : Bool
  lib : Bool
  phdr : Bool
  leader : Bool
  voffset : BitVec 64

def Role.letters (x : Role) : List Byte :=
  text (if x.elf then "E" else "-") ++ text (if x.lib then "S" else "-") ++
    text (if x.phdr then "P" else "-") ++ text (if x.leader then "L" else "-")

/-- The two lines of a mapping. -/
def mapRow (m : Mapping) (kind : VmaType.VmaType) (x : Role) : List Byte :=
  right 10 (text (shown kind)) ++ text ": " ++ zeros 16 (hex m.start) ++ text "-" ++
    zeros 16 (hex m.stop) ++ text " " ++ right 6 m.perms ++ text " " ++ x.letters ++ [10] ++
  spaces 12 ++ zeros 16 (hex m.offset) ++ text " " ++ zeros 16 (hex x.voffset.toNat) ++ text " " ++
    m.name ++ [10]

def mapHead : List Byte :=
  text "      TYPE:            Start              End   Perm Role" ++ [10] ++
  text "                         off          Voffset Name" ++ [10]

def mapFoot : List Byte := [10] ++ text "(E)ELF, (S)SharedLib, (P)MatchPhdr, (L)Leader" ++ [10]

end Ulp.ListingSpec
