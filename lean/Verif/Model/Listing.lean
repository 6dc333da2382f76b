/-
The listings of ultask: symbols (src/ultask.c:724-764), mappings (src/task/vma.c:407-480) and
the auxiliary vector (src/task/auxv.c:94-119).  The text written to the stream is a list of
bytes.
-/
import Verif.Model.Sym
import Verif.Model.VmaType
import Verif.Model.MapsFile
import Verif.Model.Proc
namespace Ulp.Listing
open Ulp.Load (lit hexDigit)
open Ulp.Sym (Syms)
open Ulp.VmaType (basename VmaType dec)

/-! ### printf (libc) -/

/-- `%-*s` -/
def leftCol (w : Nat) (t : List Byte) : List Byte := t ++ List.replicate (w - t.length) 32

/-- `%*s` -/
def rightCol (w : Nat) (t : List Byte) : List Byte := List.replicate (w - t.length) 32 ++ t

/-- `%lx` -/
def lx (n : Nat) : List Byte := if n < 16 then [hexDigit n] else lx (n / 16) ++ [hexDigit (n % 16)]

/-- `%016lx` -/
def lx16 (n : Nat) : List Byte := List.replicate (16 - (lx n).length) 48 ++ lx n

/-- `%#016lx`: the zeros are behind the prefix. -/
def altHex16 (n : Nat) : List Byte :=
  if n = 0 then List.replicate 16 48
  else lit "0x" ++ List.replicate (14 - (lx n).length) 48 ++ lx n

/-! ### Symbols -/

/-- The two loops over the symbols (src/ultask.c:730-731, 741-742), from the symbol `p` on:
the symbols that are visited. -/
def symLoop (s : Syms) (p : Nat) (seen : List Nat) : Option (List Nat) :=
  if p = 0 then some seen
  else do
    let q ← Sym.nextTaskSym s p
    symLoop s q (seen ++ [p])
  partial_fixpoint

/-- The length of the longest text (src/ultask.c:733-738). -/
def maxLen : Nat → List (List Byte) → Nat
  | m, [] => m
  | m, t :: l => maxLen (if m < t.length then t.length else m) l

/-- `PRINT_TSYM` (src/ultask.c:744-748); `file` is the name of the mapping of a symbol. -/
def symLine (wf wn : Nat) (s : Syms) (file : Nat → List Byte) (p : Nat) : List Byte :=
  leftCol wf (basename (file p)).1 ++ lit " " ++ leftCol wn (s.info p).name ++ lit " " ++
    altHex16 (s.info p).addr.toNat ++ lit "\n"

/-- The symbols printed for one that is visited (src/ultask.c:749-761). -/
def symGroup (s : Syms) (verbose : Bool) (p : Nat) : List Nat :=
  if verbose then p :: s.names.lists p else [p]

/-- `list_all_symbols` (src/ultask.c:724-764).  `basename` may cut slashes off the end of the
name of the mapping; a second call gives the same. -/
def listAllSymbols (s : Syms) (file : Nat → List Byte) (verbose : Bool) : Option (List Byte) := do
  let p ← Sym.nextTaskSym s 0
  let seen ← symLoop s p []
  let wn := maxLen 0 (seen.map fun p => (s.info p).name)
  let wf := maxLen 0 (seen.map fun p => (basename (file p)).1)
  pure ((seen.flatMap (symGroup s verbose)).flatMap (symLine wf wn s file))

/-! ### Mappings -/

/-- What `print_vma` shows besides what was read from the file: `is_elf`, `is_share_lib`,
`is_matched_phdr`, whether it is its own leader, `voffset` (src/task/vma.h). -/
structure Extra where
  elf : Bool
  lib : Bool
  phdr : Bool
  leader : Bool
  voffset : BitVec 64

/-- The two lines of the head (src/task/vma.c:420-425). -/
def vmaHead : List Byte :=
  rightCol 10 (lit "TYPE") ++ lit ": " ++ rightCol 16 (lit "Start") ++ lit " " ++
    rightCol 16 (lit "End") ++ lit " " ++ rightCol 6 (lit "Perm") ++ lit " " ++
    rightCol 4 (lit "Role") ++ lit "\n" ++
  rightCol 11 (lit "") ++ lit " " ++ rightCol 16 (lit "off") ++ lit " " ++
    rightCol 16 (lit "Voffset") ++ lit " " ++ lit "Name" ++ lit "\n"

/-- `print_vma` (src/task/vma.c:407-442) without `detail`.  `perms` are the bytes read
(src/task/vma.c:376), `shift` is `PAGE_SHIFT`. -/
def printVma (shift : Nat) (first : Bool) (v : MapsFile.MapInfo) (perms : List Byte) (x : Extra) :
    List Byte :=
  (if first then vmaHead else []) ++
  rightCol 10 (VmaType.vmaTypeName v.type) ++ lit ": " ++ lx16 v.start.toNat ++ lit "-" ++
    lx16 v.stop.toNat ++ lit " " ++ rightCol 6 perms ++ lit " " ++
    lit (if x.elf then "E" else "-") ++ lit (if x.lib then "S" else "-") ++
    lit (if x.phdr then "P" else "-") ++ lit (if x.leader then "L" else "-") ++ lit "\n" ++
  rightCol 11 (lit "") ++ lit " " ++ lx16 (v.pgoff <<< shift).toNat ++ lit " " ++
    lx16 x.voffset.toNat ++ lit " " ++ v.name ++ lit "\n"

/-- The loop of `print_vma_root` (src/task/vma.c:474-477). -/
def vmaLoop (shift : Nat) : Bool → List (MapsFile.MapInfo × List Byte × Extra) → List Byte
  | _, [] => []
  | first, v :: l => printVma shift first v.1 v.2.1 v.2.2 ++ vmaLoop shift false l

/-- `print_vma_root` (src/task/vma.c:466-480) on the mappings in the order of the list. -/
def printVmaRoot (shift : Nat) (l : List (MapsFile.MapInfo × List Byte × Extra)) : List Byte :=
  vmaLoop shift true l ++ lit "\n(E)ELF, (S)SharedLib, (P)MatchPhdr, (L)Leader\n"

end Ulp.Listing
