/-
How mappings are told apart, in words: an ordered list of rules about the name.
-/
import Verif.Model.VmaType
namespace Ulp.MapKind
open Ulp.VmaType (VmaType)

/-- The characters of a string as bytes. -/
def text (s : String) : List Byte := s.toList.map fun c => BitVec.ofNat 8 c.toNat

/-- The last component of the path `name` begins with `pre`. -/
def FileStarts (name pre : List Byte) : Prop :=
  ∃ dir rest, name = dir ++ pre ++ rest ∧ (dir = [] ∨ ∃ d, dir = d ++ [47]) ∧ 47 ∉ pre ++ rest

/-- `sub` occurs in `name`. -/
def Occurs (sub name : List Byte) : Prop := ∃ a b, name = a ++ sub ++ b

/-- The decimal numeral of `n`, without leading zeros. -/
inductive Decimal : Nat → List Byte → Prop
  | digit {n} : n < 10 → Decimal n [BitVec.ofNat 8 (48 + n)]
  | more {n d s} : n ≠ 0 → d < 10 → Decimal n s →
      Decimal (10 * n + d) (s ++ [BitVec.ofNat 8 (48 + d)])

/-- The rules in order.  The first that holds decides. -/
def rules (pid : List Byte) (exe name : List Byte) : List (Prop × VmaType) :=
  [ (name = exe, .self),
    (FileStarts name (text "libc.so") ∨ FileStarts name (text "libssp") ∨
      FileStarts name (text "libc-"), .libc),
    (name = text "[heap]", .heap),
    (FileStarts name (text "ld-linux"), .ld),
    (name = text "[stack]", .stack),
    (name = text "[uprobes]", .uprobes),
    (name = text "[vvar]", .vvar),
    (name = text "[vvar_vclock]", .vvarVclock),
    (name = text "[vdso]", .vdso),
    (name = text "[vsyscall]", .vsyscall),
    (FileStarts name (text "lib") ∧ Occurs (text ".so") name, .libUnknown),
    (name = [], .anon),
    (Occurs (text "ulp-") name ∧ Occurs pid name, .ulpatch) ]

/-- The name each kind is shown under. -/
def shown : VmaType → String
  | .none => "unknown" | .self => "self" | .libc => "libc" | .heap => "heap" | .ld => "ld"
  | .stack => "stack" | .uprobes => "uprobes" | .vvar => "vvar" | .vvarVclock => "vvar_vclock"
  | .vdso => "vdso" | .vsyscall => "vsyscall" | .libUnknown => "lib?" | .anon => "anon"
  | .ulpatch => "ulpatch"

/-- `First rs t`: `t` is what the first rule that holds says, `none` if none does. -/
inductive First : List (Prop × VmaType) → VmaType → Prop
  | nil : First [] .none
  | here {p t rs} : p → First ((p, t) :: rs) t
  | skip {p t rs u} : ¬ p → First rs u → First ((p, t) :: rs) u

end Ulp.MapKind
