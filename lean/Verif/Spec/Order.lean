/-
Specification: what is typed for one process.
-/
import Verif.Spec.Session
namespace Ulp.Session
open Sys (pidOf)

/-- The act is for the process `p`: it is a run of a tool whose last `-p` names it, or the process begins or ends.
`ulpinfo` only looks. -/
def Act.on (p : BitVec 32) : Act → Bool
  | .ev v => v.on p
  | .task _ _ j _ => pidOf j.opts = some p
  | .info _ => false

/-- What is done for the process `p` is the same, one after the other, in both sessions; what is done for others,
before, between and behind, need not be. -/
def SameFor (p : BitVec 32) (as bs : List Act) : Prop := as.filter (Act.on p) = bs.filter (Act.on p)

end Ulp.Session
