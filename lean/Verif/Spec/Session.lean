/-
Specification: what a session with all four tools means, and what it does to one process.
-/
import Verif.Model.Session
import Verif.Spec.Mixed
import Verif.Spec.Shell
import Verif.Spec.InfoShell
namespace Ulp.Session
open Ultask (Kern)
open TaskRun (Proc Job)
open Linux (State)
open LoadBytes (Machine)
open Sys (System Out Ev pidOf)
open Getopt (Word Prog)
open Mixed (Use GoodUses)
open Shell (plain)

/-- What was meant: an event of `Verif.Spec.System`, a run of `ultask` with these options, which may be killed, a run of
`ulpinfo` with these options. -/
inductive Act where
  | ev (v : Ev)
  | task (k : Kern (Proc State)) (st : State) (j : Job) (cut : Option (Nat × Nat))
  | info (opts : List Cli.Opt)

/-- The command line is written as the help text says, and these are the options that are written. -/
inductive Means : Line → Act → Prop
  | shell {l v} : Shell.Means l v → Means (.shell l) (.ev v)
  | ultask {posix ws os} (k st e c ls info out cut) : Prog.ultask.Spelled posix ws os →
      Means (.ultask posix ws k st e c ls info out cut) (.task k st ⟨e, c, ls, info, out, os.map plain⟩ cut)
  | ulpinfo {posix ws os} (c : InfoShell.Circ) : Prog.ulpinfo.Spelled posix ws os →
      Means (.ulpinfo posix ws c) (.info (os.map plain))

/-- The same for one after the other. -/
inductive AllMean : List Line → List Act → Prop
  | nil : AllMean [] []
  | cons {l a ls as} : Means l a → AllMean ls as → AllMean (l :: ls) (a :: as)

/-- No tool is given `temp.ulp` as a file. -/
def Act.plain : Act → Prop
  | .ev v => v.plain = true
  | .task _ _ _ _ => True
  | .info opts => Cli.lastFile opts ≠ some (.patch PFile.tempUlp)

/-- One more act in the life of the process `p`: how it began, and what the tools were used for on it
since then; `none` if there is no such process. -/
def lifeStep (s : System) (p : BitVec 32) (l : Option (Patch.World × List Use)) : Act → Option (Patch.World × List Use)
  | .ev (.begins q w) => if q = p then some (w, []) else l
  | .ev (.ends q) => if q = p then none else l
  | .ev v =>
    match v.own s p with
    | none => l
    | some x => l.map fun y => (y.1, y.2 ++ [.cmd x])
  | .task k st j cut => if pidOf j.opts = some p then l.map fun y => (y.1, y.2 ++ [.task k st j cut]) else l
  | .info _ => l

/-- The life of the process `p` after these acts. -/
def life (s : System) (p : BitVec 32) (as : List Act) : Option (Patch.World × List Use) :=
  as.foldl (lifeStep s p) ((s.procs p).map fun w => (w, []))

/-- One more act: how the commands of `ulpatch` and `ulftrace` on `p` since it began have ended. -/
def toldStep (s : System) (p : BitVec 32) (os : List Out) (a : Act × Out) : List Out :=
  match a.1 with
  | .ev (.begins q _) => if q = p then [] else os
  | .ev (.ends q) => if q = p then [] else os
  | .ev v => if (v.own s p).isSome then os ++ [a.2] else os
  | _ => os

/-- The same for all the acts, from how each of them has ended. -/
def told (s : System) (p : BitVec 32) (as : List (Act × Out)) : List Out := as.foldl (toldStep s p) []

/-- At every time the uses of the tools on every process are as C136 asks: every run of `ultask`
on it spares the patches that are live then.  Files are smaller than 8 EiB. -/
def GoodLives (M : Machine) (pg : Nat) (width : Nat → Nat) (R : BitVec 32 → Patch.World → Addr → Prop) (s : System) (as : List Act) : Prop :=
  (∀ a ∈ as, a.plain) ∧ (∀ f b, s.files f = some b → b.length < 2 ^ 63) ∧
    ∀ bs, bs <+: as → ∀ p w us, life s p bs = some (w, us) →
      w.maps = [] ∧ us.length < 2 ^ 32 ∧ GoodUses M pg width (R p w) w us

end Ulp.Session
