/-
Specification: what a command line of `ultask` asks for, done.
-/
import Verif.Spec.TaskRun
namespace Ulp.TaskRun
open Ulp.Linux
open Ulp.Ultask (Kern Req int)
open Ulp.Cli (Act)

/-- The kernel lets the tool attach to a process that is not traced, and unmap what can be
unmapped. -/
def Grants (pg : Nat) (k : Kern (Proc State)) : Prop :=
  (∀ p, p.w.stopped = false → int (k.ask p .attach).2 = 0) ∧
  ∀ p a l, a.toNat % pg = 0 → 0 < l.toNat → int (k.ask p (.munmap a l)).2 = 0

/-- No two lines of `/proc/PID/maps` have an address in common. -/
def Job.Apart (j : Job) : Prop := j.ls.Pairwise fun x y => x.2.stop ≤ y.2.start ∨ y.2.stop ≤ x.2.start

/-- The address is in the mapping of a line. -/
def In (j : Job) (a : BitVec 64) : Prop := ∃ x ∈ j.ls, x.2.start ≤ a ∧ a < x.2.stop

/-- The `n` bytes at `lo` are what a dump names, when these are the mappings: the region, the
mapping that the address is in, the mapping of the `[vdso]`. -/
def Names (c : Circ) (maps : List Area) (lo : BitVec 64) (n : Nat) : Act → Prop
  | .dumpMem _ addr size => lo = addr ∧ n = size.toNat
  | .dumpVma _ addr => ∃ m ∈ maps, m.lo ≤ addr ∧ addr < m.hi ∧ lo = m.lo ∧ n = (m.hi - m.lo).toNat
  | .dumpVdso _ => ∃ v, c.vdso = some v ∧ ∃ m ∈ maps, m.lo ≤ v + 1 ∧ v + 1 < m.hi ∧ lo = m.lo ∧ n = (m.hi - m.lo).toNat
  | _ => False

/-- The address that a dump names is in the mapping of a line. -/
def Seen (j : Job) : Act → Prop
  | .dumpMem _ addr _ => In j addr
  | .dumpVma _ addr => In j addr
  | .dumpVdso _ => ∃ v, j.c.vdso = some v ∧ In j (v + 1)
  | _ => False

/-- The output file can be opened, and `n` bytes are read and written, and no more are asked for
than fit into an `int`. -/
def Whole (e : Ultask.DumpEnv) (n : Nat) : Prop :=
  n < 2 ^ 31 ∧ 0 < e.fd ∧ e.uninit.length = n ∧ e.rd = some n ∧ e.wr = some n

end Ulp.TaskRun
