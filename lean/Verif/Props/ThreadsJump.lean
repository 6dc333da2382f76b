/-
C135: threads and jumps that are written while they run.
-/
import Verif.Model.ThreadsJump
import Verif.Props.ThreadsFindings
import Verif.Props.JumpHist
namespace Ulp.Threads

variable {I : Isa} {arch : Arch}

theorem honest_both (f : Addr) (o : Mem) (ts : List Tool) : ∀ (w : Mem) (md : Mode),
    Honest arch f o w md (bothActs arch f (o.read f 16) ts) := by
  have hlen : (o.read f 16).length = 16 := by simp [Mem.read]
  induction ts with
  | nil => intro w md; trivial
  | cons t ts ih =>
    intro w md
    cases t with
    | jump p =>
      rw [bothActs, jumpActs]
      simp only [List.append_assoc, List.cons_append, List.nil_append]
      exact honest_copy f o _ (jmpEntry_length arch p) w _
        ⟨write_window w f _ (jmpEntry_length arch p), ih _ _⟩
    | ulpatch c =>
      cases c with
      | patch p =>
        rw [bothActs, toolActs, toolActs, kickActs]
        simp only [List.append_assoc, List.cons_append, List.nil_append]
        exact honest_copy f o _ (jmpEntry_length arch p) w _
          ⟨write_window w f _ (jmpEntry_length arch p), ih _ _⟩
      | unpatch start len =>
        rw [bothActs, toolActs, toolActs, deleteActs]
        simp only [List.append_assoc, List.cons_append, List.nil_append]
        refine honest_copy f o _ hlen w _ ⟨?_, ih _ _⟩
        intro a ha
        obtain ⟨i, hi, rfl⟩ := List.mem_map.1 ha
        have := write_window w f _ hlen
        have h2 := congrArg (fun l => l[i]?) this
        have hi := List.mem_range.1 hi
        simpa [Mem.read, hi] using h2

/-- **C135.**  `ultask --jmp` from a place in a process whose threads run, and commands of ulpatch for
the same place, in any order.  For every processor, every process with any number of threads and every
way in which their instructions and the actions of the tools come one after the other: if no
thread is in the 16 bytes while they are exchanged, and none comes to them afterwards but at the
beginning, then every thread does exactly what it should: it goes to the destination of the last jump or
patch from the moment that one is complete, and the process is not killed unless it would be in
the specification.

Missing: nothing provides for the condition, see `C135_torn` and `C135_inside`. -/
theorem C135_threads_partial (R : Redirect I arch) (f : Addr) (ts : List Tool) (q : Proc I)
    (sched : List Act) (t : Ideal I)
    (htool : sched.filter Act.isTool = bothActs arch f (q.mem.read f 16) ts)
    (hfair : FairRun R f ⟨q, .original⟩ sched)
    (ht : Ideal.acts R f ⟨q, .original⟩ sched = some t) :
    ∃ q', q.acts sched = some q' ∧ Same f q' t := by
  obtain ⟨q', w', h1, h2⟩ := inv_acts R f q.mem sched q.mem q ⟨q, .original⟩ t
    ⟨⟨rfl, rfl, rfl, fun _ _ => rfl⟩, fun _ _ => rfl, fun _ _ => rfl, fun _ _ => rfl⟩
    ((honest_filter f q.mem sched q.mem .original).2 (by
      rw [htool]; exact honest_both f q.mem ts q.mem .original)) hfair ht
  exact ⟨q', h1, h2.same⟩

/-- **C135.**  `ultask` is killed within the write: what holds of the complete jump holds for the threads
that do not come to the place of a jump that is half written. -/
theorem C135_killed_partial (R : Redirect I arch) (f : Addr) (ts : List Tool) (q : Proc I)
    (sched rest : List Act) (t : Ideal I)
    (htool : sched.filter Act.isTool ++ rest = bothActs arch f (q.mem.read f 16) ts)
    (hfair : FairRun R f ⟨q, .original⟩ sched)
    (ht : Ideal.acts R f ⟨q, .original⟩ sched = some t) :
    ∃ q', q.acts sched = some q' ∧ Same f q' t := by
  obtain ⟨q', w', h1, h2⟩ := inv_acts R f q.mem sched q.mem q ⟨q, .original⟩ t
    ⟨⟨rfl, rfl, rfl, fun _ _ => rfl⟩, fun _ _ => rfl, fun _ _ => rfl, fun _ _ => rfl⟩
    ((honest_filter f q.mem sched q.mem .original).2 (by
      refine honest_prefix f q.mem _ rest _ _ ?_
      rw [htool]; exact honest_both f q.mem ts q.mem .original)) hfair ht
  exact ⟨q', h1, h2.same⟩

/-- **C135.**  Without threads in between, the actions leave the memory that `run_jmp` leaves
(`Model/Ultask`), and no thread is stopped. -/
theorem C135_same_write (q : Proc I) {vs : Vma.Vmas} {src dst : Addr} {rd : Option Nat} {m' : Mem}
    (hs : src ≠ 0) (hd : dst ≠ 0) (h1 : (Vma.findVma vs src).isSome) (h2 : (Vma.findVma vs dst).isSome)
    (h : Ultask.runJmp arch vs q.mem src dst rd (some 16) = some (m', 0)) :
    q.acts (jumpActs arch src dst) = some { q with mem := m' } := by
  obtain ⟨m1, r, e1, e2⟩ := LoadBytes.runJmp_cases arch q.mem (src := src) (dst := dst) rd h1 h2 (.inr (.inr rfl))
  rw [h] at e1
  cases e1
  rcases e2 with ⟨-, -, -, rfl⟩ | ⟨e2, -⟩
  · have hl := jmpEntry_length arch dst
    unfold jumpActs copyTo
    rw [acts_append, acts_append]
    simp only [Proc.acts, Proc.act, Option.bind_some]
    rw [acts_stores]
    simp only [Option.bind_some]
    rw [pokes_write _ _ _ (by omega)]
  · exact absurd ⟨rfl, hs, hd⟩ e2

/-- **C135, finding.**  A process with one thread, which comes to the place between two of the 16 stores: it
jumps to an address that is neither in its code nor the destination.  (While ulpatch writes, the one
thread of such a process is stopped: `C112_single_partial`.) -/
theorem C135_torn : ∃ (q : Proc X86.isa) (f p : Addr) (before after : List Act),
    (∀ i, q.regs i = q.regs 0) ∧ (q.regs 0).rip = f ∧ jumpActs .x86_64 f p = before ++ after ∧
    pcOf (q.acts (before ++ [.run 0] ++ after)) 0 = some 0x9090909090909011 ∧ p = 0x1111111111111111 := by
  refine ⟨nops (fun _ => 0x1000) (fun _ => true), 0x1000, 0x1111111111111111,
    (jumpActs .x86_64 0x1000 0x1111111111111111).take 10,
    (jumpActs .x86_64 0x1000 0x1111111111111111).drop 10, fun _ => rfl, rfl, ?_, ?_, rfl⟩
  · rw [List.take_append_drop]
  · decide +kernel

/-- **C135, finding.**  A thread that is at the ninth of the 16 bytes goes on in the middle of the
address in the jump, here with a `ret` that is no instruction of the program. -/
theorem C135_inside : ∃ (q : Proc X86.isa) (f p : Addr),
    (∀ i, q.regs i = q.regs 0) ∧ (q.regs 0).rip = f + 8 ∧
    pcOf (q.acts (jumpActs .x86_64 f p ++ [.run 0])) 0 = some 0x9090909090909090 ∧
    (Ideal.acts x86Redirect f ⟨q, .original⟩ (jumpActs .x86_64 f p ++ [.run 0])).map
      (fun t => X86.isa.pc (t.proc.regs 0)) = some (f + 9) := by
  refine ⟨nops (fun _ => 0x1008) (fun _ => true), 0x1000, 0x20c3, fun _ => rfl, rfl, ?_, ?_⟩ <;>
    decide +kernel

/-- A schedule that meets the conditions: a thread far away runs while a jump is written, then the
other one comes to the jump. -/
def jumpSched : List Act :=
  [.mark .changing] ++ (copyTo 0x1000 (jmpEntry .x86_64 0x2000)).take 9 ++ [.run 1] ++
    (copyTo 0x1000 (jmpEntry .x86_64 0x2000)).drop 9 ++ [.mark (.redirect 0x2000), .run 0]

example : jumpSched.filter Act.isTool = bothActs .x86_64 0x1000 (two.mem.read 0x1000 16) [.jump 0x2000] := by
  decide +kernel

example : FairRun x86Redirect 0x1000 ⟨two, .original⟩ jumpSched := by
  unfold jumpSched copyTo
  rw [← List.map_take, ← List.map_drop]
  simp only [List.append_assoc, List.cons_append, List.nil_append]
  refine ⟨trivial, fun t ht => ?_⟩
  obtain rfl := Option.some.inj ht
  refine fair_stores _ _ _ _ _ ⟨fun _ => nops_clear _ _ 1 rfl _ rfl (by decide), fun t ht => ?_⟩
  rw [Ideal.act] at ht
  have hr : t.proc.regs 0 = two.regs 0 := ideal_run_regs _ _ 1 0 (by decide) _ _ ht
  refine fair_stores _ _ _ _ _ ⟨trivial, fun t' ht' => ?_⟩
  obtain rfl := Option.some.inj ht'
  refine ⟨fun _ => Or.inl ?_, fun _ _ => trivial⟩
  show (x86Redirect.go _ _ (t.proc.regs 0)).isSome = true
  rw [hr]
  rfl

example : pcOf (two.acts jumpSched) 0 = some 0x2000 := by decide +kernel

end Ulp.Threads
