/-
C114: the threads of a process while ulpatch makes it execute system calls; C115: ulpatch is killed.
-/
import Verif.Spec.ThreadsCall
import Verif.Props.ThreadsFindings
import Verif.Props.Ptrace
namespace Ulp.Threads

variable {I : Isa}

/-- Marks tell the truth; `w` has the bytes that are there, `r` are the registers of the main
thread. -/
def HonestC (W : List Addr) (o : Mem) (old : I.Regs) : Mem → I.Regs → Mode → List (Op I) → Prop
  | _, _, md, [] => md = .original
  | w, r, md, .act (.store a b) :: l => md = .changing ∧ a ∈ W ∧ HonestC W o old (poke w a b) r md l
  | w, r, _, .act (.mark .original) :: l =>
    (∀ a ∈ W, w a = o a) ∧ r = old ∧ HonestC W o old w r .original l
  | w, r, _, .act (.mark .changing) :: l => HonestC W o old w r .changing l
  | _, _, _, .act (.mark (.redirect _)) :: _ => False
  | w, r, md, .act (.run _) :: l => HonestC W o old w r md l
  | _, _, _, .act (.attach _) :: _ => False
  | _, _, _, .act (.detach _) :: _ => False
  | _, _, _, .act (.unmap _ _) :: _ => False
  | w, _, md, .regs r :: l => md = .changing ∧ HonestC W o old w r md l
  | w, _, md, .call e r :: l => md = .changing ∧ Invisible W e ∧ HonestC W o old w r md l

theorem honestC_filter (W : List Addr) (o : Mem) (old : I.Regs) (l : List (Op I)) :
    ∀ (w : Mem) (r : I.Regs) (md : Mode), HonestC W o old w r md (l.filter Op.isTool) →
      HonestC W o old w r md l := by
  induction l with
  | nil => intro w r md h; exact h
  | cons a l ih =>
    intro w r md h
    cases a with
    | regs r' => rw [List.filter_cons_of_pos rfl] at h; exact ⟨h.1, ih _ _ _ h.2⟩
    | call e r' => rw [List.filter_cons_of_pos rfl] at h; exact ⟨h.1, h.2.1, ih _ _ _ h.2.2⟩
    | act a =>
      cases a with
      | run i => rw [List.filter_cons_of_neg (by simp [Op.isTool])] at h; exact ih _ _ _ h
      | attach i => rw [List.filter_cons_of_pos rfl] at h; exact h
      | detach i => rw [List.filter_cons_of_pos rfl] at h; exact h
      | unmap x n => rw [List.filter_cons_of_pos rfl] at h; exact h
      | store x b => rw [List.filter_cons_of_pos rfl] at h; exact ⟨h.1, h.2.1, ih _ _ _ h.2.2⟩
      | mark m =>
        rw [List.filter_cons_of_pos rfl] at h
        cases m with
        | original => exact ⟨h.1, h.2.1, ih _ _ _ h.2.2⟩
        | changing => exact ih _ _ _ h
        | redirect p => exact h

theorem honestC_copy (base : Addr) (n : Nat) (o : Mem) (old : I.Regs) (bs : List Byte)
    (hb : bs.length = n) (hn : n ≤ 16) (w : Mem) (r : I.Regs) (l : List (Op I))
    (h : HonestC (span base n) o old (w.write base bs) r .changing l) :
    HonestC (span base n) o old w r .changing ((copyTo base bs).map .act ++ l) := by
  rw [← pokes_write w base bs (by omega)] at h
  have hin : ∀ e ∈ storesAt base bs, e.1 ∈ span base n := by
    intro e he
    have := (List.of_mem_zip he).1
    rwa [hb] at this
  unfold copyTo
  revert hin h
  generalize storesAt base bs = st
  induction st generalizing w with
  | nil => intro h _; exact h
  | cons e st ih =>
    intro h hin
    rw [List.map_cons, List.map_cons, List.cons_append]
    exact ⟨rfl, hin e List.mem_cons_self, ih _ h fun x hx => hin x (List.mem_cons_of_mem _ hx)⟩

theorem honestC_calls (base : Addr) (n : Nat) (hn : n ≤ 16) (o : Mem) (old : I.Regs) (code : List Byte)
    (hcode : code.length = n) (cs : List (Call I)) (he : ∀ c ∈ cs, Invisible (span base n) c.effect) :
    ∀ w : Mem, HonestC (span base n) o old w old .original
      (cs.flatMap (callOps base code (o.read base n) old)) := by
  have hlen : (o.read base n).length = n := by simp [Mem.read]
  induction cs with
  | nil => intro w; rfl
  | cons c cs ih =>
    intro w
    rw [List.flatMap_cons, callOps]
    simp only [List.append_assoc, List.cons_append, List.nil_append]
    refine honestC_copy base n o old code hcode hn w old _
      ⟨rfl, rfl, he c List.mem_cons_self, rfl, honestC_copy base n o old _ hlen hn _ old _ ⟨?_, rfl, ?_⟩⟩
    · intro a ha
      obtain ⟨i, hi, rfl⟩ := List.mem_map.1 ha
      have hi := List.mem_range.1 hi
      have := Mem.read_write_self (w.write base code) base (o.read base n) (by omega)
      rw [hlen] at this
      have h2 := congrArg (fun l => l[i]?) this
      simpa [Mem.read, hi] using h2
    · exact ih (fun c hc => he c (List.mem_cons_of_mem _ hc)) _

theorem withRegs_self (p : Proc I) (r : I.Regs) : (p.withRegs r).regs 0 = r := by
  show (if (0 : Nat) = 0 then r else p.regs 0) = r
  rw [if_pos rfl]

theorem withRegs_other (p : Proc I) (r : I.Regs) (j : Nat) (h : j ≠ 0) :
    (p.withRegs r).regs j = p.regs j := by
  show (if j = 0 then r else p.regs j) = p.regs j
  rw [if_neg h]

/-- The relation between the process and what it should be. -/
structure InvC (W : List Addr) (o w : Mem) (old r : I.Regs) (q : Proc I) (s : Ideal I) : Prop where
  stopped : q.stopped = s.proc.stopped
  main : s.proc.stopped 0 = true
  mapped : q.mapped = s.proc.mapped
  out : ∀ a, a ∉ W → q.mem a = s.proc.mem a
  win : ∀ a ∈ W, q.mem a = w a
  code : ∀ a ∈ W, s.proc.mem a = o a
  regs : ∀ j, j ≠ 0 → q.regs j = s.proc.regs j
  reg0 : q.regs 0 = r
  old0 : s.proc.regs 0 = old
  mode : s.mode = .changing ∨ s.mode = .original ∧ (∀ a ∈ W, w a = o a) ∧ r = old

theorem invC_ops (W : List Addr) (o : Mem) (old : I.Regs) (l : List (Op I)) :
    ∀ (w : Mem) (r : I.Regs) (q : Proc I) (s t : Ideal I), InvC W o w old r q s →
      HonestC W o old w r s.mode l → FairOps W s l → s.ops l = some t →
      ∃ q' w' r', q.ops l = some q' ∧ InvC W o w' old r' q' t ∧ t.mode = .original := by
  induction l with
  | nil =>
    intro w r q s t hv hh _ ht
    obtain rfl := Option.some.inj ht
    exact ⟨q, w, r, rfl, hv, hh⟩
  | cons a l ih =>
    intro w r q s t hv hh hf ht
    obtain ⟨hf1, hf2⟩ := hf
    rw [Ideal.ops] at ht
    cases hs : s.op a with
    | none => rw [hs] at ht; cases ht
    | some s' =>
      rw [hs] at ht
      have hf2 := hf2 s' hs
      suffices e : ∃ q' w' r', q.op a = some q' ∧ InvC W o w' old r' q' s' ∧
          HonestC W o old w' r' s'.mode l by
        obtain ⟨q', w', r', e1, e2, e3⟩ := e
        obtain ⟨q'', w'', r'', e4, e5⟩ := ih w' r' q' s' t e2 e3 hf2 ht
        exact ⟨q'', w'', r'', by rw [Proc.ops, e1]; exact e4, e5⟩
      obtain ⟨h1, h2, h3, h4, h5, h6, h7, h8, h9, h10⟩ := hv
      cases a with
      | regs r' =>
        obtain rfl := Option.some.inj hs
        refine ⟨_, w, r', rfl, ⟨h1, h2, h3, h4, h5, h6, fun j hj => ?_, withRegs_self q r', h9, Or.inl hh.1⟩, hh.2⟩
        show (q.withRegs r').regs j = _
        rw [withRegs_other q r' j hj]; exact h7 j hj
      | call e r' =>
        obtain rfl := Option.some.inj hs
        obtain ⟨g1, g2, g3⟩ := hh
        refine ⟨_, w, r', rfl, ⟨h1, h2, ?_, ?_, ?_, ?_, fun j hj => ?_, withRegs_self q r', h9, Or.inl g1⟩, g3⟩
        · show e.mapped q.mapped = e.mapped _; rw [h3]
        · exact g2.uses _ _ h4
        · intro a ha; show e.mem q.mem a = _; rw [g2.keeps _ a ha]; exact h5 a ha
        · intro a ha; show e.mem _ a = _; rw [g2.keeps _ a ha]; exact h6 a ha
        · show (q.withRegs r').regs j = _
          rw [withRegs_other q r' j hj]; exact h7 j hj
      | act a =>
        cases a with
        | attach i => exact hh.elim
        | detach i => exact hh.elim
        | unmap x n => exact hh.elim
        | mark m =>
          obtain rfl := Option.some.inj hs
          cases m with
          | original =>
            exact ⟨q, w, r, rfl, ⟨h1, h2, h3, h4, h5, h6, h7, h8, h9, Or.inr ⟨rfl, hh.1, hh.2.1⟩⟩, hh.2.2⟩
          | changing => exact ⟨q, w, r, rfl, ⟨h1, h2, h3, h4, h5, h6, h7, h8, h9, Or.inl rfl⟩, hh⟩
          | redirect p => exact hh.elim
        | store x b =>
          obtain rfl := Option.some.inj hs
          obtain ⟨g1, g2, g3⟩ := hh
          refine ⟨_, poke w x b, r, rfl, ⟨h1, h2, h3, fun y hy => ?_, fun y hy => ?_, h6, h7, h8, h9,
            Or.inl g1⟩, g3⟩
          · show poke q.mem x b y = _
            rw [poke, if_neg (by rintro rfl; exact hy g2)]
            exact h4 y hy
          · show poke q.mem x b y = poke w x b y
            unfold poke
            by_cases e : y = x
            · rw [if_pos e, if_pos e]
            · rw [if_neg e, if_neg e]; exact h5 y hy
        | run i =>
          replace hs : (s.proc.run i).map (fun q => { s with proc := q }) = some s' := hs
          cases hp : s.proc.run i with
          | none => rw [hp] at hs; cases hs
          | some p' =>
            rw [hp] at hs
            obtain rfl := Option.some.inj hs
            by_cases hi : i = 0
            · subst hi
              have e1 : p' = s.proc := by
                unfold Proc.run at hp
                rw [if_pos h2] at hp
                exact (Option.some.inj hp).symm
              subst e1
              refine ⟨q, w, r, ?_, ⟨h1, h2, h3, h4, h5, h6, h7, h8, h9, h10⟩, hh⟩
              show q.run 0 = some q
              unfold Proc.run
              rw [h1, if_pos h2]
            · have hl : s.proc.stopped i = false → ∀ a ∈ I.reads s.proc.mem (s.proc.regs i),
                  q.mem a = s.proc.mem a := by
                intro hst a ha
                obtain ⟨-, hc⟩ := hf1 hst
                rcases h10 with hm | ⟨-, hw, -⟩
                · exact h4 a ((hc hm).1 a ha)
                · by_cases haw : a ∈ W
                  · rw [h5 a haw, h6 a haw, hw a haw]
                  · exact h4 a haw
              obtain ⟨q', e1, e2, e3, e4, e5, e6⟩ := run_frame W i s.proc q p' (h7 i hi) h1 h3 h4 hl
                (fun hst => (hf1 hst).1) hp
              have hfr := act_frame (.run i) 0 (fun e => hi (Act.run.inj e)) s.proc p' hp
              have hfq := act_frame (.run i) 0 (fun e => hi (Act.run.inj e)) q q' e1
              have hst := run_stopped i s.proc p' hp
              exact ⟨q', w, r, e1, ⟨e3, by rw [hst]; exact h2, e4, e5,
                fun a ha => by rw [(e6 a ha).1]; exact h5 a ha,
                fun a ha => by rw [(e6 a ha).2]; exact h6 a ha,
                fun j hj => e2 j (h7 j hj), by rw [hfq.1]; exact h8, by rw [hfr.1]; exact h9, h10⟩, hh⟩

/-- **C114.**  System calls that a process makes for ulpatch, any number of them, while its other threads
run, in any order and on any processor: if no other thread is in the code that is replaced by that of
the system call, then the threads see nothing but what the system calls do; and in the end all
memory, and the registers of all threads, also of the main thread, are as they should be.

Missing: nothing in the program keeps other threads out of that code, which is the beginning of the
code of the C library, see `C114_meets`. -/
theorem C114_call_partial (base : Addr) (code : List Byte) (hcode : code.length ≤ 16) (q : Proc I)
    (hmain : q.stopped 0 = true) (cs : List (Call I))
    (he : ∀ c ∈ cs, Invisible (span base code.length) c.effect) (sched : List (Op I)) (t : Ideal I)
    (htool : sched.filter Op.isTool =
      cs.flatMap (callOps base code (q.mem.read base code.length) (q.regs 0)))
    (hfair : FairOps (span base code.length) ⟨q, .original⟩ sched)
    (ht : Ideal.ops ⟨q, .original⟩ sched = some t) :
    ∃ q', q.ops sched = some q' ∧ q'.mem = t.proc.mem ∧ q'.regs = t.proc.regs ∧
      q'.mapped = t.proc.mapped ∧ q'.stopped = t.proc.stopped ∧ q'.regs 0 = q.regs 0 := by
  obtain ⟨q', w', r', h1, h2, h3⟩ := invC_ops (span base code.length) q.mem (q.regs 0) sched q.mem
    (q.regs 0) q ⟨q, .original⟩ t
    ⟨rfl, hmain, rfl, fun _ _ => rfl, fun _ _ => rfl, fun _ _ => rfl, fun _ _ => rfl, rfl, rfl,
      Or.inr ⟨rfl, fun _ _ => rfl, rfl⟩⟩
    (honestC_filter _ _ _ sched _ _ _ (by
      rw [htool]; exact honestC_calls base code.length hcode q.mem _ code rfl cs he q.mem)) hfair ht
  obtain ⟨g1, -, g3, g4, g5, g6, g7, g8, g9, g10⟩ := h2
  rcases g10 with hm | ⟨-, hw, hr⟩
  · rw [h3] at hm; cases hm
  refine ⟨q', h1, funext fun a => ?_, funext fun j => ?_, g3, g1, by rw [g8, hr]⟩
  · by_cases ha : a ∈ span base code.length
    · rw [g5 a ha, g6 a ha, hw a ha]
    · exact g4 a ha
  · by_cases hj : j = 0
    · rw [hj, g8, g9, hr]
    · exact g7 j hj

/-- A call of `mmap`: a page at `0x9000` appears. -/
def mmapCall : Call X86.isa :=
  ⟨(⟨0x4000, fun _ => 9, 0⟩ : X86.Regs),
   ⟨id, fun m a => m a || decide ((a - 0x9000).toNat < 0x1000)⟩,
   (⟨0x4003, fun _ => 0x9000, 0⟩ : X86.Regs)⟩

/-- Two threads; the main thread is stopped. -/
def callProc : Proc X86.isa :=
  { nops (fun i => if i = 0 then 0x1000 else 0x5000) (fun a => decide (a.toNat < 0x8000)) with
    stopped := fun i => i == 0 }

/-- The second thread runs after the system call and before the code is put back. -/
def callSched : List (Op X86.isa) :=
  [.act (.mark .changing)] ++ (copyTo 0x4000 [0x0f, 0x05, 0xcc]).map .act ++
    [.regs mmapCall.new, .call mmapCall.effect mmapCall.after, .act (.run 1), .act (.run 0),
      .regs (callProc.regs 0)] ++
    (copyTo 0x4000 [0x90, 0x90, 0x90]).map .act ++ [.act (.mark .original)]

theorem fairOps_stores (W : List Addr) (st : List (Addr × Byte)) (s : Ideal I) (l : List (Op I))
    (h : FairOps W s l) : FairOps W s ((st.map fun e => Op.act (.store e.1 e.2)) ++ l) := by
  induction st with
  | nil => exact h
  | cons e st ih =>
    refine ⟨trivial, fun t ht => ?_⟩
    obtain rfl := Option.some.inj ht
    exact ih

example : callSched.filter Op.isTool =
    [mmapCall].flatMap (callOps 0x4000 [0x0f, 0x05, 0xcc] (callProc.mem.read 0x4000 3) (callProc.regs 0)) :=
  rfl

example : ∀ c ∈ [mmapCall], Invisible (span 0x4000 3) c.effect := by
  intro c hc
  obtain rfl := List.mem_singleton.1 hc
  exact ⟨fun m m' h a ha => h a ha, fun m a _ => rfl⟩

theorem ideal_op_stopped (i : Nat) (s t : Ideal I) (h : s.op (.act (.run i)) = some t) :
    t.proc.stopped = s.proc.stopped := by
  rw [Ideal.op] at h
  cases hr : s.proc.run i with
  | none => rw [hr] at h; cases h
  | some p =>
    rw [hr] at h
    obtain rfl := Option.some.inj h
    exact run_stopped i _ _ hr

theorem nops_clearW (W : List Addr) (p : Proc X86.isa) (i : Nat) (hm : p.mem = fun _ => 0x90)
    (r : X86.Regs) (hr : p.regs i = r) (ho : r.rip ∉ W) : Clear W i p := by
  constructor
  · intro a ha
    rw [hm, hr, nops_reads] at ha
    simp only [span, List.range_one, List.map_cons, List.map_nil, List.mem_singleton] at ha
    rw [ha, show r.rip + BitVec.ofNat 64 0 = r.rip by simp]
    exact ho
  · intro r' st h e he
    rw [hm, hr, nops_step] at h
    cases h
    cases he

example : FairOps (span 0x4000 3) ⟨callProc, .original⟩ callSched := by
  unfold callSched copyTo
  simp only [List.append_assoc, List.cons_append, List.nil_append, List.map_map]
  refine ⟨trivial, fun t ht => ?_⟩
  obtain rfl := Option.some.inj ht
  refine fairOps_stores _ _ _ _ ⟨trivial, fun t ht => ?_⟩
  obtain rfl := Option.some.inj ht
  refine ⟨trivial, fun t ht => ?_⟩
  obtain rfl := Option.some.inj ht
  have hc := nops_clearW (span 0x4000 3)
    { callProc with mem := id callProc.mem, mapped := mmapCall.effect.mapped callProc.mapped } 1 rfl _ rfl
    (by decide)
  refine ⟨fun _ => ⟨hc.2, fun _ => hc⟩, fun t ht => ?_⟩
  have hst := ideal_op_stopped 1 _ t ht
  refine ⟨fun h => (by rw [hst] at h; cases h), fun t ht => ?_⟩
  refine ⟨trivial, fun t ht => ?_⟩
  refine fairOps_stores _ _ _ _ ⟨trivial, fun t ht => trivial⟩

example : ∃ t, Ideal.ops ⟨callProc, .original⟩ callSched = some t ∧ t.proc.mapped 0x9abc = true :=
  ⟨_, rfl, rfl⟩

/-- **C114, finding.**  A thread that nobody stopped is two bytes behind the beginning of the code of the C
library when a system call is made: it meets the breakpoint, and the process is killed; it should
have executed its next instruction. -/
theorem C114_meets : ∃ (q : Proc X86.isa) (c : Call X86.isa) (before after : List (Op X86.isa)),
    q.stopped 0 = true ∧ (q.regs 1).rip = 0x4002 ∧
    callOps 0x4000 [0x0f, 0x05, 0xcc] (q.mem.read 0x4000 3) (q.regs 0) c = before ++ after ∧
    (q.ops (before ++ [.act (.run 1)] ++ after)).isNone ∧
    (Ideal.ops ⟨q, .original⟩ (before ++ [.act (.run 1)] ++ after)).map
      (fun t => X86.isa.pc (t.proc.regs 1)) = some 0x4003 := by
  refine ⟨{ callProc with regs := fun i => (⟨if i = 0 then 0x1000 else 0x4002, fun _ => 0x7000, 0⟩ : X86.Regs) },
    mmapCall,
    (callOps 0x4000 [0x0f, 0x05, 0xcc] [0x90, 0x90, 0x90] (callProc.regs 0) mmapCall).take 5,
    (callOps 0x4000 [0x0f, 0x05, 0xcc] [0x90, 0x90, 0x90] (callProc.regs 0) mmapCall).drop 5,
    rfl, rfl, ?_, ?_, ?_⟩
  · rw [List.take_append_drop]; rfl
  · decide +kernel
  · decide +kernel

/-! ### ulpatch is killed -/

/-- **C115, finding.**  Killed between two of the 16 stores: the process goes on with half an entry.  The
thread that was stopped, at the beginning of the function, jumps to an address that is neither in the
function nor the replacement. -/
theorem C115_half : ∃ (q : Proc X86.isa) (f p : Addr) (done rest : List Act),
    (q.regs 0).rip = f ∧ kickActs .x86_64 f p = done ++ rest ∧
    pcOf (q.acts (done ++ [.detach 0, .run 0])) 0 = some 0x9090909090909011 ∧
    p = 0x1111111111111111 := by
  refine ⟨nops (fun _ => 0x1000) (fun _ => true), 0x1000, 0x1111111111111111,
    (kickActs .x86_64 0x1000 0x1111111111111111).take 11,
    (kickActs .x86_64 0x1000 0x1111111111111111).drop 11, rfl, ?_, ?_, rfl⟩
  · rw [List.take_append_drop]
  · decide +kernel

/-- Two threads, one of which runs while ulpatch is killed after nine stores. -/
def killedSched : List Act :=
  [.attach 0, .mark .changing] ++ (copyTo 0x1000 (jmpEntry .x86_64 0x2000)).take 9 ++ [.run 1, .detach 0]

example : toolActs .x86_64 0x1000 ((nops (fun _ => 0x5000) (fun _ => true)).mem.read 0x1000 16) [.patch 0x2000] =
      (killedSched.filter Act.isTool).take 11 ++
        (toolActs .x86_64 0x1000 (List.replicate 16 0x90) [.patch 0x2000]).drop 11 ∧
    killedSched.filter Act.isTool = (killedSched.filter Act.isTool).take 11 ++ [.detach 0] := by
  decide +kernel

example : FairRun x86Redirect 0x1000 ⟨nops (fun _ => 0x5000) (fun _ => true), .original⟩ killedSched := by
  unfold killedSched copyTo
  rw [← List.map_take]
  simp only [List.append_assoc, List.cons_append, List.nil_append]
  refine ⟨trivial, fun t ht => ?_⟩
  obtain rfl := Option.some.inj ht
  refine ⟨trivial, fun t ht => ?_⟩
  obtain rfl := Option.some.inj ht
  refine fair_stores _ _ _ _ _ ⟨fun _ => nops_clear _ _ 1 rfl _ rfl (by decide), fun t ht => ?_⟩
  exact ⟨trivial, fun _ _ => trivial⟩

open Ptrace SysSpec in
/-- **C115, finding.**  Killed in the middle of a system call, after the registers of the process are
set: for every process, system call and kernel, the process is left with registers and code from which it
makes the system call by itself and then meets a breakpoint, which nobody waits for and which
kills it. -/
theorem C115_in_call (k : Kernel) (base : Addr) (nr : BitVec 32)
    (args : BitVec 64 × BitVec 64 × BitVec 64 × BitVec 64 × BitVec 64 × BitVec 64) (t : Tgt X86Regs)
    (hk : ∀ nr args (m : Mem), (k nr args m).2.read base 3 = m.read base 3) :
    ∃ t', RunsTo (x86Step k)
        ⟨startRegs x86 t.regs base nr args, t.mem.write base [0x0f#8, 0x05#8, 0xcc#8]⟩ t' ∧
      t'.regs.rip = base + 3 ∧ t'.mem.read base 3 = [0x0f#8, 0x05#8, 0xcc#8] := by
  obtain ⟨a1, a2, a3, a4, a5, a6⟩ := args
  generalize hm : t.mem.write base [0x0f#8, 0x05#8, 0xcc#8] = m
  have hread : m.read base 3 = [0x0f#8, 0x05#8, 0xcc#8] := by
    rw [← hm]
    exact Mem.read_write_self t.mem base [0x0f#8, 0x05#8, 0xcc#8] (by decide)
  have hr2 : ∀ m' : Mem, m'.read base 3 = [0x0f#8, 0x05#8, 0xcc#8] → m'.read base 2 = [0x0f#8, 0x05#8] ∧
      m'.read (base + 2#64) 2 ≠ [0x0f#8, 0x05#8] ∧ m'.read (base + 2#64) 1 = [0xcc#8] := by
    intro m' h
    simp only [Mem.read, List.range, List.range.loop, List.map_cons, List.map_nil, List.cons.injEq, and_true] at h ⊢
    have h0 : base + 2#64 + BitVec.ofNat 64 0 = base + BitVec.ofNat 64 2 := by simp
    refine ⟨⟨h.1, h.2.1⟩, ?_, ?_⟩
    · intro hh
      rw [h0, h.2.2] at hh
      exact absurd (List.cons.inj hh).1 (by decide)
    · rw [h0]
      exact h.2.2
  generalize hregs : startRegs x86 t.regs base nr (a1, a2, a3, a4, a5, a6) = regs
  have hrip : regs.rip = base := by rw [← hregs]; rfl
  have hs1 : ∃ r out, x86Step k ⟨regs, m⟩ = .next ⟨r, out⟩ ∧ r.rip = base + 2#64 ∧
      out.read base 3 = [0x0f#8, 0x05#8, 0xcc#8] := by
    generalize ho : k regs.rax (regs.rdi, regs.rsi, regs.rdx, regs.r10, regs.r8, regs.r9) m = out
    refine ⟨{ regs with rax := out.1, rcx := base + 2#64, r11 := regs.eflags, rip := base + 2#64 }, out.2, ?_,
      rfl, by rw [← ho, hk, hread]⟩
    rw [x86Step]
    simp only [hrip]
    rw [if_pos (hr2 m hread).1, ho]
  obtain ⟨r, out, e1, e2, e3⟩ := hs1
  refine ⟨⟨{ r with rip := r.rip + 1#64 }, out⟩, .go e1 (.stop ?_), ?_, e3⟩
  · rw [x86Step]
    simp only [e2]
    rw [if_neg (hr2 out e3).2.1, if_pos (hr2 out e3).2.2]
  · show r.rip + 1#64 = base + 3
    rw [e2]
    bv_omega

open Ptrace SysSpec in
example : ∀ nr args (m : Mem), ((fun _ _ m => (42, m) : Kernel) nr args m).2.read 0x4000 3 = m.read 0x4000 3 :=
  fun _ _ _ => rfl

end Ulp.Threads
