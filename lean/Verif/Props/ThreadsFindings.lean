/-
C112, C113: what the theorem about threads means on the two machines, what happens where its
conditions do not hold, and threads in a patch that is taken out.
-/
import Verif.Props.Threads
import Verif.Model.Patch
namespace Ulp.Threads

variable {I : Isa} {arch : Arch}

/-! ### What redirection means -/

/-- One instruction of a thread at the entry, on any processor. -/
theorem run_go (R : Redirect I arch) (q : Proc I) (i : Nat) (f p : Addr) (r : I.Regs)
    (hm : q.mem.read f 16 = jmpEntry arch p) (hmap : ∀ a ∈ window f, q.mapped a = true)
    (hs : q.stopped i = false) (hg : R.go f p (q.regs i) = some r) :
    q.run i = some { q with regs := fun j => if j = i then r else q.regs j } := by
  have h1 := R.step q.mem f p _ _ hm hg
  have h2 : (I.reads q.mem (q.regs i)).all q.mapped = true :=
    List.all_eq_true.2 fun a ha => hmap a (R.reads q.mem f p _ _ hm hg a ha)
  unfold Proc.run
  rw [hs, if_neg (by simp), h2, if_neg (by simp), h1]
  rfl

/-- **C112.**  x86_64: in a patched process a thread at the beginning of the function is at the
replacement one instruction later; nothing else in the process has changed. -/
theorem C112_enters_x86 (q : Proc X86.isa) (i : Nat) (f p : Addr) (r : X86.Regs)
    (hm : q.mem.read f 16 = jmpEntry .x86_64 p) (hmap : ∀ a ∈ window f, q.mapped a = true)
    (hs : q.stopped i = false) (hr : q.regs i = r) (hf : r.rip = f) :
    q.run i = some { q with
      regs := fun j => if j = i then ({ r with rip := p } : X86.Regs) else q.regs j } := by
  refine run_go x86Redirect q i f p _ hm hmap hs ?_
  rw [hr]
  show (if r.rip = f then _ else _) = _
  rw [if_pos hf]

theorem run_go_go (R : Redirect I arch) (q : Proc I) (i : Nat) (f p : Addr) (r r' : I.Regs)
    (hm : q.mem.read f 16 = jmpEntry arch p) (hmap : ∀ a ∈ window f, q.mapped a = true)
    (hs : q.stopped i = false) (hg : R.go f p (q.regs i) = some r) (hg' : R.go f p r = some r') :
    q.acts [.run i, .run i] = some { q with regs := fun j => if j = i then r' else q.regs j } := by
  have h1 := run_go R q i f p r hm hmap hs hg
  have h2 := run_go R { q with regs := fun j => if j = i then r else q.regs j } i f p r' hm hmap hs
    (by show R.go f p (if i = i then r else _) = _; rw [if_pos rfl]; exact hg')
  rw [Proc.acts, Proc.act, h1]
  dsimp only
  rw [Proc.acts, Proc.act, h2]
  dsimp only
  rw [Proc.acts]
  congr 2
  funext j
  by_cases hj : j = i
  · rw [if_pos hj, if_pos hj]
  · rw [if_neg hj, if_neg hj, if_neg hj]

/-- **C112.**  aarch64: in a patched process a thread at the beginning of the function is at the
replacement two instructions later; nothing but its register `x17` has changed. -/
theorem C112_enters_a64 (q : Proc A64.isa) (i : Nat) (f p : Addr) (r : A64.Regs)
    (hm : q.mem.read f 16 = jmpEntry .aarch64 p) (hmap : ∀ a ∈ window f, q.mapped a = true)
    (hs : q.stopped i = false) (hr : q.regs i = r) (hf : r.pc = f) :
    q.acts [.run i, .run i] = some { q with
      regs := fun j =>
        if j = i then (⟨p, fun k => if k.val = 17 then p else r.x k⟩ : A64.Regs) else q.regs j } := by
  refine run_go_go a64Redirect q i f p (⟨f + 4, fun k => if k.val = 17 then p else r.x k⟩ : A64.Regs) _
    hm hmap hs ?_ ?_
  · rw [hr]
    show (if r.pc = f then _ else _) = _
    rw [if_pos hf]
  · show (if f + 4 = f then _ else
      if f + 4 = f + 4 ∧ (if (17 : Nat) = 17 then p else r.x 17) = p then _ else _) = _
    rw [if_neg (by bv_omega), if_pos ⟨rfl, if_pos rfl⟩]

theorem acts_append (l l' : List Act) : ∀ q : Proc I, q.acts (l ++ l') = (q.acts l).bind fun r => r.acts l' := by
  induction l with
  | nil => intro q; rfl
  | cons a l ih =>
    intro q
    rw [List.cons_append, Proc.acts, Proc.acts]
    cases q.act a with
    | none => rfl
    | some r => exact ih r

theorem acts_stores (st : List (Addr × Byte)) : ∀ q : Proc I,
    q.acts (st.map fun e => .store e.1 e.2) =
      some { q with mem := st.foldl (fun m s => poke m s.1 s.2) q.mem } := by
  induction st with
  | nil => intro q; rfl
  | cons e st ih => intro q; rw [List.map_cons, Proc.acts, Proc.act]; exact ih _

/-- **C112.**  Without threads in between, the actions leave the memory that the model of the whole
command (`Model/Patch`) has after the last stage of a patch. -/
theorem C112_same_write (q : Proc I) (w : Patch.World) (e : Patch.PatchEnv) (info : Patch.Info)
    (hmem : w.mem = q.mem) (h2 : e.attach2 = .ok) (hn : e.entryN = some 16) :
    ∃ q', q.acts (kickActs w.arch info.virt info.patchFn) = some q' ∧
      q'.mem = (Patch.kickEntry w e info).1.mem ∧ q'.regs = q.regs ∧ q'.mapped = q.mapped ∧
      q'.stopped 0 = false := by
  have hl := jmpEntry_length w.arch info.patchFn
  unfold kickActs copyTo
  rw [acts_append, acts_append]
  simp only [Proc.acts, Proc.act, Option.bind_some]
  rw [acts_stores]
  simp only [Option.bind_some]
  refine ⟨_, rfl, ?_, rfl, rfl, rfl⟩
  rw [pokes_write _ _ _ (by omega)]
  unfold Patch.kickEntry
  rw [h2]
  dsimp only
  simp only [Patch.attach, Patch.detach, Patch.writeTask, hn, ← hmem]
  rw [List.take_of_length_le (by omega)]

/-- What other threads and ulpatch cannot change: the registers of a thread that does not run, and
that an address is not mapped. -/
theorem act_frame (a : Act) (i : Nat) (ha : a ≠ .run i) (q r : Proc I) (h : q.act a = some r) :
    r.regs i = q.regs i ∧ ∀ x, q.mapped x = false → r.mapped x = false := by
  cases a with
  | run j =>
    have hj : i ≠ j := fun e => ha (by rw [e])
    replace h : q.run j = some r := h
    unfold Proc.run at h
    by_cases hs : q.stopped j = true
    · rw [if_pos hs] at h; obtain rfl := Option.some.inj h; exact ⟨rfl, fun _ h => h⟩
    rw [if_neg hs] at h
    by_cases hm : (I.reads q.mem (q.regs j)).all q.mapped = false
    · rw [if_pos hm] at h; cases h
    rw [if_neg hm] at h
    cases he : I.step q.mem (q.regs j) with
    | none => rw [he] at h; cases h
    | some e =>
      rw [he] at h
      dsimp only at h
      by_cases hd : e.2.all (fun s => q.mapped s.1) = false
      · rw [if_pos hd] at h; cases h
      rw [if_neg hd] at h
      obtain rfl := Option.some.inj h
      exact ⟨if_neg hj, fun _ h => h⟩
  | unmap x n =>
    obtain rfl := Option.some.inj h
    exact ⟨rfl, fun y hy => by show (q.mapped y && _) = false; rw [hy, Bool.false_and]⟩
  | attach j => obtain rfl := Option.some.inj h; exact ⟨rfl, fun _ h => h⟩
  | detach j => obtain rfl := Option.some.inj h; exact ⟨rfl, fun _ h => h⟩
  | store x b => obtain rfl := Option.some.inj h; exact ⟨rfl, fun _ h => h⟩
  | mark m => obtain rfl := Option.some.inj h; exact ⟨rfl, fun _ h => h⟩

/-! ### A process with one thread -/

/-- What is asked of the only thread: nothing while the bytes are exchanged. -/
def FairAlone (R : Redirect I arch) (f : Addr) (s : Ideal I) (i : Nat) : Prop :=
  match s.mode with
  | .original => Keeps (window f) i s.proc
  | .changing => True
  | .redirect p => (R.go f p (s.proc.regs i)).isSome ∨ Clear (window f) i s.proc

def FairRunAlone (R : Redirect I arch) (f : Addr) : Ideal I → List Act → Prop
  | _, [] => True
  | s, a :: l =>
    (match a with | .run i => s.proc.stopped i = false → FairAlone R f s i | _ => True) ∧
    ∀ t, s.act R f a = some t → FairRunAlone R f t l

/-- Bytes are exchanged only while the main thread is stopped. -/
def Guarded (st c : Bool) : List Act → Prop
  | [] => c = true → st = true
  | .attach i :: l => (c = true → st = true) ∧ Guarded (if 0 = i then true else st) c l
  | .detach i :: l => (c = true → st = true) ∧ Guarded (if 0 = i then false else st) c l
  | .mark m :: l => (c = true → st = true) ∧ Guarded st (decide (m = .changing)) l
  | .store _ _ :: l => (c = true → st = true) ∧ Guarded st c l
  | .unmap _ _ :: l => (c = true → st = true) ∧ Guarded st c l
  | .run _ :: l => (c = true → st = true) ∧ Guarded st c l

theorem guarded_here (st c : Bool) (l : List Act) (h : Guarded st c l) : c = true → st = true := by
  cases l with
  | nil => exact h
  | cons a l => cases a <;> exact h.1

theorem guarded_filter (l : List Act) : ∀ st c, Guarded st c (l.filter Act.isTool) → Guarded st c l := by
  induction l with
  | nil => intro st c h; exact h
  | cons a l ih =>
    intro st c h
    cases a with
    | run i =>
      rw [List.filter_cons_of_neg (by simp [Act.isTool])] at h
      exact ⟨guarded_here _ _ _ h, ih _ _ h⟩
    | attach i => rw [List.filter_cons_of_pos rfl] at h; exact ⟨h.1, ih _ _ h.2⟩
    | detach i => rw [List.filter_cons_of_pos rfl] at h; exact ⟨h.1, ih _ _ h.2⟩
    | store x b => rw [List.filter_cons_of_pos rfl] at h; exact ⟨h.1, ih _ _ h.2⟩
    | unmap x n => rw [List.filter_cons_of_pos rfl] at h; exact ⟨h.1, ih _ _ h.2⟩
    | mark m => rw [List.filter_cons_of_pos rfl] at h; exact ⟨h.1, ih _ _ h.2⟩

theorem guarded_stores (sts : List (Addr × Byte)) (l : List Act) (h : Guarded true true l) :
    Guarded true true (sts.map (fun e => Act.store e.1 e.2) ++ l) := by
  induction sts with
  | nil => exact h
  | cons e sts ih => exact ⟨fun _ => rfl, ih⟩

theorem guarded_tool (f : Addr) (o : List Byte) (cs : List Cmd) : ∀ st,
    Guarded st false (toolActs arch f o cs) := by
  induction cs with
  | nil => intro st h; cases h
  | cons c cs ih =>
    intro st
    cases c with
    | patch p =>
      rw [toolActs, kickActs, copyTo]
      simp only [List.append_assoc, List.cons_append, List.nil_append]
      exact ⟨fun h => (by cases h), fun h => (by cases h),
        guarded_stores _ _ ⟨fun _ => rfl, fun h => (by cases h), ih _⟩⟩
    | unpatch start len =>
      rw [toolActs, deleteActs, copyTo]
      simp only [List.append_assoc, List.cons_append, List.nil_append]
      exact ⟨fun h => (by cases h), fun h => (by cases h),
        guarded_stores _ _ ⟨fun _ => rfl, fun h => (by cases h), fun h => (by cases h), ih _⟩⟩

theorem run_stopped (i : Nat) (p q : Proc I) (h : p.run i = some q) : q.stopped = p.stopped := by
  unfold Proc.run at h
  by_cases hs : p.stopped i = true
  · rw [if_pos hs] at h; obtain rfl := Option.some.inj h; rfl
  rw [if_neg hs] at h
  by_cases hm : (I.reads p.mem (p.regs i)).all p.mapped = false
  · rw [if_pos hm] at h; cases h
  rw [if_neg hm] at h
  cases he : I.step p.mem (p.regs i) with
  | none => rw [he] at h; cases h
  | some e =>
    rw [he] at h
    dsimp only at h
    by_cases hd : e.2.all (fun s => p.mapped s.1) = false
    · rw [if_pos hd] at h; cases h
    rw [if_neg hd] at h
    obtain rfl := Option.some.inj h
    rfl

theorem ideal_run_stopped (R : Redirect I arch) (f : Addr) (i : Nat) (s t : Ideal I)
    (h : s.run R f i = some t) : t.proc.stopped = s.proc.stopped ∧ t.mode = s.mode := by
  obtain ⟨sp, md⟩ := s
  have ord : ∀ t, ((sp.run i).map fun q => (⟨q, md⟩ : Ideal I)) = some t →
      t.proc.stopped = sp.stopped ∧ t.mode = md := by
    intro t h
    cases hr : sp.run i with
    | none => rw [hr] at h; cases h
    | some q =>
      rw [hr] at h
      obtain rfl := Option.some.inj h
      exact ⟨run_stopped i _ _ hr, rfl⟩
  unfold Ideal.run at h
  dsimp only at h
  by_cases hs : sp.stopped i = true
  · rw [if_pos hs] at h; obtain rfl := Option.some.inj h; exact ⟨rfl, rfl⟩
  rw [if_neg hs] at h
  cases md with
  | original => exact ord t h
  | changing => exact ord t h
  | redirect p =>
    dsimp only at h
    cases hg : R.go f p (sp.regs i) with
    | none => rw [hg] at h; exact ord t h
    | some r =>
      rw [hg] at h
      dsimp only at h
      by_cases hw : (window f).all sp.mapped = false
      · rw [if_pos hw] at h; cases h
      rw [if_neg hw] at h
      obtain rfl := Option.some.inj h
      exact ⟨rfl, rfl⟩

theorem ideal_run_regs (R : Redirect I arch) (f : Addr) (i k : Nat) (hk : k ≠ i) (s t : Ideal I)
    (h : s.run R f i = some t) : t.proc.regs k = s.proc.regs k := by
  obtain ⟨sp, md⟩ := s
  have ord : ∀ t, ((sp.run i).map fun q => (⟨q, md⟩ : Ideal I)) = some t →
      t.proc.regs k = sp.regs k := by
    intro t h
    cases hr : sp.run i with
    | none => rw [hr] at h; cases h
    | some q =>
      rw [hr] at h
      obtain rfl := Option.some.inj h
      exact (act_frame (.run i) k (fun e => hk (Act.run.inj e).symm) _ _ hr).1
  unfold Ideal.run at h
  dsimp only at h
  by_cases hs : sp.stopped i = true
  · rw [if_pos hs] at h; obtain rfl := Option.some.inj h; rfl
  rw [if_neg hs] at h
  cases md with
  | original => exact ord t h
  | changing => exact ord t h
  | redirect p =>
    dsimp only at h
    cases hg : R.go f p (sp.regs i) with
    | none => rw [hg] at h; exact ord t h
    | some r =>
      rw [hg] at h
      dsimp only at h
      by_cases hw : (window f).all sp.mapped = false
      · rw [if_pos hw] at h; cases h
      rw [if_neg hw] at h
      obtain rfl := Option.some.inj h
      exact if_neg hk

theorem fair_alone (R : Redirect I arch) (f : Addr) (l : List Act) (hone : ∀ i, .run i ∈ l → i = 0) :
    ∀ (s : Ideal I) (st c : Bool), s.proc.stopped 0 = st → (s.mode = .changing → c = true) →
      Guarded st c l → FairRunAlone R f s l → FairRun R f s l := by
  induction l with
  | nil => intro s st c _ _ _ _; trivial
  | cons a l ih =>
    intro s st c hst hc hg hf
    have ih := ih fun i hi => hone i (List.mem_cons_of_mem _ hi)
    refine ⟨?_, fun t ht => ?_⟩
    · cases a with
      | run i =>
        obtain rfl := hone i List.mem_cons_self
        intro h0
        have hf1 := hf.1 h0
        unfold FairAlone at hf1
        unfold Fair
        cases hm : s.mode with
        | original => rw [hm] at hf1; exact hf1
        | changing =>
          have h1 := hg.1 (hc hm)
          rw [← hst, h0] at h1
          cases h1
        | redirect p => rw [hm] at hf1; exact hf1
      | _ => trivial
    · have hn := hf.2 t ht
      cases a with
      | run i =>
        obtain ⟨e1, e2⟩ := ideal_run_stopped R f i s t ht
        exact ih t st c (by rw [e1]; exact hst) (by rw [e2]; exact hc) hg.2 hn
      | attach i =>
        obtain rfl := Option.some.inj ht
        refine ih _ _ c ?_ hc hg.2 hn
        rw [← hst]
      | detach i =>
        obtain rfl := Option.some.inj ht
        refine ih _ _ c ?_ hc hg.2 hn
        rw [← hst]
      | store x b => obtain rfl := Option.some.inj ht; exact ih _ st c hst hc hg.2 hn
      | unmap x n => obtain rfl := Option.some.inj ht; exact ih _ st c hst hc hg.2 hn
      | mark m =>
        obtain rfl := Option.some.inj ht
        exact ih _ st _ hst (fun h => decide_eq_true h) hg.2 hn

/-- **C112.**  A process with one thread: that it is stopped while the bytes are exchanged leaves one
condition, that it comes to the 16 bytes of a patched function at the beginning only.

Missing: the program does not look where the thread was stopped, see `C112_inside`. -/
theorem C112_single_partial (R : Redirect I arch) (f : Addr) (cs : List Cmd) (q : Proc I)
    (sched : List Act) (t : Ideal I) (hone : ∀ i, .run i ∈ sched → i = 0)
    (htool : sched.filter Act.isTool = toolActs arch f (q.mem.read f 16) cs)
    (hfair : FairRunAlone R f ⟨q, .original⟩ sched)
    (ht : Ideal.acts R f ⟨q, .original⟩ sched = some t) :
    ∃ q', q.acts sched = some q' ∧ Same f q' t := by
  refine C112_threads_partial R f cs q sched t htool ?_ ht
  refine fair_alone R f sched hone _ (q.stopped 0) false rfl (fun h => ?_) ?_ hfair
  · cases h
  · exact guarded_filter _ _ _ (by rw [htool]; exact guarded_tool f _ cs _)

/-! ### A function that a thread is in -/

/-- A process with threads at `pcs`, whose whole memory is `nop`; no thread is stopped. -/
def nops (pcs : Nat → Addr) (mapped : Addr → Bool) : Proc X86.isa :=
  { mem := fun _ => 0x90
    mapped := mapped
    regs := fun i => (⟨pcs i, fun _ => 0x7000, 0⟩ : X86.Regs)
    stopped := fun _ => false }

/-- Where a thread is. -/
def pcOf (q : Option (Proc X86.isa)) (i : Nat) : Option Addr := q.map fun q => X86.isa.pc (q.regs i)

/-- **C112, finding.**  A process with one thread, which is inside the first 16 bytes of the
function when the patch is applied, at the ninth: it goes on in the middle of the address of the
replacement, here with a `ret` that is no instruction of the program, and leaves for wherever the top of
the stack points to.  It should have executed the next instruction of the function. -/
theorem C112_inside : ∃ (q : Proc X86.isa) (f p : Addr),
    (∀ i, q.regs i = q.regs 0) ∧
    (q.regs 0).rip = f + 8 ∧
    pcOf (q.acts (kickActs .x86_64 f p ++ [.run 0])) 0 = some 0x9090909090909090 ∧
    (Ideal.acts x86Redirect f ⟨q, .original⟩ (kickActs .x86_64 f p ++ [.run 0])).map
      (fun t => X86.isa.pc (t.proc.regs 0)) = some (f + 9) := by
  refine ⟨nops (fun _ => 0x1008) (fun _ => true), 0x1000, 0x20c3, fun _ => rfl, rfl, ?_, ?_⟩ <;>
    decide +kernel

/-- **C112, finding.**  A thread that nobody stopped comes to the function between two of the 16 stores:
it jumps to an address that is neither in the function nor the replacement. -/
theorem C112_torn : ∃ (q : Proc X86.isa) (f p : Addr) (before after : List Act),
    (q.regs 1).rip = f ∧ kickActs .x86_64 f p = before ++ after ∧
    pcOf (q.acts (before ++ [.run 1] ++ after)) 1 = some 0x9090909090909011 ∧
    p = 0x1111111111111111 := by
  refine ⟨nops (fun _ => 0x1000) (fun _ => true), 0x1000, 0x1111111111111111,
    (kickActs .x86_64 0x1000 0x1111111111111111).take 11,
    (kickActs .x86_64 0x1000 0x1111111111111111).drop 11, rfl, ?_, ?_, rfl⟩
  · rw [List.take_append_drop]
  · decide +kernel

theorem nops_step (r : X86.Regs) :
    X86.isa.step (fun _ => 0x90) r = some (({ r with rip := r.rip + 1 } : X86.Regs), []) := rfl

theorem nops_reads (r : X86.Regs) : X86.isa.reads (fun _ => 0x90) r = span r.rip 1 := by
  show span r.rip _ ++ [] = _
  rw [List.append_nil]
  rfl

theorem nops_clear (f : Addr) (p : Proc X86.isa) (i : Nat) (hm : p.mem = fun _ => 0x90) (r : X86.Regs)
    (hr : p.regs i = r) (ho : r.rip ∉ window f) : Clear (window f) i p := by
  constructor
  · intro a ha
    rw [hm, hr, nops_reads] at ha
    simp only [span, List.range_one, List.map_cons, List.map_nil, List.mem_singleton] at ha
    rw [ha, show r.rip + BitVec.ofNat 64 0 = r.rip by simp]
    exact ho
  · intro r' st h e he
    rw [hm, hr, nops_step] at h
    cases h
    cases he

/-- Two threads, one before the function and one far away that runs while the function at `0x1000` is
patched; then the first one comes to the function and goes on in the replacement. -/
def two : Proc X86.isa := nops (fun i => if i = 0 then 0x1000 else 0x5000) (fun _ => true)

def twoSched : List Act :=
  [.attach 0, .mark .changing] ++ (copyTo 0x1000 (jmpEntry .x86_64 0x2000)).take 9 ++ [.run 1, .run 0] ++
    (copyTo 0x1000 (jmpEntry .x86_64 0x2000)).drop 9 ++ [.mark (.redirect 0x2000), .detach 0, .run 0]

example : twoSched.filter Act.isTool = toolActs .x86_64 0x1000 (two.mem.read 0x1000 16) [.patch 0x2000] := by
  decide +kernel

theorem fair_stores (R : Redirect I arch) (f : Addr) (sts : List (Addr × Byte)) (s : Ideal I) (l : List Act)
    (h : FairRun R f s l) : FairRun R f s (sts.map (fun e => Act.store e.1 e.2) ++ l) := by
  induction sts with
  | nil => exact h
  | cons e sts ih =>
    refine ⟨trivial, fun t ht => ?_⟩
    obtain rfl := Option.some.inj ht
    exact ih

example : FairRun x86Redirect 0x1000 ⟨two, .original⟩ twoSched := by
  unfold twoSched copyTo
  rw [← List.map_take, ← List.map_drop]
  simp only [List.append_assoc, List.cons_append, List.nil_append]
  refine ⟨trivial, fun t ht => ?_⟩
  obtain rfl := Option.some.inj ht
  refine ⟨trivial, fun t ht => ?_⟩
  obtain rfl := Option.some.inj ht
  refine fair_stores _ _ _ _ _ ⟨fun _ => nops_clear _ _ 1 rfl _ rfl (by decide), fun t ht => ?_⟩
  rw [Ideal.act] at ht
  have hst := ideal_run_stopped _ _ _ _ _ ht
  refine ⟨fun h => ?_, fun t' ht' => ?_⟩
  · rw [hst.1] at h; cases h
  rw [Ideal.act] at ht'
  have hst' := ideal_run_stopped _ _ _ _ _ ht'
  have hr : t'.proc.regs 0 = two.regs 0 := by
    have e1 : t' = t := by
      replace ht' : t.run x86Redirect 0x1000 0 = some t' := ht'
      unfold Ideal.run at ht'
      dsimp only at ht'
      rw [if_pos (by rw [hst.1]; rfl)] at ht'
      exact (Option.some.inj ht').symm
    rw [e1]
    exact ideal_run_regs _ _ 1 0 (by decide) _ _ ht
  refine fair_stores _ _ _ _ _ ⟨trivial, fun t ht => ?_⟩
  obtain rfl := Option.some.inj ht
  refine ⟨trivial, fun t ht => ?_⟩
  obtain rfl := Option.some.inj ht
  refine ⟨fun _ => Or.inl ?_, fun _ _ => trivial⟩
  show (x86Redirect.go _ _ (t'.proc.regs 0)).isSome = true
  rw [hr]
  rfl

example : pcOf (two.acts twoSched) 0 = some 0x2000 := by decide +kernel

/-! ### Threads in a patch that is taken out -/

theorem acts_frame (l : List Act) (i : Nat) (hl : .run i ∉ l) : ∀ q r : Proc I, q.acts l = some r →
    r.regs i = q.regs i ∧ (∀ x, q.mapped x = false → r.mapped x = false) ∧
      ∀ start len, .unmap start len ∈ l → ∀ x, (x - start).toNat < len → r.mapped x = false := by
  induction l with
  | nil => intro q r h; obtain rfl := Option.some.inj h; exact ⟨rfl, fun _ h => h, by simp⟩
  | cons a l ih =>
    intro q r h
    rw [Proc.acts] at h
    cases ha : q.act a with
    | none => rw [ha] at h; cases h
    | some t =>
      rw [ha] at h
      have h1 := act_frame a i (fun e => hl (by rw [e]; exact List.mem_cons_self)) q t ha
      obtain ⟨h2, h3, h4⟩ := ih (fun e => hl (List.mem_cons_of_mem _ e)) t r h
      refine ⟨h2.trans h1.1, fun x hx => h3 x (h1.2 x hx), fun start len hm x hx => ?_⟩
      rcases List.mem_cons.1 hm with e | hm
      · refine h3 x ?_
        rw [← e] at ha
        obtain rfl := Option.some.inj ha
        show (q.mapped x && !decide _) = false
        rw [decide_eq_true hx, Bool.not_true, Bool.and_false]
      · exact h4 start len hm x hx

/-- **C113, finding.**  On every processor and for every process: if a thread is in the image of the
patch when the patch is taken out, then whatever the other threads do in the meantime, its next
instruction kills the process. -/
theorem C113_dies (f start : Addr) (len : Nat) (orig : List Byte) (q r : Proc I) (i : Nat)
    (sched : List Act) (htool : sched.filter Act.isTool = deleteActs f orig start len)
    (hi : .run i ∉ sched) (hpc : (I.pc (q.regs i) - start).toNat < len)
    (h : q.acts sched = some r) (hs : r.stopped i = false) : r.acts [.run i] = none := by
  have hu : Act.unmap start len ∈ sched := by
    refine ((List.mem_filter (p := Act.isTool)).1 ?_).1
    rw [htool, deleteActs]
    simp
  obtain ⟨h1, -, h2⟩ := acts_frame sched i hi q r h
  have h3 : r.run i = none := by
    unfold Proc.run
    rw [hs, if_neg (by simp), if_pos]
    rw [List.all_eq_false]
    refine ⟨I.pc (r.regs i), I.fetches _ _, ?_⟩
    rw [h1, h2 start len hu _ hpc]
    simp
  show (match r.run i with | none => none | some q => q.acts []) = none
  rw [h3]

/-- Such a thread: it called a function from the replacement, at `0x2000`, while the patch at
`0x2000`–`0x2fff` is taken out; the instruction after the call is the last one. -/
example : ∃ r, (nops (fun _ => 0x2005) (fun _ => true)).acts (deleteActs 0x1000 (List.replicate 16 0x90) 0x2000 0x1000) = some r ∧
    r.acts [.run 0] = none := by
  refine ⟨_, rfl, ?_⟩
  decide +kernel

/-- The instruction of thread `i` touches nothing in the image. -/
def Outside (start : Addr) (len : Nat) (i : Nat) (p : Proc I) : Prop :=
  (∀ a ∈ I.reads p.mem (p.regs i), len ≤ (a - start).toNat) ∧
  ∀ r st, I.step p.mem (p.regs i) = some (r, st) → ∀ e ∈ st, len ≤ (e.1 - start).toNat

/-- No thread that runs touches anything in the image. -/
def OutsideRun (start : Addr) (len : Nat) : Proc I → List Act → Prop
  | _, [] => True
  | p, a :: l =>
    (match a with | .run i => p.stopped i = false → Outside start len i p | _ => True) ∧
    ∀ q, p.act a = some q → OutsideRun start len q l

theorem all_congr {α : Type} {l : List α} {f g : α → Bool} (h : ∀ x ∈ l, f x = g x) : l.all f = l.all g := by
  induction l with
  | nil => rfl
  | cons a l ih =>
    rw [List.all_cons, List.all_cons, h a List.mem_cons_self,
      ih fun x hx => h x (List.mem_cons_of_mem _ hx)]

theorem gone_acts (start : Addr) (len : Nat) (l : List Act) : ∀ p q p' : Proc I,
    q.mem = p.mem → q.regs = p.regs → q.stopped = p.stopped →
    (∀ a, len ≤ (a - start).toNat → q.mapped a = p.mapped a) → OutsideRun start len p l →
    p.acts l = some p' → ∃ q', q.acts l = some q' ∧ q'.mem = p'.mem ∧ q'.regs = p'.regs ∧
      q'.stopped = p'.stopped := by
  induction l with
  | nil =>
    intro p q p' h1 h2 h3 h4 _ h
    obtain rfl := Option.some.inj h
    exact ⟨q, rfl, h1, h2, h3⟩
  | cons a l ih =>
    intro p q p' h1 h2 h3 h4 ho h
    rw [Proc.acts] at h
    cases ha : p.act a with
    | none => rw [ha] at h; cases h
    | some t =>
      rw [ha] at h
      have hn := ho.2 t ha
      suffices hq : ∃ u, q.act a = some u ∧ u.mem = t.mem ∧ u.regs = t.regs ∧ u.stopped = t.stopped ∧
          ∀ a, len ≤ (a - start).toNat → u.mapped a = t.mapped a by
        obtain ⟨u, hu, e1, e2, e3, e4⟩ := hq
        obtain ⟨q', hq', e⟩ := ih t u p' e1 e2 e3 e4 hn h
        exact ⟨q', by rw [Proc.acts, hu]; exact hq', e⟩
      cases a with
      | attach j =>
        obtain rfl := Option.some.inj ha
        exact ⟨_, rfl, h1, h2, by show (fun _ => _) = _; rw [h3], h4⟩
      | detach j =>
        obtain rfl := Option.some.inj ha
        exact ⟨_, rfl, h1, h2, by show (fun _ => _) = _; rw [h3], h4⟩
      | store x b =>
        obtain rfl := Option.some.inj ha
        exact ⟨_, rfl, by show poke _ _ _ = _; rw [h1], h2, h3, h4⟩
      | mark m => obtain rfl := Option.some.inj ha; exact ⟨_, rfl, h1, h2, h3, h4⟩
      | unmap x n =>
        obtain rfl := Option.some.inj ha
        exact ⟨_, rfl, h1, h2, h3, fun a ha => by show (q.mapped a && _) = _; rw [h4 a ha]⟩
      | run i =>
        have hi : p.stopped i = false → Outside start len i p := ho.1
        replace ha : p.run i = some t := ha
        show ∃ u, q.run i = some u ∧ _
        unfold Proc.run at ha ⊢
        rw [h1, h2, h3]
        by_cases hs : p.stopped i = true
        · rw [if_pos hs] at ha ⊢
          obtain rfl := Option.some.inj ha
          exact ⟨_, rfl, h1, h2, h3, h4⟩
        rw [if_neg hs] at ha ⊢
        have hi := hi (Bool.eq_false_iff.2 hs)
        rw [all_congr fun x hx => h4 x (hi.1 x hx)]
        by_cases hm : (I.reads p.mem (p.regs i)).all p.mapped = false
        · rw [if_pos hm] at ha; cases ha
        rw [if_neg hm] at ha ⊢
        cases he : I.step p.mem (p.regs i) with
        | none => rw [he] at ha; cases ha
        | some e =>
          rw [he] at ha
          dsimp only at ha ⊢
          rw [all_congr (f := fun s => q.mapped s.1) (g := fun s => p.mapped s.1)
            fun x hx => h4 x.1 (hi.2 e.1 e.2 he x hx)]
          by_cases hd : e.2.all (fun s => p.mapped s.1) = false
          · rw [if_pos hd] at ha; cases ha
          rw [if_neg hd] at ha ⊢
          obtain rfl := Option.some.inj ha
          exact ⟨_, rfl, rfl, rfl, rfl, h4⟩

/-- **C113.**  The threads of a process from which the image of a patch has been removed: if none of
their instructions, of any number and in any order, touches the image, then all of them do what they
would do with the image in place.

Missing: nothing in the program waits until no thread needs the image any more, see `C113_dies`. -/
theorem C113_unmap_partial (start : Addr) (len : Nat) (q r : Proc I) (l : List Act)
    (ho : OutsideRun start len q l) (h : q.acts l = some r) :
    ∃ r', q.acts (.unmap start len :: l) = some r' ∧ r'.mem = r.mem ∧ r'.regs = r.regs ∧
      r'.stopped = r.stopped := by
  refine gone_acts start len l q _ r rfl rfl rfl (fun a ha => ?_) ho h
  show (q.mapped a && !decide _) = _
  rw [decide_eq_false (by omega), Bool.not_false, Bool.and_true]

theorem nops_outside (p : Proc X86.isa) (i : Nat) (hm : p.mem = fun _ => 0x90) (r : X86.Regs)
    (hr : p.regs i = r) (ho : 0x1000 ≤ (r.rip - 0x2000).toNat) : Outside 0x2000 0x1000 i p := by
  constructor
  · intro a ha
    rw [hm, hr, nops_reads] at ha
    simp only [span, List.range_one, List.map_cons, List.map_nil, List.mem_singleton] at ha
    rw [ha, show r.rip + BitVec.ofNat 64 0 = r.rip by simp]
    exact ho
  · intro r' st h e he
    rw [hm, hr, nops_step] at h
    cases h
    cases he

/-- Two threads that are in the program and stay there. -/
example : OutsideRun (I := X86.isa) 0x2000 0x1000 (nops (fun _ => 0x1000) (fun _ => true))
    [.run 0, .run 1] := by
  refine ⟨fun _ => nops_outside _ 0 rfl _ rfl (by decide), fun q hq => ⟨fun _ => ?_, fun _ _ => trivial⟩⟩
  have h := act_frame (I := X86.isa) (.run 0) 1 (by decide) _ _ hq
  have hmem : q.mem = fun _ => 0x90 := by
    replace hq : Proc.run 0 (nops (fun _ => 0x1000) (fun _ => true)) = some q := hq
    unfold Proc.run at hq
    rw [if_neg (by decide), if_neg (by decide +kernel),
      show X86.isa.step (nops (fun _ => 0x1000) (fun _ => true)).mem
        ((nops (fun _ => 0x1000) (fun _ => true)).regs 0) = _ from nops_step _] at hq
    cases hq
    rfl
  exact nops_outside q 1 hmem _ h.1 (by decide)

end Ulp.Threads
