/-
C138: threads that run during whole histories of commands of ulpatch.
-/
import Verif.Proof.ThreadsHist
import Verif.Props.ThreadsFindings
namespace Ulp.ThreadsHist
open Threads (Proc Mode poke window Redirect Clear Keeps read_congr x86Redirect a64Redirect)

variable {I : Isa} {arch : Arch}

theorem start_inv (F : List Addr) (q : Proc I) : Inv arch F q.mem q.mem q ⟨q, fun _ => .original⟩ :=
  ⟨⟨rfl, rfl, rfl, fun _ _ => rfl⟩, fun _ _ => rfl, fun _ _ => rfl, fun _ _ _ _ => rfl⟩

theorem hist_inv (R : Redirect I arch) (F : List Addr) (hF : Apart F) (cs : List Cmd) (hfit : ∀ c ∈ cs, c.Fits F)
    (q : Proc I) (sched : List Act) (t : Ideal I)
    (htool : sched.filter Act.isTool = toolActs arch q.mem [] cs)
    (hfair : FairRun R F ⟨q, fun _ => .original⟩ sched)
    (ht : Ideal.acts R F ⟨q, fun _ => .original⟩ sched = some t) :
    ∃ q' w', acts q sched = some q' ∧ Inv arch F q.mem w' q' t :=
  inv_acts R F q.mem sched q.mem q ⟨q, fun _ => .original⟩ t (start_inv F q)
    ((honest_filter F q.mem sched q.mem _).2 (by
      rw [htool]
      exact honest_tool hF q.mem cs [] q.mem _ hfit trivial (fun _ _ => rfl) fun _ _ => rfl)) hfair ht

/-- **C138.**  A process with any number of threads, whose functions `F` are patched and unpatched by any number
of commands, with any number of patches on top of each other and with their files loaded and removed.  For every
schedule of the actions of ulpatch and of the threads: the process does not fail, and all threads and all memory but
for the exchanged bytes are what they are when the process has all its own code, and threads that come to a
function go on in the replacement of the newest patch for it.

Missing: threads that are at the bytes while they are exchanged, or in the middle of them
(`FairRun`), see `C112_inside` and `C112_torn`. -/
theorem C138_threads_partial (R : Redirect I arch) (F : List Addr) (hF : Apart F) (cs : List Cmd)
    (hfit : ∀ c ∈ cs, c.Fits F) (q : Proc I) (sched : List Act) (t : Ideal I)
    (htool : sched.filter Act.isTool = toolActs arch q.mem [] cs)
    (hfair : FairRun R F ⟨q, fun _ => .original⟩ sched)
    (ht : Ideal.acts R F ⟨q, fun _ => .original⟩ sched = some t) :
    ∃ q', acts q sched = some q' ∧ Same F q' t := by
  obtain ⟨q', w', h1, h2⟩ := hist_inv R F hF cs hfit q sched t htool hfair ht
  exact ⟨q', h1, h2.same⟩

/-! ### After the commands -/

/-- What the functions do after some actions. -/
def marked (md : Addr → Mode) : List Act → Addr → Mode
  | [] => md
  | .mark f m :: l => marked (fun g => if g = f then m else md g) l
  | _ :: l => marked md l

theorem marked_append (l l' : List Act) : ∀ md, marked md (l ++ l') = marked (marked md l) l' := by
  induction l with
  | nil => intro md; rfl
  | cons a l ih => intro md; cases a <;> exact ih _

theorem marked_copy (a : Addr) (bs : List Byte) (md : Addr → Mode) : marked md (copyTo a bs) = md := by
  unfold copyTo
  induction storesAt a bs with
  | nil => rfl
  | cons e l ih => exact ih

theorem marked_filter (l : List Act) : ∀ md, marked md (l.filter Act.isTool) = marked md l := by
  induction l with
  | nil => intro md; rfl
  | cons a l ih => intro md; cases a <;> exact ih _

theorem modes_after (R : Redirect I arch) (F : List Addr) (l : List Act) : ∀ s t : Ideal I, s.acts R F l = some t →
    t.modes = marked s.modes l := by
  induction l with
  | nil => intro s t h; obtain rfl := Option.some.inj h; rfl
  | cons a l ih =>
    intro s t h
    rw [Ideal.acts] at h
    cases hs : s.act R F a with
    | none => rw [hs] at h; cases h
    | some s' =>
      rw [hs] at h
      rw [ih s' t h]
      have keep : ∀ (p : Option (Proc I)), (p.map fun q => ({ s with proc := q } : Ideal I)) = some s' → s'.modes = s.modes := by
        intro p hp
        cases p with
        | none => cases hp
        | some p => obtain rfl := Option.some.inj hp; rfl
      cases a with
      | run i =>
        have : s'.modes = s.modes := by
          replace hs : s.run R F i = some s' := hs
          unfold Ideal.run at hs
          by_cases h1 : s.proc.stopped i = true
          · rw [if_pos h1] at hs; obtain rfl := Option.some.inj hs; rfl
          rw [if_neg h1] at hs
          cases htk : taken R F s (s.proc.regs i) with
          | none => rw [htk] at hs; exact keep _ hs
          | some x =>
            rw [htk] at hs
            dsimp only at hs
            by_cases h2 : (window x.1).all s.proc.mapped = false
            · rw [if_pos h2] at hs; cases hs
            · rw [if_neg h2] at hs; obtain rfl := Option.some.inj hs; rfl
        rw [this]; rfl
      | mark f m => obtain rfl := Option.some.inj hs; rfl
      | store x b =>
        have : s'.modes = s.modes := by
          unfold Ideal.act at hs
          dsimp only at hs
          by_cases h1 : InWindow F x
          · rw [if_pos h1] at hs; obtain rfl := Option.some.inj hs; rfl
          · rw [if_neg h1] at hs; obtain rfl := Option.some.inj hs; rfl
        rw [this]; rfl
      | look x b =>
        have : s'.modes = s.modes := by
          unfold Ideal.act at hs
          dsimp only at hs
          by_cases h1 : x ∈ F
          · rw [if_pos h1] at hs; obtain rfl := Option.some.inj hs; rfl
          · rw [if_neg h1] at hs
            by_cases h2 : s.proc.mem.read x b.length = b
            · rw [if_pos h2] at hs; obtain rfl := Option.some.inj hs; rfl
            · rw [if_neg h2] at hs; cases hs
        rw [this]; rfl
      | attach i => rw [keep (ThreadsHist.act s.proc (.attach i)) hs]; rfl
      | detach i => rw [keep (ThreadsHist.act s.proc (.detach i)) hs]; rfl
      | map x n => rw [keep (ThreadsHist.act s.proc (.map x n)) hs]; rfl
      | unmap x n => rw [keep (ThreadsHist.act s.proc (.unmap x n)) hs]; rfl

theorem marked_tool (o : Mem) (cs : List Cmd) : ∀ (st : List Live) (md : Addr → Mode), (∀ g, md g = modeOf g st) →
    ∀ g, marked md (toolActs arch o st cs) g = modeOf g (liveAfter arch o st cs) := by
  induction cs with
  | nil => intro st md h g; cases st <;> exact h g
  | cons c cs ih =>
    intro st md h g
    cases c with
    | patch f p start img len keep =>
      rw [toolActs, marked_append, liveAfter]
      refine ih _ _ (fun x => ?_) g
      rw [patchActs]
      simp only [marked_append, marked_copy]
      show (if x = f then _ else if x = f then _ else md x) = modeOf x (_ :: st)
      unfold modeOf
      by_cases hx : x = f
      · rw [if_pos hx, if_pos hx.symm]
      · rw [if_neg hx, if_neg hx, if_neg fun e => hx e.symm]
        exact h x
    | unpatch =>
      cases st with
      | nil => exact ih [] md h g
      | cons v st =>
        rw [toolActs, marked_append, liveAfter]
        refine ih _ _ (fun x => ?_) g
        rw [unpatchActs]
        simp only [marked_append, marked_copy]
        show (if x = v.f then _ else if x = v.f then _ else md x) = modeOf x st
        by_cases hx : x = v.f
        · rw [if_pos hx, hx]
        · rw [if_neg hx, if_neg hx, h x, modeOf, if_neg fun e => hx e.symm]

/-- **C138.**  What is at the functions after the commands, whatever the threads did: a function that has a patch
left jumps to the replacement of the newest one, and a function that has none has all its code. -/
theorem C138_functions_partial (R : Redirect I arch) (F : List Addr) (hF : Apart F) (cs : List Cmd)
    (hfit : ∀ c ∈ cs, c.Fits F) (q : Proc I) (sched : List Act) (t : Ideal I)
    (htool : sched.filter Act.isTool = toolActs arch q.mem [] cs)
    (hfair : FairRun R F ⟨q, fun _ => .original⟩ sched)
    (ht : Ideal.acts R F ⟨q, fun _ => .original⟩ sched = some t) :
    ∃ q', acts q sched = some q' ∧ ∀ f ∈ F,
      match (liveAfter arch q.mem [] cs).find? (fun v => v.f = f) with
      | some v => q'.mem.read f 16 = jmpEntry arch v.p
      | none => q'.mem.read f 16 = q.mem.read f 16 := by
  obtain ⟨q', w', h1, h2⟩ := hist_inv R F hF cs hfit q sched t htool hfair ht
  refine ⟨q', h1, fun f hf => ?_⟩
  have hm := h2.mode f hf
  have hmd : t.modes f = modeOf f (liveAfter arch q.mem [] cs) := by
    rw [modes_after R F sched _ t ht, ← marked_filter, htool]
    exact marked_tool q.mem cs [] _ (fun _ => rfl) f
  rw [hmd] at hm
  have hq : q'.mem.read f 16 = w'.read f 16 := read_congr 16 fun a ha => h2.win a ⟨f, hf, ha⟩
  have hmode : ∀ st, modeOf f st = match st.find? (fun v => v.f = f) with
      | some v => .redirect v.p
      | none => .original := by
    intro st
    induction st with
    | nil => rfl
    | cons v st ih =>
      unfold modeOf
      by_cases hv : v.f = f
      · rw [if_pos hv, List.find?_cons_of_pos (by simpa using hv)]
      · rw [if_neg hv, List.find?_cons_of_neg (by simpa using hv), ih]
  rw [hmode] at hm
  cases hfd : (liveAfter arch q.mem [] cs).find? (fun v => v.f = f) with
  | none => rw [hfd] at hm; exact hq.trans (read_congr 16 hm)
  | some v => rw [hfd] at hm; exact hq.trans hm

/-- **C138.**  When every patch has been taken out, the process is in every respect what it is without ulpatch's
having exchanged anything: threads, mappings and all the memory. -/
theorem C138_all_out_partial (R : Redirect I arch) (F : List Addr) (hF : Apart F) (cs : List Cmd)
    (hfit : ∀ c ∈ cs, c.Fits F) (q : Proc I) (sched : List Act) (t : Ideal I)
    (hout : liveAfter arch q.mem [] cs = [])
    (htool : sched.filter Act.isTool = toolActs arch q.mem [] cs)
    (hfair : FairRun R F ⟨q, fun _ => .original⟩ sched)
    (ht : Ideal.acts R F ⟨q, fun _ => .original⟩ sched = some t) :
    acts q sched = some t.proc := by
  obtain ⟨q', w', h1, h2⟩ := hist_inv R F hF cs hfit q sched t htool hfair ht
  obtain ⟨hr, hs, hm, ho⟩ := h2.same
  rw [h1]
  have hmem : q'.mem = t.proc.mem := by
    funext a
    by_cases ha : InWindow F a
    · obtain ⟨f, hf, haf⟩ := ha
      have hmo := h2.mode f hf
      have hmd : t.modes f = .original := by
        rw [modes_after R F sched _ t ht, ← marked_filter, htool]
        refine (marked_tool q.mem cs [] _ (fun _ => rfl) f).trans ?_
        rw [hout]
        rfl
      rw [hmd] at hmo
      rw [h2.win a ⟨f, hf, haf⟩, h2.code a ⟨f, hf, haf⟩]
      exact hmo a haf
    · exact ho a ha
  obtain ⟨⟨m, mp, rg, sp⟩, md⟩ := t
  obtain ⟨m', mp', rg', sp'⟩ := q'
  dsimp only at hr hs hm hmem
  rw [hr, hs, hm, hmem]

/-! ### ulpatch is killed -/

theorem honest_prefix (F : List Addr) (o : Mem) (l l' : List Act) : ∀ (w : Mem) (md : Addr → Mode),
    Honest arch F o w md (l ++ l') → Honest arch F o w md l := by
  induction l with
  | nil => intro w md _; trivial
  | cons a l ih =>
    intro w md h
    cases a with
    | mark f m => exact ⟨h.1, ih _ _ h.2⟩
    | store x b => exact ⟨h.1, ih _ _ h.2⟩
    | look x b => exact ⟨h.1, ih _ _ h.2⟩
    | _ => exact ih _ _ h

theorem honest_detach (F : List Addr) (o : Mem) (l : List Act) (i : Nat) : ∀ (w : Mem) (md : Addr → Mode),
    Honest arch F o w md l → Honest arch F o w md (l ++ [.detach i]) := by
  induction l with
  | nil => intro w md _; trivial
  | cons a l ih =>
    intro w md h
    cases a with
    | mark f m => exact ⟨h.1, ih _ _ h.2⟩
    | store x b => exact ⟨h.1, ih _ _ h.2⟩
    | look x b => exact ⟨h.1, ih _ _ h.2⟩
    | _ => exact ih _ _ h

/-- **C138.**  As `C138_threads_partial`, when ulpatch is killed in the middle of a history, at any action. -/
theorem C138_killed_partial (R : Redirect I arch) (F : List Addr) (hF : Apart F) (cs : List Cmd)
    (hfit : ∀ c ∈ cs, c.Fits F) (q : Proc I) (sched done rest : List Act) (t : Ideal I)
    (hcut : toolActs arch q.mem [] cs = done ++ rest)
    (htool : sched.filter Act.isTool = done ++ [.detach 0])
    (hfair : FairRun R F ⟨q, fun _ => .original⟩ sched)
    (ht : Ideal.acts R F ⟨q, fun _ => .original⟩ sched = some t) :
    ∃ q', acts q sched = some q' ∧ Same F q' t := by
  obtain ⟨q', w', h1, h2⟩ := inv_acts R F q.mem sched q.mem q ⟨q, fun _ => .original⟩ t (start_inv F q)
    ((honest_filter F q.mem sched q.mem _).2 (by
      rw [htool]
      refine honest_detach F q.mem done 0 _ _ (honest_prefix F q.mem done rest _ _ ?_)
      rw [← hcut]
      exact honest_tool hF q.mem cs [] q.mem _ hfit trivial (fun _ _ => rfl) fun _ _ => rfl)) hfair ht
  exact ⟨q', h1, h2.same⟩

/-! ### An example -/

/-- `FairRun`, and that no action fails, as a program. -/
def keepsB (W : List Addr) (i : Nat) (p : Proc I) : Bool :=
  match I.step p.mem (p.regs i) with
  | none => true
  | some (_, st) => st.all fun e => !W.contains e.1

def clearB (W : List Addr) (i : Nat) (p : Proc I) : Bool :=
  (I.reads p.mem (p.regs i)).all (fun a => !W.contains a) && keepsB W i p

def fairB (R : Redirect I arch) (F : List Addr) (s : Ideal I) (i : Nat) : Bool :=
  F.all fun f => match s.modes f with
    | .original => keepsB (window f) i s.proc
    | .changing => clearB (window f) i s.proc
    | .redirect p => (R.go f p (s.proc.regs i)).isSome || clearB (window f) i s.proc

def fairRunB (R : Redirect I arch) (F : List Addr) : Ideal I → List Act → Bool
  | _, [] => true
  | s, a :: l =>
    (match a with | .run i => s.proc.stopped i || fairB R F s i | _ => true) &&
    match s.act R F a with | none => false | some t => fairRunB R F t l

theorem keepsB_sound {W : List Addr} {i : Nat} {p : Proc I} (h : keepsB W i p = true) : Keeps W i p := by
  intro r st hs e he hin
  unfold keepsB at h
  rw [hs] at h
  have := List.all_eq_true.1 h e he
  rw [Bool.not_eq_true', List.contains_eq_mem, decide_eq_false_iff_not] at this
  exact this hin

theorem clearB_sound {W : List Addr} {i : Nat} {p : Proc I} (h : clearB W i p = true) : Clear W i p := by
  unfold clearB at h
  rw [Bool.and_eq_true] at h
  refine ⟨fun a ha hin => ?_, keepsB_sound h.2⟩
  have := List.all_eq_true.1 h.1 a ha
  rw [Bool.not_eq_true', List.contains_eq_mem, decide_eq_false_iff_not] at this
  exact this hin

theorem fairB_sound {R : Redirect I arch} {F : List Addr} {s : Ideal I} {i : Nat} (h : fairB R F s i = true) : Fair R F s i := by
  intro f hf
  have h := List.all_eq_true.1 h f hf
  cases hm : s.modes f with
  | original => rw [hm] at h; exact keepsB_sound h
  | changing => rw [hm] at h; exact clearB_sound h
  | redirect p =>
    rw [hm] at h
    rcases Bool.or_eq_true .. |>.mp h with h | h
    · exact Or.inl h
    · exact Or.inr (clearB_sound h)

theorem fairRunB_sound {R : Redirect I arch} {F : List Addr} (l : List Act) : ∀ s : Ideal I,
    fairRunB R F s l = true → FairRun R F s l ∧ ∃ t, s.acts R F l = some t := by
  induction l with
  | nil => intro s _; exact ⟨trivial, s, rfl⟩
  | cons a l ih =>
    intro s h
    unfold fairRunB at h
    rw [Bool.and_eq_true] at h
    obtain ⟨h1, h2⟩ := h
    cases hs : s.act R F a with
    | none => rw [hs] at h2; cases h2
    | some t =>
      rw [hs] at h2
      obtain ⟨h3, h4⟩ := ih t h2
      rw [Ideal.acts, hs]
      refine ⟨⟨?_, fun t' ht => ?_⟩, h4⟩
      · cases a with
        | run i =>
          intro hs
          dsimp only at h1
          rw [hs, Bool.false_or] at h1
          exact fairB_sound h1
        | _ => trivial
      · rw [hs] at ht
        obtain rfl := Option.some.inj ht
        exact h3

/-- The functions at `0x1000` and `0x3000` are patched, the first one twice, and everything is taken out again. -/
def hCmds : List Cmd :=
  [.patch 0x1000 0x20040 0x20000 [0x90] 0x1000 0x20000,
   .patch 0x3000 0x30040 0x30000 [0x90] 0x1000 0x30000,
   .patch 0x1000 0x40040 0x40000 (jmpEntry .x86_64 0x20040) 0x1000 0x40000,
   .unpatch, .unpatch, .unpatch]

/-- Three threads: before the first function, before the second, and elsewhere. -/
def hProc : Proc X86.isa :=
  Threads.nops (fun i => if i = 0 then 0x1000 else if i = 1 then 0x3000 else 0x5000) fun _ => true

/-- The threads run while ulpatch works: elsewhere at any time, and to the functions when they are patched. -/
def hSched : List Act :=
  (toolActs .x86_64 hProc.mem [] hCmds).take 15 ++ [.run 2] ++
    ((toolActs .x86_64 hProc.mem [] hCmds).drop 15).take 75 ++ [.run 0, .run 1] ++
    (toolActs .x86_64 hProc.mem [] hCmds).drop 90 ++ [.run 2]

theorem clear_of {F : List Addr} {a : Addr} {n : Nat} (h : ((List.range n).all fun i => decide ¬ InWindow F (a + BitVec.ofNat 64 i)) = true) :
    ∀ x ∈ span a n, ¬ InWindow F x := by
  intro x hx
  obtain ⟨i, hi, rfl⟩ := List.mem_map.1 hx
  exact of_decide_eq_true (List.all_eq_true.1 h i hi)

theorem apart_of {F : List Addr} (h : (F.all fun f => F.all fun g => f == g || (decide (16 ≤ (f - g).toNat) && decide (16 ≤ (g - f).toNat))) = true) :
    Apart F := by
  intro f hf g hg hne a ha hb
  have := List.all_eq_true.1 (List.all_eq_true.1 h f hf) g hg
  rw [Bool.or_eq_true, beq_iff_eq, Bool.and_eq_true, decide_eq_true_eq, decide_eq_true_eq] at this
  rw [mem_window_iff] at ha hb
  rcases this with h | h
  · exact hne h
  · bv_omega

example : Apart [0x1000, 0x3000] := apart_of (by decide +kernel)
example : ∀ c ∈ hCmds, c.Fits [0x1000, 0x3000] := by
  intro c hc
  unfold hCmds at hc
  rcases List.mem_cons.1 hc with rfl | hc
  · exact ⟨by decide, clear_of (by decide +kernel), clear_of (by decide +kernel)⟩
  rcases List.mem_cons.1 hc with rfl | hc
  · exact ⟨by decide, clear_of (by decide +kernel), clear_of (by decide +kernel)⟩
  rcases List.mem_cons.1 hc with rfl | hc
  · exact ⟨by decide, clear_of (by decide +kernel), clear_of (by decide +kernel)⟩
  rcases List.mem_cons.1 hc with rfl | hc
  · trivial
  rcases List.mem_cons.1 hc with rfl | hc
  · trivial
  rcases List.mem_cons.1 hc with rfl | hc
  · trivial
  cases hc
example : hSched.filter Act.isTool = toolActs .x86_64 hProc.mem [] hCmds := by decide +kernel
example : liveAfter .x86_64 hProc.mem [] hCmds = [] := rfl
example : FairRun x86Redirect [0x1000, 0x3000] ⟨hProc, fun _ => .original⟩ hSched ∧
    ∃ t, Ideal.acts x86Redirect [0x1000, 0x3000] ⟨hProc, fun _ => .original⟩ hSched = some t :=
  fairRunB_sound _ _ (by decide +kernel)
example : Threads.pcOf (acts hProc hSched) 0 = some 0x40040 ∧ Threads.pcOf (acts hProc hSched) 1 = some 0x30040 := by
  decide +kernel

end Ulp.ThreadsHist
