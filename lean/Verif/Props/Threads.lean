/-
C112, C113: the threads of a process while it is patched and unpatched.
-/
import Verif.Spec.Threads
import Verif.Proof.JmpTable
import Verif.Props.JmpTable
namespace Ulp.Threads

variable {I : Isa} {arch : Arch}

/-! ### One instruction -/

theorem pokes_out (st : List (Addr × Byte)) (m : Mem) (a : Addr) (h : ∀ e ∈ st, e.1 ≠ a) :
    st.foldl (fun m s => poke m s.1 s.2) m a = m a := by
  induction st generalizing m with
  | nil => rfl
  | cons e l ih =>
    rw [List.foldl_cons, ih _ fun x hx => h x (List.mem_cons_of_mem _ hx), poke,
      if_neg fun he => h e List.mem_cons_self he.symm]

theorem pokes_congr (st : List (Addr × Byte)) (m m' : Mem) (a : Addr) (h : m a = m' a) :
    st.foldl (fun m s => poke m s.1 s.2) m a = st.foldl (fun m s => poke m s.1 s.2) m' a := by
  induction st generalizing m m' with
  | nil => exact h
  | cons e l ih =>
    rw [List.foldl_cons, List.foldl_cons]
    refine ih _ _ ?_
    unfold poke
    by_cases ha : a = e.1
    · rw [if_pos ha, if_pos ha]
    · rw [if_neg ha, if_neg ha]; exact h

/-- Two processes with the same threads and mappings, and memories that are the same where the
instruction looks: both do the same. -/
theorem run_frame (W : List Addr) (i : Nat) (p q p' : Proc I) (hr : q.regs i = p.regs i)
    (hs : q.stopped = p.stopped) (hm : q.mapped = p.mapped)
    (ho : ∀ a, a ∉ W → q.mem a = p.mem a)
    (hl : p.stopped i = false → ∀ a ∈ I.reads p.mem (p.regs i), q.mem a = p.mem a)
    (hk : p.stopped i = false → Keeps W i p) (h : p.run i = some p') :
    ∃ q', q.run i = some q' ∧ (∀ j, q.regs j = p.regs j → q'.regs j = p'.regs j) ∧ q'.stopped = p'.stopped ∧
      q'.mapped = p'.mapped ∧ (∀ a, a ∉ W → q'.mem a = p'.mem a) ∧
      ∀ a ∈ W, q'.mem a = q.mem a ∧ p'.mem a = p.mem a := by
  unfold Proc.run at h ⊢
  rw [hr, hs, hm]
  cases hst : p.stopped i with
  | true =>
    rw [hst, if_pos rfl] at h
    obtain rfl := Option.some.inj h
    exact ⟨q, by rw [if_pos rfl], fun _ h => h, hs, hm, ho, fun a _ => ⟨rfl, rfl⟩⟩
  | false =>
    rw [hst, if_neg Bool.false_ne_true] at h
    rw [if_neg Bool.false_ne_true, I.dependsReads _ _ _ (hl hst), I.depends _ _ _ (hl hst)]
    by_cases hc : (I.reads p.mem (p.regs i)).all p.mapped = false
    · rw [if_pos hc] at h; cases h
    rw [if_neg hc] at h ⊢
    cases he : I.step p.mem (p.regs i) with
    | none => rw [he] at h; cases h
    | some e =>
      rw [he] at h
      dsimp only at h ⊢
      by_cases hd : e.2.all (fun s => p.mapped s.1) = false
      · rw [if_pos hd] at h; cases h
      rw [if_neg hd] at h ⊢
      obtain rfl := Option.some.inj h
      have hw : ∀ a ∈ W, ∀ x ∈ e.2, x.1 ≠ a := by
        rintro a ha x hx rfl
        exact hk hst e.1 e.2 he x hx ha
      refine ⟨_, rfl, fun j hj => ?_, rfl, rfl, fun a ha => pokes_congr _ _ _ _ (ho a ha),
        fun a ha => ⟨pokes_out _ _ _ (hw a ha), pokes_out _ _ _ (hw a ha)⟩⟩
      show (if j = i then e.1 else q.regs j) = if j = i then e.1 else p.regs j
      rw [hj]

/-! ### What ulpatch does -/

/-- Marks tell the truth: bytes are exchanged between marks only, and only those of the function;
`o` is the memory of the program, `w` has the bytes that are there. -/
def Honest (arch : Arch) (f : Addr) (o : Mem) : Mem → Mode → List Act → Prop
  | _, _, [] => True
  | w, md, .store a b :: l => md = .changing ∧ a ∈ window f ∧ Honest arch f o (poke w a b) md l
  | w, _, .mark .original :: l => (∀ a ∈ window f, w a = o a) ∧ Honest arch f o w .original l
  | w, _, .mark .changing :: l => Honest arch f o w .changing l
  | w, _, .mark (.redirect p) :: l =>
    w.read f 16 = jmpEntry arch p ∧ Honest arch f o w (.redirect p) l
  | w, md, .run _ :: l => Honest arch f o w md l
  | w, md, .attach _ :: l => Honest arch f o w md l
  | w, md, .detach _ :: l => Honest arch f o w md l
  | w, md, .unmap _ _ :: l => Honest arch f o w md l

/-- The relation between the process and what it should be. -/
structure Inv (arch : Arch) (f : Addr) (o w : Mem) (q : Proc I) (s : Ideal I) : Prop where
  same : Same f q s
  win : ∀ a ∈ window f, q.mem a = w a
  code : ∀ a ∈ window f, s.proc.mem a = o a
  mode : match s.mode with
    | .original => ∀ a ∈ window f, w a = o a
    | .changing => True
    | .redirect p => w.read f 16 = jmpEntry arch p

theorem read_congr {m m' : Mem} {f : Addr} (n : Nat) (h : ∀ a ∈ span f n, m a = m' a) :
    m.read f n = m'.read f n := by
  unfold Mem.read
  exact List.map_congr_left fun i hi => h _ (List.mem_map.2 ⟨i, hi, rfl⟩)

theorem inv_run (R : Redirect I arch) (f : Addr) (o w : Mem) (q : Proc I) (s t : Ideal I) (i : Nat)
    (hv : Inv arch f o w q s) (hf : s.proc.stopped i = false → Fair R f s i)
    (ht : s.run R f i = some t) : ∃ q', q.run i = some q' ∧ Inv arch f o w q' t ∧ t.mode = s.mode := by
  obtain ⟨⟨hr, hs, hm, ho⟩, hw, hc, hmode⟩ := hv
  -- an ordinary step
  have ord : (s.proc.stopped i = false → ∀ a ∈ I.reads s.proc.mem (s.proc.regs i), q.mem a = s.proc.mem a) →
      (s.proc.stopped i = false → Keeps (window f) i s.proc) →
      ∀ p', s.proc.run i = some p' → ∃ q', q.run i = some q' ∧ Inv arch f o w q' { s with proc := p' } := by
    intro h1 h2 p' h3
    obtain ⟨q', e1, e2, e3, e4, e5, e6⟩ := run_frame (window f) i s.proc q p' (by rw [hr]) hs hm ho h1 h2 h3
    exact ⟨q', e1, ⟨funext fun j => e2 j (by rw [hr]), e3, e4, e5⟩, fun a ha => by rw [(e6 a ha).1, hw a ha],
      fun a ha => by rw [(e6 a ha).2, hc a ha], hmode⟩
  -- an ordinary step that is clear of the window
  have clr : Clear (window f) i s.proc → ∀ p', s.proc.run i = some p' →
      ∃ q', q.run i = some q' ∧ Inv arch f o w q' { s with proc := p' } := fun h =>
    ord (fun _ a ha => ho a (h.1 a ha)) (fun _ => h.2)
  unfold Ideal.run at ht
  dsimp only at ht
  cases hst : s.proc.stopped i with
  | true =>
    rw [hst, if_pos rfl] at ht
    obtain rfl := Option.some.inj ht
    refine ⟨q, ?_, ⟨⟨hr, hs, hm, ho⟩, hw, hc, hmode⟩, rfl⟩
    unfold Proc.run
    rw [hs, hst, if_pos rfl]
  | false =>
    rw [hst, if_neg Bool.false_ne_true] at ht
    have hf := hf hst
    unfold Fair at hf
    cases hmd : s.mode with
    | original =>
      rw [hmd] at ht hf hmode
      dsimp only at ht hf hmode
      cases hp : s.proc.run i with
      | none => rw [hp] at ht; cases ht
      | some p' =>
        rw [hp] at ht
        obtain rfl := Option.some.inj ht
        obtain ⟨q', e1, e2⟩ := ord (fun _ a ha => by
          by_cases hwin : a ∈ window f
          · rw [hw a hwin, hc a hwin, hmode a hwin]
          · exact ho a hwin) (fun _ => hf) p' hp
        exact ⟨q', e1, by rw [← hmd]; exact e2, rfl⟩
    | changing =>
      rw [hmd] at ht hf
      dsimp only at ht hf
      cases hp : s.proc.run i with
      | none => rw [hp] at ht; cases ht
      | some p' =>
        rw [hp] at ht
        obtain rfl := Option.some.inj ht
        obtain ⟨q', e1, e2⟩ := clr hf p' hp
        exact ⟨q', e1, by rw [← hmd]; exact e2, rfl⟩
    | redirect p =>
      rw [hmd] at ht hf hmode
      dsimp only at ht hf hmode
      cases hg : R.go f p (s.proc.regs i) with
      | none =>
        rw [hg] at ht hf
        dsimp only at ht
        have hf : Clear (window f) i s.proc := by
          rcases hf with h | h
          · cases h
          · exact h
        cases hp : s.proc.run i with
        | none => rw [hp] at ht; cases ht
        | some p' =>
          rw [hp] at ht
          obtain rfl := Option.some.inj ht
          obtain ⟨q', e1, e2⟩ := clr hf p' hp
          exact ⟨q', e1, by rw [← hmd]; exact e2, rfl⟩
      | some r =>
        rw [hg] at ht
        dsimp only at ht
        by_cases hall : (window f).all s.proc.mapped = false
        · rw [if_pos hall] at ht; cases ht
        rw [if_neg hall] at ht
        obtain rfl := Option.some.inj ht
        have hrd : q.mem.read f 16 = jmpEntry arch p := by rw [← hmode]; exact read_congr 16 hw
        have hstep := R.step q.mem f p _ r hrd hg
        have hreads := R.reads q.mem f p _ r hrd hg
        have hmap : (I.reads q.mem (s.proc.regs i)).all q.mapped = true := by
          rw [List.all_eq_true, hm]
          have hall := List.all_eq_true.1 (Bool.not_eq_false _ ▸ hall)
          exact fun a ha => hall a (hreads a ha)
        refine ⟨{ q with regs := fun j => if j = i then r else s.proc.regs j }, ?_, ?_, hmd.symm ▸ rfl⟩
        · unfold Proc.run
          rw [hr, hs, hst, if_neg Bool.false_ne_true, if_neg (by rw [hmap]; decide), hstep]
          rfl
        · exact ⟨⟨rfl, hs, hm, ho⟩, hw, hc, hmode⟩

theorem inv_acts (R : Redirect I arch) (f : Addr) (o : Mem) (l : List Act) :
    ∀ (w : Mem) (q : Proc I) (s t : Ideal I), Inv arch f o w q s → Honest arch f o w s.mode l →
      FairRun R f s l → s.acts R f l = some t →
      ∃ q' w', q.acts l = some q' ∧ Inv arch f o w' q' t := by
  induction l with
  | nil =>
    intro w q s t hv _ _ ht
    obtain rfl := Option.some.inj ht
    exact ⟨q, w, rfl, hv⟩
  | cons a l ih =>
    intro w q s t hv hh hf ht
    obtain ⟨hf1, hf2⟩ := hf
    rw [Ideal.acts] at ht
    cases hs : s.act R f a with
    | none => rw [hs] at ht; cases ht
    | some s' =>
      rw [hs] at ht
      have hf2 := hf2 s' hs
      rw [Proc.acts]
      have simple : ∀ (e : ∃ q' w', q.act a = some q' ∧ Inv arch f o w' q' s' ∧
          Honest arch f o w' s'.mode l), ∃ q' w', (match q.act a with
            | none => none
            | some q => q.acts l) = some q' ∧ Inv arch f o w' q' t := by
        rintro ⟨q', w', e1, e2, e3⟩
        rw [e1]
        exact ih w' q' s' t e2 e3 hf2 ht
      apply simple
      cases a with
      | run i =>
        obtain ⟨q', e1, e2, e3⟩ := inv_run R f o w q s s' i hv hf1 hs
        exact ⟨q', w, e1, e2, by rw [e3]; exact hh⟩
      | attach i =>
        obtain rfl := Option.some.inj hs
        obtain ⟨⟨hr, hst, hm, ho⟩, hw, hc, hmode⟩ := hv
        exact ⟨_, w, rfl, ⟨⟨hr, by simp only [hst], hm, ho⟩, hw, hc, hmode⟩, hh⟩
      | detach i =>
        obtain rfl := Option.some.inj hs
        obtain ⟨⟨hr, hst, hm, ho⟩, hw, hc, hmode⟩ := hv
        exact ⟨_, w, rfl, ⟨⟨hr, by simp only [hst], hm, ho⟩, hw, hc, hmode⟩, hh⟩
      | unmap x n =>
        obtain rfl := Option.some.inj hs
        obtain ⟨⟨hr, hst, hm, ho⟩, hw, hc, hmode⟩ := hv
        exact ⟨_, w, rfl, ⟨⟨hr, hst, by simp only [hm], ho⟩, hw, hc, hmode⟩, hh⟩
      | store x b =>
        obtain rfl := Option.some.inj hs
        obtain ⟨⟨hr, hst, hm, ho⟩, hw, hc, hmode⟩ := hv
        obtain ⟨h1, h2, h3⟩ := hh
        refine ⟨_, poke w x b, rfl, ⟨⟨hr, hst, hm, fun y hy => ?_⟩, fun y hy => ?_, hc, ?_⟩, h3⟩
        · show poke q.mem x b y = _
          rw [poke, if_neg (by rintro rfl; exact hy h2)]
          exact ho y hy
        · show poke q.mem x b y = poke w x b y
          unfold poke
          by_cases e : y = x
          · rw [if_pos e, if_pos e]
          · rw [if_neg e, if_neg e]; exact hw y hy
        · rw [h1]; trivial
      | mark md =>
        obtain rfl := Option.some.inj hs
        obtain ⟨hsame, hw, hc, hmode⟩ := hv
        cases md with
        | original => exact ⟨q, w, rfl, ⟨hsame, hw, hc, hh.1⟩, hh.2⟩
        | changing => exact ⟨q, w, rfl, ⟨hsame, hw, hc, trivial⟩, hh⟩
        | redirect p => exact ⟨q, w, rfl, ⟨hsame, hw, hc, hh.1⟩, hh.2⟩

/-! ### The marks of ulpatch -/

theorem honest_filter (f : Addr) (o : Mem) (l : List Act) : ∀ (w : Mem) (md : Mode),
    Honest arch f o w md l ↔ Honest arch f o w md (l.filter Act.isTool) := by
  induction l with
  | nil => intro w md; rfl
  | cons a l ih =>
    intro w md
    cases a with
    | run i => rw [List.filter_cons_of_neg (by simp [Act.isTool]), Honest]; exact ih w md
    | attach i => rw [List.filter_cons_of_pos rfl, Honest, Honest]; exact ih w md
    | detach i => rw [List.filter_cons_of_pos rfl, Honest, Honest]; exact ih w md
    | unmap x n => rw [List.filter_cons_of_pos rfl, Honest, Honest]; exact ih w md
    | store x b =>
      rw [List.filter_cons_of_pos rfl, Honest, Honest]
      exact and_congr_right fun _ => and_congr_right fun _ => ih _ md
    | mark m =>
      rw [List.filter_cons_of_pos rfl]
      cases m with
      | original => rw [Honest, Honest]; exact and_congr_right fun _ => ih _ _
      | changing => rw [Honest, Honest]; exact ih _ _
      | redirect p => rw [Honest, Honest]; exact and_congr_right fun _ => ih _ _

/-- Bytes written one after the other are written. -/
theorem pokes_write (m : Mem) (a : Addr) (bs : List Byte) (h : bs.length ≤ 16) :
    (storesAt a bs).foldl (fun m s => poke m s.1 s.2) m = m.write a bs := by
  suffices key : ∀ (k : Nat), k + bs.length ≤ 16 → ∀ m : Mem,
      (((List.range' k bs.length).map fun i => a + BitVec.ofNat 64 i).zip bs).foldl
        (fun m s => poke m s.1 s.2) m = m.write (a + BitVec.ofNat 64 k) bs by
    have := key 0 (by omega) m
    rw [← List.range_eq_range'] at this
    simpa [storesAt, span] using this
  induction bs with
  | nil => intro k _ m; rfl
  | cons b bs ih =>
    intro k hk m
    rw [List.length_cons] at hk
    rw [List.length_cons, List.range'_succ, List.map_cons, List.zip_cons_cons, List.foldl_cons,
      ih (by simp at h; omega) (k + 1) (by omega)]
    funext x
    unfold Mem.write poke
    have e1 : (x - (a + BitVec.ofNat 64 (k + 1))) = (x - (a + BitVec.ofNat 64 k)) - 1 := by
      rw [BitVec.ofNat_add]
      bv_omega
    by_cases hx : x = a + BitVec.ofNat 64 k
    · subst hx
      rw [if_pos rfl]
      have e2 : (a + BitVec.ofNat 64 k - (a + BitVec.ofNat 64 k)).toNat = 0 := by simp
      have e3 : (a + BitVec.ofNat 64 k - (a + BitVec.ofNat 64 (k + 1))).toNat = 2 ^ 64 - 1 := by
        rw [e1]; simp
      rw [e2, e3, List.getElem?_eq_none (by omega), List.getElem?_cons_zero]
    · rw [if_neg hx]
      have e2 : (x - (a + BitVec.ofNat 64 k)).toNat =
          (x - (a + BitVec.ofNat 64 (k + 1))).toNat + 1 := by
        have : x - (a + BitVec.ofNat 64 k) ≠ 0 := fun h0 => hx (by bv_omega)
        rw [e1]
        bv_omega
      rw [e2, List.getElem?_cons_succ]

theorem honest_copy (f : Addr) (o : Mem) (bs : List Byte) (hb : bs.length = 16) (w : Mem) (l : List Act)
    (h : Honest arch f o (w.write f bs) .changing l) : Honest arch f o w .changing (copyTo f bs ++ l) := by
  rw [← pokes_write w f bs (by omega)] at h
  have hin : ∀ e ∈ storesAt f bs, e.1 ∈ window f := by
    intro e he
    have := (List.of_mem_zip he).1
    rwa [hb] at this
  unfold copyTo
  revert hin h
  generalize storesAt f bs = st
  induction st generalizing w with
  | nil => intro h _; exact h
  | cons e st ih =>
    intro h hin
    rw [List.map_cons, List.cons_append]
    exact ⟨rfl, hin e List.mem_cons_self, ih _ h fun x hx => hin x (List.mem_cons_of_mem _ hx)⟩

theorem write_window (w : Mem) (f : Addr) (bs : List Byte) (hb : bs.length = 16) :
    (w.write f bs).read f 16 = bs := by
  have := Mem.read_write_self w f bs (by omega)
  rwa [hb] at this

theorem honest_tool (f : Addr) (o : Mem) (cs : List Cmd) : ∀ (w : Mem) (md : Mode),
    Honest arch f o w md (toolActs arch f (o.read f 16) cs) := by
  have hlen : (o.read f 16).length = 16 := by simp [Mem.read]
  induction cs with
  | nil => intro w md; trivial
  | cons c cs ih =>
    intro w md
    cases c with
    | patch p =>
      rw [toolActs, kickActs]
      simp only [List.append_assoc, List.cons_append, List.nil_append]
      exact honest_copy f o _ (jmpEntry_length arch p) w _
        ⟨write_window w f _ (jmpEntry_length arch p), ih _ _⟩
    | unpatch start len =>
      rw [toolActs, deleteActs]
      simp only [List.append_assoc, List.cons_append, List.nil_append]
      refine honest_copy f o _ hlen w _ ⟨?_, ih _ _⟩
      intro a ha
      obtain ⟨i, hi, rfl⟩ := List.mem_map.1 ha
      have := write_window w f _ hlen
      have h2 := congrArg (fun l => l[i]?) this
      have hi := List.mem_range.1 hi
      simpa [Mem.read, hi] using h2

/-- **C112.**  Patching and unpatching a function of a process whose threads run.  For every
processor, every process with any number of threads, every list of commands for a function and
every way in which the instructions of the threads and the actions of ulpatch come one after the
other: if no thread is in the first 16 bytes of the function while they are exchanged, and none
comes to them afterwards but at the beginning of the function, then every thread does exactly what
it should (`Spec/Threads`), and the process is not killed unless it would be in the specification.

Missing: nothing in the program provides for the condition, see `C112_inside`, `C112_torn`. -/
theorem C112_threads_partial (R : Redirect I arch) (f : Addr) (cs : List Cmd) (q : Proc I)
    (sched : List Act) (t : Ideal I)
    (htool : sched.filter Act.isTool = toolActs arch f (q.mem.read f 16) cs)
    (hfair : FairRun R f ⟨q, .original⟩ sched)
    (ht : Ideal.acts R f ⟨q, .original⟩ sched = some t) :
    ∃ q', q.acts sched = some q' ∧ Same f q' t := by
  obtain ⟨q', w', h1, h2⟩ := inv_acts R f q.mem sched q.mem q ⟨q, .original⟩ t
    ⟨⟨rfl, rfl, rfl, fun _ _ => rfl⟩, fun _ _ => rfl, fun _ _ => rfl, fun _ _ => rfl⟩
    ((honest_filter f q.mem sched q.mem .original).2 (by
      rw [htool]; exact honest_tool f q.mem cs q.mem .original)) hfair ht
  exact ⟨q', h1, h2.same⟩

theorem honest_prefix (f : Addr) (o : Mem) (l l' : List Act) : ∀ (w : Mem) (md : Mode),
    Honest arch f o w md (l ++ l') → Honest arch f o w md l := by
  induction l with
  | nil => intro w md _; trivial
  | cons a l ih =>
    intro w md h
    cases a with
    | mark m =>
      cases m with
      | original => exact ⟨h.1, ih _ _ h.2⟩
      | changing => exact ih _ _ h
      | redirect p => exact ⟨h.1, ih _ _ h.2⟩
    | store x b => exact ⟨h.1, h.2.1, ih _ _ h.2.2⟩
    | _ => exact ih _ _ h

theorem honest_detach (f : Addr) (o : Mem) (l : List Act) (i : Nat) : ∀ (w : Mem) (md : Mode),
    Honest arch f o w md l → Honest arch f o w md (l ++ [.detach i]) := by
  induction l with
  | nil => intro w md _; trivial
  | cons a l ih =>
    intro w md h
    cases a with
    | mark m =>
      cases m with
      | original => exact ⟨h.1, ih _ _ h.2⟩
      | changing => exact ih _ _ h
      | redirect p => exact ⟨h.1, ih _ _ h.2⟩
    | store x b => exact ⟨h.1, h.2.1, ih _ _ h.2.2⟩
    | _ => exact ih _ _ h

/-- **C115.**  ulpatch is killed: of the actions of its commands only the first ones, of any number,
are done, and then the kernel lets the thread go that it had stopped.  For every moment and every
schedule the threads do from then on what they should: those that come to the function go on in the
replacement if its entry was complete and in the function if it had not been begun; with an
entry that is half written this holds for threads that do not come to it (`FairRun`).

Missing: killed between the stores, or in the middle of a system call that the process makes for it,
see `C115_half` and `C115_in_call`. -/
theorem C115_killed_partial (R : Redirect I arch) (f : Addr) (cs : List Cmd) (q : Proc I)
    (sched done rest : List Act) (t : Ideal I)
    (hcut : toolActs arch f (q.mem.read f 16) cs = done ++ rest)
    (htool : sched.filter Act.isTool = done ++ [.detach 0])
    (hfair : FairRun R f ⟨q, .original⟩ sched)
    (ht : Ideal.acts R f ⟨q, .original⟩ sched = some t) :
    ∃ q', q.acts sched = some q' ∧ Same f q' t := by
  obtain ⟨q', w', h1, h2⟩ := inv_acts R f q.mem sched q.mem q ⟨q, .original⟩ t
    ⟨⟨rfl, rfl, rfl, fun _ _ => rfl⟩, fun _ _ => rfl, fun _ _ => rfl, fun _ _ => rfl⟩
    ((honest_filter f q.mem sched q.mem .original).2 (by
      rw [htool]
      refine honest_detach f q.mem done 0 _ _ (honest_prefix f q.mem done rest _ _ ?_)
      rw [← hcut]
      exact honest_tool f q.mem cs q.mem .original)) hfair ht
  exact ⟨q', h1, h2.same⟩

/-! ### The two machines -/

theorem entry_bytes {m : Mem} {f p : Addr} (h : m.read f 16 = jmpEntry arch p) :
    ∀ a ∈ window f, m a = installEntry m arch f p a := by
  intro a ha
  obtain ⟨i, hi, rfl⟩ := List.mem_map.1 ha
  have hi := List.mem_range.1 hi
  unfold installEntry
  rw [Mem.write_in _ _ _ i (by rw [jmpEntry_length]; exact hi) (by omega)]
  have := congrArg (fun l => l[i]?) h
  simp only [Mem.read, List.getElem?_map, List.getElem?_range hi, Option.map_some] at this
  rw [List.getElem?_eq_getElem (by rw [jmpEntry_length]; exact hi)] at this
  exact Option.some.inj this

theorem span_sub {f : Addr} (k n : Nat) (h : k + n ≤ 16) :
    ∀ a ∈ span (f + BitVec.ofNat 64 k) n, a ∈ window f := by
  intro a ha
  obtain ⟨i, hi, rfl⟩ := List.mem_map.1 ha
  have hi := List.mem_range.1 hi
  exact mem_span (k + i) (by omega) (by rw [BitVec.add_assoc, BitVec.ofNat_add])

theorem x86_decode_entry {m : Mem} {f p : Addr} (h : m.read f 16 = jmpEntry .x86_64 p) :
    X86.decode m f = some (.jmpMemRip 2) ∧ m f = 0xff ∧ X86.quad m (f + 8) = p := by
  have he := entry_bytes h
  have hi : X86.decode (installEntry m .x86_64 f p) f = some (.jmpMemRip 2) ∧
      installEntry m .x86_64 f p f = 0xff := by
    have h := install_lo m .x86_64 f p
    have h0 := h 0 (by omega); have h1 := h 1 (by omega); have h2 := h 2 (by omega)
    have h3 := h 3 (by omega); have h4 := h 4 (by omega); have h5 := h 5 (by omega)
    simp only [Nat.reduceMul, BitVec.ofNat_eq_ofNat, BitVec.add_zero] at h0 h1 h2 h3 h4 h5
    constructor
    · simp only [X86.decode, X86.imm32, BitVec.ofNat_eq_ofNat, BitVec.add_assoc, BitVec.reduceAdd, h0,
        h1, h2, h3, h4, h5]
      decide
    · rw [h0]; decide
  refine ⟨?_, ?_, ?_⟩
  · rw [← hi.1]
    refine X86.decode_congr fun x hx => he x ?_
    rw [hi.2, show X86.fetchLen 0xff = 6 by decide] at hx
    exact span_sub (f := f) 0 6 (by omega) x (by simpa using hx)
  · rw [he f (mem_span_self (by omega)), hi.2]
  · rw [← x86_quad_entry m .x86_64 f p]
    exact quad_congr fun x hx => he x (span_sub 8 8 (by omega) x hx)

theorem x86_reads_jmp {m : Mem} {f : Addr} (h1 : X86.decode m f = some (.jmpMemRip 2)) (h2 : m f = 0xff)
    {r : X86.Regs} (hr : r.rip = f) : X86.isa.reads m r = span f 6 ++ span (f + 8) 8 := by
  have e : f + 6 + BitVec.signExtend 64 (2 : BitVec 32) = f + 8 := by
    rw [BitVec.add_assoc]; rfl
  have e2 : X86.fetchLen (m f) = 6 := by rw [h2]; decide
  subst hr
  show span r.rip (X86.fetchLen (m r.rip)) ++
    (match X86.decode m r.rip with | some i => X86.loads r i | none => []) = _
  rw [e2, h1]
  show _ ++ span (r.rip + 6 + BitVec.signExtend 64 (2 : BitVec 32)) 8 = _
  rw [e]

theorem x86_reads_entry {m : Mem} {f p : Addr} (h : m.read f 16 = jmpEntry .x86_64 p) {r : X86.Regs}
    (hr : r.rip = f) : X86.isa.reads m r = span f 6 ++ span (f + 8) 8 :=
  x86_reads_jmp (x86_decode_entry h).1 (x86_decode_entry h).2.1 hr

/-- x86_64: a thread at the beginning of the function is in the replacement one instruction later;
nothing else is different. -/
def x86Redirect : Redirect X86.isa .x86_64 where
  go f p r := if r.rip = f then some { r with rip := p } else none
  step m f p r r' h hg := by
    by_cases hr : r.rip = f
    · rw [if_pos hr] at hg
      obtain rfl := Option.some.inj hg
      obtain ⟨h1, -, h3⟩ := x86_decode_entry h
      show (X86.decode m r.rip).map (fun i => ((X86.exec (r.cpu m) i).regs, X86.stores r i)) = _
      rw [hr, h1]
      have e : (f + BitVec.ofNat 64 6 + BitVec.signExtend 64 (2 : BitVec 32)) = f + 8 := by
        rw [BitVec.add_assoc]; rfl
      simp only [Option.map_some, X86.exec, X86.Regs.cpu, X86.Cpu.regs, X86.Insn.len, X86.stores, hr, e,
        h3]
      rfl
    · rw [if_neg hr] at hg; cases hg
  reads m f p r r' h hg := by
    by_cases hr : r.rip = f
    · intro a ha
      rw [x86_reads_entry h hr] at ha
      rcases List.mem_append.1 ha with ha | ha
      · exact span_sub (f := f) 0 6 (by omega) a (by simpa using ha)
      · exact span_sub (f := f) 8 8 (by omega) a ha
    · rw [if_neg hr] at hg; cases hg

theorem a64_decode_entry {m : Mem} {f p : Addr} (h : m.read f 16 = jmpEntry .aarch64 p) :
    A64.decodeWord (A64.fetch m f) = some (.ldrLit 17 2) ∧
    A64.decodeWord (A64.fetch m (f + 4)) = some (.br 17) ∧ A64.quad m (f + 8) = p := by
  have he := entry_bytes h
  have h' := install_lo m .aarch64 f p
  have h0 := h' 0 (by omega); have h1 := h' 1 (by omega); have h2 := h' 2 (by omega)
  have h3 := h' 3 (by omega); have h4 := h' 4 (by omega); have h5 := h' 5 (by omega)
  have h6 := h' 6 (by omega); have h7 := h' 7 (by omega)
  simp only [Nat.reduceMul, BitVec.ofNat_eq_ofNat, BitVec.add_zero] at h0 h1 h2 h3 h4 h5 h6 h7
  have f0 : A64.fetch m f = 0x58000051 := by
    rw [A64.fetch_eq, imm32_congr (m := installEntry m .aarch64 f p)
      fun x hx => he x (span_sub (f := f) 0 4 (by omega) x (by simpa using hx))]
    simp only [X86.imm32, BitVec.ofNat_eq_ofNat, h0, h1, h2, h3]; decide
  have f4 : A64.fetch m (f + 4) = 0xd61f0220 := by
    rw [A64.fetch_eq, imm32_congr (m := installEntry m .aarch64 f p)
      (a := f + 4) fun x hx => he x (span_sub (f := f) 4 4 (by omega) x hx)]
    simp only [X86.imm32, BitVec.ofNat_eq_ofNat, BitVec.add_assoc, BitVec.reduceAdd, h4, h5, h6, h7]
    decide
  refine ⟨by rw [f0]; decide, by rw [f4]; decide, ?_⟩
  rw [← a64_quad_entry m .aarch64 f p]
  exact quad_congr fun x hx => he x (span_sub 8 8 (by omega) x hx)

/-- aarch64: a thread at the beginning of the function is in the replacement two instructions later;
in between it is at the second instruction with the address in `x17`.  Nothing but `x17` is
different. -/
def a64Redirect : Redirect A64.isa .aarch64 where
  go f p r :=
    if r.pc = f then some ⟨f + 4, fun i => if i.val = 17 then p else r.x i⟩
    else if r.pc = f + 4 ∧ r.x 17 = p then some { r with pc := p }
    else none
  step m f p r r' h hg := by
    obtain ⟨h1, h2, h3⟩ := a64_decode_entry h
    by_cases hr : r.pc = f
    · rw [if_pos hr] at hg
      obtain rfl := Option.some.inj hg
      simp only [A64.isa, hr, h1, Option.bind_some, A64.exec, A64.Regs.cpu, A64.Cpu.regs, A64.Cpu.set,
        Option.map_some]
      rw [show BitVec.signExtend 64 ((2 : BitVec 19) ++ (0 : BitVec 2)) = 8 by decide, h3]
      rfl
    · rw [if_neg hr] at hg
      by_cases hr2 : r.pc = f + 4 ∧ r.x 17 = p
      · rw [if_pos hr2] at hg
        obtain rfl := Option.some.inj hg
        have hx : A64.Cpu.get ⟨r.pc, r.x, m⟩ 17 = p := by
          rw [← hr2.2]; rfl
        simp only [A64.isa, hr2.1, h2, Option.bind_some, A64.exec, A64.Regs.cpu, A64.Cpu.regs,
          Option.map_some]
        rw [← hr2.1, hx]
      · rw [if_neg hr2] at hg; cases hg
  reads m f p r r' h hg := by
    obtain ⟨h1, h2, -⟩ := a64_decode_entry h
    by_cases hr : r.pc = f
    · simp only [A64.isa, hr, h1, A64.loads]
      intro a ha
      rcases List.mem_append.1 ha with ha | ha
      · exact span_sub (f := f) 0 4 (by omega) a (by simpa using ha)
      · refine span_sub (f := f) 8 8 (by omega) a ?_
        rwa [show BitVec.signExtend 64 ((2 : BitVec 19) ++ (0 : BitVec 2)) = 8 by decide] at ha
    · rw [if_neg hr] at hg
      by_cases hr2 : r.pc = f + 4 ∧ r.x 17 = p
      · simp only [A64.isa, hr2.1, h2, A64.loads, List.append_nil]
        exact fun a ha => span_sub (f := f) 4 4 (by omega) a ha
      · rw [if_neg hr2] at hg; cases hg

end Ulp.Threads
