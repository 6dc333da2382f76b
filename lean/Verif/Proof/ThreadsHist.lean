import Verif.Spec.ThreadsHist
import Verif.Props.Threads
namespace Ulp.ThreadsHist
open Threads (Proc Mode poke window Redirect Clear Keeps run_frame read_congr pokes_write write_window)

variable {I : Isa} {arch : Arch}

/-- Marks tell the truth: bytes of a function are exchanged between its marks only, and what ulpatch reads is
there; `o` is the memory of the program, `w` has the bytes that are there. -/
def Honest (arch : Arch) (F : List Addr) (o : Mem) : Mem → (Addr → Mode) → List Act → Prop
  | _, _, [] => True
  | w, md, .store a b :: l =>
    (∀ f ∈ F, a ∈ window f → md f = .changing) ∧ Honest arch F o (poke w a b) md l
  | w, md, .mark f m :: l =>
    (match m with
      | .original => ∀ a ∈ window f, w a = o a
      | .changing => True
      | .redirect p => w.read f 16 = jmpEntry arch p) ∧ Honest arch F o w (fun g => if g = f then m else md g) l
  | w, md, .look a bs :: l =>
    (if a ∈ F then bs.length = 16 ∧ w.read a 16 = bs else ∀ x ∈ span a bs.length, ¬ InWindow F x) ∧ Honest arch F o w md l
  | w, md, .run _ :: l => Honest arch F o w md l
  | w, md, .attach _ :: l => Honest arch F o w md l
  | w, md, .detach _ :: l => Honest arch F o w md l
  | w, md, .map _ _ :: l => Honest arch F o w md l
  | w, md, .unmap _ _ :: l => Honest arch F o w md l

/-- The relation between the process and what it should be. -/
structure Inv (arch : Arch) (F : List Addr) (o w : Mem) (q : Proc I) (s : Ideal I) : Prop where
  same : Same F q s
  win : ∀ a, InWindow F a → q.mem a = w a
  code : ∀ a, InWindow F a → s.proc.mem a = o a
  mode : ∀ f ∈ F, match s.modes f with
    | .original => ∀ a ∈ window f, w a = o a
    | .changing => True
    | .redirect p => w.read f 16 = jmpEntry arch p

/-- All the bytes that are exchanged. -/
def windows (F : List Addr) : List Addr := F.flatMap window

theorem mem_windows {F : List Addr} {a : Addr} : a ∈ windows F ↔ InWindow F a := by
  unfold windows InWindow
  rw [List.mem_flatMap]

theorem taken_some {R : Redirect I arch} {F : List Addr} {s : Ideal I} {r r' : I.Regs} {f : Addr}
    (h : taken R F s r = some (f, r')) : f ∈ F ∧ ∃ p, s.modes f = .redirect p ∧ R.go f p r = some r' := by
  unfold taken at h
  obtain ⟨g, hg, h⟩ := List.exists_of_findSome?_eq_some h
  cases hm : s.modes g with
  | original => rw [hm] at h; cases h
  | changing => rw [hm] at h; cases h
  | redirect p =>
    rw [hm] at h
    dsimp only at h
    cases hgo : R.go g p r with
    | none => rw [hgo] at h; cases h
    | some x =>
      rw [hgo] at h
      cases h
      exact ⟨hg, p, hm, hgo⟩

theorem taken_none {R : Redirect I arch} {F : List Addr} {s : Ideal I} {r : I.Regs}
    (h : taken R F s r = none) {f : Addr} (hf : f ∈ F) {p : Addr} (hm : s.modes f = .redirect p) : R.go f p r = none := by
  unfold taken at h
  have := List.findSome?_eq_none_iff.1 h f hf
  rw [hm] at this
  dsimp only at this
  cases hgo : R.go f p r with
  | none => rfl
  | some x => rw [hgo] at this; cases this

theorem inv_run (R : Redirect I arch) (F : List Addr) (o w : Mem) (q : Proc I) (s t : Ideal I) (i : Nat)
    (hv : Inv arch F o w q s) (hf : s.proc.stopped i = false → Fair R F s i)
    (ht : s.run R F i = some t) : ∃ q', q.run i = some q' ∧ Inv arch F o w q' t ∧ t.modes = s.modes := by
  obtain ⟨⟨hr, hs, hm, ho⟩, hw, hc, hmode⟩ := hv
  unfold Ideal.run at ht
  cases hst : s.proc.stopped i with
  | true =>
    rw [hst, if_pos rfl] at ht
    obtain rfl := Option.some.inj ht
    refine ⟨q, ?_, ⟨⟨hr, hs, hm, ho⟩, hw, hc, hmode⟩, rfl⟩
    unfold Proc.run
    rw [hs, hst, if_pos rfl]
  | false =>
    rw [hst, if_neg Bool.false_ne_true] at ht
    have hf := hf hst
    cases htk : taken R F s (s.proc.regs i) with
    | some x =>
      obtain ⟨f, r⟩ := x
      rw [htk] at ht
      dsimp only at ht
      obtain ⟨hfF, p, hmd, hg⟩ := taken_some htk
      by_cases hall : (window f).all s.proc.mapped = false
      · rw [if_pos hall] at ht; cases ht
      rw [if_neg hall] at ht
      obtain rfl := Option.some.inj ht
      have hmo := hmode f hfF
      rw [hmd] at hmo
      dsimp only at hmo
      have hrd : q.mem.read f 16 = jmpEntry arch p := by
        rw [← hmo]; exact read_congr 16 fun a ha => hw a ⟨f, hfF, ha⟩
      have hstep := R.step q.mem f p _ r hrd hg
      have hreads := R.reads q.mem f p _ r hrd hg
      have hmap : (I.reads q.mem (s.proc.regs i)).all q.mapped = true := by
        rw [List.all_eq_true, hm]
        have hall := List.all_eq_true.1 (Bool.not_eq_false _ ▸ hall)
        exact fun a ha => hall a (hreads a ha)
      refine ⟨{ q with regs := fun j => if j = i then r else s.proc.regs j }, ?_, ?_, rfl⟩
      · unfold Proc.run
        rw [hr, hs, hst, if_neg Bool.false_ne_true, if_neg (by rw [hmap]; decide), hstep]
        rfl
      · exact ⟨⟨rfl, hs, hm, ho⟩, hw, hc, hmode⟩
    | none =>
      rw [htk] at ht
      dsimp only at ht
      cases hp : s.proc.run i with
      | none => rw [hp] at ht; cases ht
      | some p' =>
        rw [hp] at ht
        obtain rfl := Option.some.inj ht
        have hkeep : Keeps (windows F) i s.proc := by
          intro r st he e hes hin
          obtain ⟨f, hfF, hin⟩ := mem_windows.1 hin
          have := hf f hfF
          cases hmd : s.modes f with
          | original => rw [hmd] at this; exact this r st he e hes hin
          | changing => rw [hmd] at this; exact this.2 r st he e hes hin
          | redirect p =>
            rw [hmd] at this
            rcases this with h | h
            · rw [taken_none htk hfF hmd] at h; cases h
            · exact h.2 r st he e hes hin
        have hread : ∀ a ∈ I.reads s.proc.mem (s.proc.regs i), q.mem a = s.proc.mem a := by
          intro a ha
          by_cases hin : InWindow F a
          · obtain ⟨f, hfF, haf⟩ := hin
            have hfair := hf f hfF
            have hmo := hmode f hfF
            cases hmd : s.modes f with
            | original =>
              rw [hmd] at hmo
              rw [hw a ⟨f, hfF, haf⟩, hc a ⟨f, hfF, haf⟩]
              exact hmo a haf
            | changing => rw [hmd] at hfair; exact absurd haf (hfair.1 a ha)
            | redirect p =>
              rw [hmd] at hfair
              rcases hfair with h | h
              · rw [taken_none htk hfF hmd] at h; cases h
              · exact absurd haf (h.1 a ha)
          · exact ho a hin
        obtain ⟨q', e1, e2, e3, e4, e5, e6⟩ := run_frame (windows F) i s.proc q p' (by rw [hr]) hs hm
          (fun a ha => ho a fun h => ha (mem_windows.2 h)) (fun _ => hread) (fun _ => hkeep) hp
        exact ⟨q', e1, ⟨⟨funext fun j => e2 j (by rw [hr]), e3, e4, fun a ha => e5 a fun h => ha (mem_windows.1 h)⟩,
          fun a ha => by rw [(e6 a (mem_windows.2 ha)).1, hw a ha],
          fun a ha => by rw [(e6 a (mem_windows.2 ha)).2, hc a ha], hmode⟩, rfl⟩

theorem inv_acts (R : Redirect I arch) (F : List Addr) (o : Mem) (l : List Act) :
    ∀ (w : Mem) (q : Proc I) (s t : Ideal I), Inv arch F o w q s → Honest arch F o w s.modes l →
      FairRun R F s l → s.acts R F l = some t →
      ∃ q' w', acts q l = some q' ∧ Inv arch F o w' q' t := by
  induction l with
  | nil =>
    intro w q s t hv _ _ ht
    obtain rfl := Option.some.inj ht
    exact ⟨q, w, rfl, hv⟩
  | cons a l ih =>
    intro w q s t hv hh hf ht
    obtain ⟨hf1, hf2⟩ := hf
    rw [Ideal.acts] at ht
    cases hs : s.act R F a with
    | none => rw [hs] at ht; cases ht
    | some s' =>
      rw [hs] at ht
      have hf2 := hf2 s' hs
      rw [acts]
      have simple : ∀ (e : ∃ q' w', act q a = some q' ∧ Inv arch F o w' q' s' ∧
          Honest arch F o w' s'.modes l), ∃ q' w', (match act q a with
            | none => none
            | some q => acts q l) = some q' ∧ Inv arch F o w' q' t := by
        rintro ⟨q', w', e1, e2, e3⟩
        rw [e1]
        exact ih w' q' s' t e2 e3 hf2 ht
      apply simple
      cases a with
      | run i =>
        obtain ⟨q', e1, e2, e3⟩ := inv_run R F o w q s s' i hv hf1 hs
        exact ⟨q', w, e1, e2, by rw [e3]; exact hh⟩
      | attach i =>
        obtain rfl := Option.some.inj hs
        obtain ⟨⟨hr, hst, hm, ho⟩, hw, hc, hmode⟩ := hv
        exact ⟨_, w, rfl, ⟨⟨hr, by simp only [hst], hm, ho⟩, hw, hc, hmode⟩, hh⟩
      | detach i =>
        obtain rfl := Option.some.inj hs
        obtain ⟨⟨hr, hst, hm, ho⟩, hw, hc, hmode⟩ := hv
        exact ⟨_, w, rfl, ⟨⟨hr, by simp only [hst], hm, ho⟩, hw, hc, hmode⟩, hh⟩
      | map x n =>
        obtain rfl := Option.some.inj hs
        obtain ⟨⟨hr, hst, hm, ho⟩, hw, hc, hmode⟩ := hv
        exact ⟨_, w, rfl, ⟨⟨hr, hst, by simp only [hm], ho⟩, hw, hc, hmode⟩, hh⟩
      | unmap x n =>
        obtain rfl := Option.some.inj hs
        obtain ⟨⟨hr, hst, hm, ho⟩, hw, hc, hmode⟩ := hv
        exact ⟨_, w, rfl, ⟨⟨hr, hst, by simp only [hm], ho⟩, hw, hc, hmode⟩, hh⟩
      | look x bs =>
        obtain ⟨h1, h2⟩ := hh
        have hss : s' = s ∧ (x ∉ F → s.proc.mem.read x bs.length = bs) := by
          unfold Ideal.act at hs
          dsimp only at hs
          by_cases hx : x ∈ F
          · rw [if_pos hx] at hs
            exact ⟨(Option.some.inj hs).symm, fun h => absurd hx h⟩
          · rw [if_neg hx] at hs
            by_cases hb : s.proc.mem.read x bs.length = bs
            · rw [if_pos hb] at hs
              exact ⟨(Option.some.inj hs).symm, fun _ => hb⟩
            · rw [if_neg hb] at hs; cases hs
        obtain ⟨rfl, hss⟩ := hss
        refine ⟨q, w, ?_, hv, h2⟩
        unfold act
        dsimp only
        rw [if_pos]
        by_cases hx : x ∈ F
        · rw [if_pos hx] at h1
          rw [h1.1]
          have : q.mem.read x 16 = w.read x 16 := read_congr 16 fun a ha => hv.win a ⟨x, hx, ha⟩
          rw [this]
          exact h1.2
        · rw [if_neg hx] at h1
          have : q.mem.read x bs.length = s'.proc.mem.read x bs.length :=
            read_congr _ fun a ha => hv.same.2.2.2 a (h1 a ha)
          rw [this]
          exact hss hx
      | store x b =>
        obtain ⟨⟨hr, hst, hm, ho⟩, hw, hc, hmode⟩ := hv
        obtain ⟨h1, h3⟩ := hh
        have hwin : ∀ y, InWindow F y → poke q.mem x b y = poke w x b y := by
          intro y hy
          unfold poke
          by_cases e : y = x
          · rw [if_pos e, if_pos e]
          · rw [if_neg e, if_neg e]; exact hw y hy
        have hmo : ∀ f ∈ F, match s.modes f with
            | .original => ∀ a ∈ window f, poke w x b a = o a
            | .changing => True
            | .redirect p => (poke w x b).read f 16 = jmpEntry arch p := by
          intro f hfF
          have hmf := hmode f hfF
          by_cases hxf : x ∈ window f
          · rw [h1 f hfF hxf]; trivial
          · have hp : ∀ a ∈ window f, poke w x b a = w a := by
              intro a ha
              unfold poke
              rw [if_neg (by rintro rfl; exact hxf ha)]
            cases hmd : s.modes f with
            | original =>
              rw [hmd] at hmf
              exact fun a ha => (hp a ha).trans (hmf a ha)
            | changing => trivial
            | redirect p =>
              rw [hmd] at hmf
              exact (read_congr 16 hp).trans hmf
        unfold Ideal.act at hs
        dsimp only at hs
        by_cases hx : InWindow F x
        · rw [if_pos hx] at hs
          obtain rfl := Option.some.inj hs
          refine ⟨_, poke w x b, rfl, ⟨⟨hr, hst, hm, fun y hy => ?_⟩, hwin, hc, hmo⟩, h3⟩
          show poke q.mem x b y = _
          rw [poke, if_neg (by rintro rfl; exact hy hx)]
          exact ho y hy
        · rw [if_neg hx] at hs
          obtain rfl := Option.some.inj hs
          refine ⟨_, poke w x b, rfl, ⟨⟨hr, hst, hm, fun y hy => ?_⟩, hwin, fun y hy => ?_, hmo⟩, h3⟩
          · show poke q.mem x b y = poke s.proc.mem x b y
            unfold poke
            by_cases e : y = x
            · rw [if_pos e, if_pos e]
            · rw [if_neg e, if_neg e]; exact ho y hy
          · show poke s.proc.mem x b y = o y
            rw [poke, if_neg (by rintro rfl; exact hx hy)]
            exact hc y hy
      | mark f md =>
        obtain rfl := Option.some.inj hs
        obtain ⟨hsame, hw, hc, hmode⟩ := hv
        refine ⟨q, w, rfl, ⟨hsame, hw, hc, ?_⟩, hh.2⟩
        intro g hg
        show match (if g = f then md else s.modes g) with
          | .original => ∀ a ∈ window g, w a = o a
          | .changing => True
          | .redirect p => w.read g 16 = jmpEntry arch p
        by_cases hgf : g = f
        · subst hgf
          rw [if_pos rfl]
          exact hh.1
        · rw [if_neg hgf]
          exact hmode g hg

/-! ### The marks of ulpatch -/

theorem honest_filter (F : List Addr) (o : Mem) (l : List Act) : ∀ (w : Mem) (md : Addr → Mode),
    Honest arch F o w md l ↔ Honest arch F o w md (l.filter Act.isTool) := by
  induction l with
  | nil => intro w md; rfl
  | cons a l ih =>
    intro w md
    cases a with
    | run i => rw [List.filter_cons_of_neg (by simp [Act.isTool]), Honest]; exact ih w md
    | attach i => rw [List.filter_cons_of_pos rfl, Honest, Honest]; exact ih w md
    | detach i => rw [List.filter_cons_of_pos rfl, Honest, Honest]; exact ih w md
    | map x n => rw [List.filter_cons_of_pos rfl, Honest, Honest]; exact ih w md
    | unmap x n => rw [List.filter_cons_of_pos rfl, Honest, Honest]; exact ih w md
    | store x b =>
      rw [List.filter_cons_of_pos rfl, Honest, Honest]
      exact and_congr_right fun _ => ih _ md
    | look x b =>
      rw [List.filter_cons_of_pos rfl, Honest, Honest]
      exact and_congr_right fun _ => ih _ md
    | mark f m =>
      rw [List.filter_cons_of_pos rfl]
      exact and_congr_right fun _ => ih _ _

theorem honest_stores (F : List Addr) (o : Mem) (md : Addr → Mode) (l : List Act) (st : List (Addr × Byte)) : ∀ w,
    (∀ e ∈ st, ∀ f ∈ F, e.1 ∈ window f → md f = .changing) →
    Honest arch F o (st.foldl (fun m s => poke m s.1 s.2) w) md l →
    Honest arch F o w md (st.map (fun e => Act.store e.1 e.2) ++ l) := by
  induction st with
  | nil => intro w _ h; exact h
  | cons e st ih =>
    intro w hin h
    exact ⟨hin e (List.mem_cons_self ..), ih _ (fun x hx => hin x (List.mem_cons_of_mem _ hx)) h⟩

theorem stores_in {a : Addr} {bs : List Byte} {e : Addr × Byte} (h : e ∈ storesAt a bs) : e.1 ∈ span a bs.length :=
  (List.of_mem_zip h).1

/-- Bytes of a function are exchanged. -/
theorem honest_copy {F : List Addr} (hF : Apart F) {f : Addr} (hf : f ∈ F) (o : Mem) (bs : List Byte) (hb : bs.length = 16)
    (w : Mem) (md : Addr → Mode) (hmd : md f = .changing) (l : List Act)
    (h : Honest arch F o (w.write f bs) md l) : Honest arch F o w md (copyTo f bs ++ l) := by
  refine honest_stores F o md l _ w ?_ ?_
  · intro e he g hg hin
    have he := stores_in he
    rw [hb] at he
    by_cases hgf : g = f
    · rw [hgf]; exact hmd
    · exact absurd he (hF g hg f hf hgf _ hin)
  · rw [pokes_write w f bs (by omega)]
    exact h

/-- Bytes elsewhere are written. -/
theorem honest_image {F : List Addr} (o : Mem) (a : Addr) (bs : List Byte)
    (hb : ∀ x ∈ span a bs.length, ¬ InWindow F x) (w : Mem) (md : Addr → Mode) (l : List Act)
    (h : ∀ w', (∀ x, InWindow F x → w' x = w x) → Honest arch F o w' md l) :
    Honest arch F o w md (copyTo a bs ++ l) := by
  refine honest_stores F o md l _ w ?_ (h _ ?_)
  · intro e he f hf hin
    exact absurd ⟨f, hf, hin⟩ (hb _ (stores_in he))
  · intro x hx
    refine Threads.pokes_out _ _ _ ?_
    rintro e he rfl
    exact hb _ (stores_in he) hx

theorem write_other {F : List Addr} (hF : Apart F) {f g : Addr} (hf : f ∈ F) (hg : g ∈ F) (hne : f ≠ g) (m : Mem)
    (bs : List Byte) (hb : bs.length = 16) {a : Addr} (ha : a ∈ window g) : m.write f bs a = m a := by
  apply Mem.write_out
  rw [hb]
  apply Nat.le_of_not_lt
  intro hlt
  refine hF f hf g hg hne a ?_ ha
  refine mem_span (a - f).toNat hlt ?_
  rw [BitVec.ofNat_toNat, BitVec.setWidth_eq, BitVec.add_comm, BitVec.sub_add_cancel]

/-- What the patches make of a function. -/
theorem under_mode {F : List Addr} (hF : Apart F) (o : Mem) {f : Addr} (hf : f ∈ F) (st : List Live) (hst : ∀ v ∈ st, v.f ∈ F) :
    match modeOf f st with
    | .original => ∀ a ∈ window f, under arch o st a = o a
    | .changing => True
    | .redirect p => (under arch o st).read f 16 = jmpEntry arch p := by
  induction st with
  | nil => exact fun _ _ => rfl
  | cons v st ih =>
    have ih := ih fun u hu => hst u (List.mem_cons_of_mem _ hu)
    unfold modeOf under
    by_cases hv : v.f = f
    · rw [if_pos hv, hv]
      exact write_window _ _ _ (jmpEntry_length arch v.p)
    · rw [if_neg hv]
      have hw : ∀ a ∈ window f, (under arch o st).write v.f (jmpEntry arch v.p) a = under arch o st a := fun a ha =>
        write_other hF (hst v (List.mem_cons_self ..)) hf hv _ _ (jmpEntry_length arch v.p) ha
      cases hm : modeOf f st with
      | original => rw [hm] at ih; exact fun a ha => (hw a ha).trans (ih a ha)
      | changing => trivial
      | redirect p => rw [hm] at ih; exact (read_congr 16 hw).trans ih

theorem write_agree {F : List Addr} {w m : Mem} (h : ∀ a, InWindow F a → w a = m a) (f : Addr) (bs : List Byte) :
    ∀ a, InWindow F a → w.write f bs a = m.write f bs a := by
  intro a ha
  rw [Mem.write_apply, Mem.write_apply, h a ha]

/-- The patches are for the functions, and have kept what they replaced. -/
def StackOk (arch : Arch) (F : List Addr) (o : Mem) : List Live → Prop
  | [] => True
  | v :: st => v.f ∈ F ∧ v.saved = (under arch o st).read v.f 16 ∧ (∀ a ∈ span v.keep 16, ¬ InWindow F a) ∧ StackOk arch F o st

theorem StackOk.fs {F : List Addr} {o : Mem} : ∀ {st : List Live}, StackOk arch F o st → ∀ v ∈ st, v.f ∈ F
  | [], _, _, h => by cases h
  | u :: st, h, v, hv => by
    rcases List.mem_cons.1 hv with rfl | hv
    · exact h.1
    · exact h.2.2.2.fs v hv

theorem honest_tool {F : List Addr} (hF : Apart F) (o : Mem) (cs : List Cmd) : ∀ (st : List Live) (w : Mem) (md : Addr → Mode),
    (∀ c ∈ cs, c.Fits F) → StackOk arch F o st → (∀ a, InWindow F a → w a = under arch o st a) →
    (∀ f ∈ F, md f = modeOf f st) → Honest arch F o w md (toolActs arch o st cs) := by
  induction cs with
  | nil =>
    intro st w md _ _ _ _
    cases st <;> trivial
  | cons c cs ih =>
    intro st w md hc hst hw hmd
    have hc1 := hc c (List.mem_cons_self ..)
    have hc2 : ∀ c ∈ cs, c.Fits F := fun x hx => hc x (List.mem_cons_of_mem _ hx)
    cases c with
    | patch f p start img len keep =>
      obtain ⟨hf, himg, hkeep⟩ := hc1
      rw [toolActs, patchActs]
      simp only [List.append_assoc, List.cons_append, List.nil_append]
      have hlen : ((under arch o st).read f 16).length = 16 := Mem.read_length ..
      refine ⟨?_, ?_⟩
      · rw [if_pos hf]
        exact ⟨hlen, read_congr 16 fun a ha => hw a ⟨f, hf, ha⟩⟩
      refine honest_image o start img himg w md _ fun w' hw' => ?_
      refine ⟨trivial, ?_⟩
      refine honest_copy hF hf o _ (jmpEntry_length arch p) w' _ (if_pos rfl) _ ?_
      refine ⟨write_window w' f _ (jmpEntry_length arch p), ?_⟩
      refine ih _ _ _ hc2 ⟨hf, rfl, hkeep, hst⟩ ?_ ?_
      · exact write_agree (fun a ha => (hw' a ha).trans (hw a ha)) f _
      · intro g hg
        unfold modeOf
        by_cases hgf : g = f
        · rw [if_pos hgf, if_pos hgf.symm]
        · rw [if_neg hgf, if_neg fun h => hgf h.symm]
          exact (if_neg hgf).trans (hmd g hg)
    | unpatch =>
      cases st with
      | nil =>
        rw [toolActs]
        exact ih _ _ _ hc2 hst hw hmd
      | cons v st =>
        obtain ⟨hf, hsv, hkeep, hst⟩ := hst
        have hlen : v.saved.length = 16 := by rw [hsv]; exact Mem.read_length ..
        rw [toolActs, unpatchActs]
        simp only [List.append_assoc, List.cons_append, List.nil_append]
        have hagree : ∀ a, InWindow F a → w.write v.f v.saved a = under arch o st a := by
          intro a ha
          rw [write_agree hw v.f v.saved a ha]
          have := Mem.write_restore (under arch o st) v.f (jmpEntry arch v.p)
          rw [jmpEntry_length, ← hsv] at this
          exact congrFun this a
        refine ⟨?_, trivial, ?_⟩
        · have hnot : v.keep ∉ F := fun h => hkeep v.keep (mem_span_self (by omega)) ⟨v.keep, h, mem_span_self (by omega)⟩
          rw [if_neg hnot, hlen]
          exact hkeep
        refine honest_copy hF hf o _ hlen w _ (if_pos rfl) _ ?_
        refine ⟨?_, ?_⟩
        · have := under_mode (arch := arch) hF o hf st hst.fs
          cases hm : modeOf v.f st with
          | original => rw [hm] at this; exact fun a ha => (hagree a ⟨v.f, hf, ha⟩).trans (this a ha)
          | changing => trivial
          | redirect p => rw [hm] at this; exact (read_congr 16 fun a ha => hagree a ⟨v.f, hf, ha⟩).trans this
        · refine ih _ _ _ hc2 hst hagree ?_
          intro g hg
          by_cases hgf : g = v.f
          · rw [if_pos hgf, hgf]
          · rw [if_neg hgf]
            refine (if_neg hgf).trans ((hmd g hg).trans ?_)
            rw [modeOf, if_neg fun h => hgf h.symm]

end Ulp.ThreadsHist
