import Verif.Spec.ThreadsWhole
import Verif.Props.ThreadsHistSame
namespace Ulp.ThreadsHist
open Threads (Proc Mode poke window Redirect read_congr)

variable {I : Isa} {arch : Arch}

def Good (cs : List Cmd) (m : Mem) (mp : Addr → Bool) (md : Addr → Mode) : Prop :=
  ∀ f p, md f = .redirect p → Ready cs m mp f p

/-- At every moment of these actions, where functions go is there. -/
def Whole (cs : List Cmd) : Mem → (Addr → Bool) → (Addr → Mode) → List Act → Prop
  | m, mp, md, [] => Good cs m mp md
  | m, mp, md, .store a b :: l => Good cs m mp md ∧ Whole cs (poke m a b) mp md l
  | m, mp, md, .map a n :: l => Good cs m mp md ∧ Whole cs m (fun x => mp x || decide ((x - a).toNat < n)) md l
  | m, mp, md, .unmap a n :: l => Good cs m mp md ∧ Whole cs m (fun x => mp x && !decide ((x - a).toNat < n)) md l
  | m, mp, md, .mark f k :: l => Good cs m mp md ∧ Whole cs m mp (fun g => if g = f then k else md g) l
  | m, mp, md, .look _ _ :: l => Good cs m mp md ∧ Whole cs m mp md l
  | m, mp, md, .attach _ :: l => Good cs m mp md ∧ Whole cs m mp md l
  | m, mp, md, .detach _ :: l => Good cs m mp md ∧ Whole cs m mp md l
  | m, mp, md, .run _ :: l => Good cs m mp md ∧ Whole cs m mp md l

theorem Whole.here {cs : List Cmd} {m : Mem} {mp : Addr → Bool} {md : Addr → Mode} {l : List Act}
    (h : Whole cs m mp md l) : Good cs m mp md := by
  cases l with
  | nil => exact h
  | cons a l => cases a <;> exact h.1

theorem Whole.prefix {cs : List Cmd} (l l' : List Act) : ∀ {m : Mem} {mp : Addr → Bool} {md : Addr → Mode},
    Whole cs m mp md (l ++ l') → Whole cs m mp md l := by
  induction l with
  | nil => intro m mp md h; exact h.here
  | cons a l ih =>
    intro m mp md h
    cases a <;> exact ⟨h.1, ih h.2⟩

/-- The patches that are there are mapped and complete. -/
def Up (cs : List Cmd) (m : Mem) (mp : Addr → Bool) (st : List Live) : Prop :=
  ∀ v ∈ st, ∃ img keep, Cmd.patch v.f v.p v.start img v.len keep ∈ cs ∧ m.read v.start img.length = img ∧ img.length ≤ v.len ∧
    ∀ x, Within v.start v.len x → mp x = true

def Mid (md : Addr → Mode) (st : List Live) : Prop := ∀ g, md g = .changing ∨ md g = modeOf g st

theorem modeOf_live {f p : Addr} : ∀ {st : List Live}, modeOf f st = .redirect p → ∃ v ∈ st, v.f = f ∧ v.p = p
  | [], h => by cases h
  | v :: st, h => by
    unfold modeOf at h
    by_cases hv : v.f = f
    · rw [if_pos hv] at h
      cases h
      exact ⟨v, List.mem_cons_self .., hv, rfl⟩
    · rw [if_neg hv] at h
      obtain ⟨u, hu, h⟩ := modeOf_live h
      exact ⟨u, List.mem_cons_of_mem _ hu, h⟩

theorem Up.good {cs : List Cmd} {m : Mem} {mp : Addr → Bool} {st : List Live} {md : Addr → Mode} (h : Up cs m mp st)
    (hm : Mid md st) : Good cs m mp md := by
  intro f p hfp
  rcases hm f with h1 | h1
  · rw [h1] at hfp; cases hfp
  · rw [hfp] at h1
    obtain ⟨v, hv, rfl, rfl⟩ := modeOf_live h1.symm
    obtain ⟨img, keep, a, b, -, d⟩ := h v hv
    exact ⟨v.start, img, v.len, keep, a, b, d⟩

theorem within_of_span {a x : Addr} {n : Nat} (h : x ∈ span a n) : Within a n x := by
  obtain ⟨i, hi, rfl⟩ := List.mem_map.1 h
  have := List.mem_range.1 hi
  unfold Within
  refine Nat.lt_of_le_of_lt ?_ this
  rw [show a + BitVec.ofNat 64 i - a = BitVec.ofNat 64 i by bv_omega, BitVec.toNat_ofNat]
  exact Nat.mod_le ..

theorem Up.congr {cs : List Cmd} {m m' : Mem} {mp mp' : Addr → Bool} {st : List Live} (h : Up cs m mp st)
    (hm : ∀ v ∈ st, ∀ x, Within v.start v.len x → m' x = m x ∧ (mp x = true → mp' x = true)) : Up cs m' mp' st := by
  intro v hv
  obtain ⟨img, keep, a, b, c, d⟩ := h v hv
  refine ⟨img, keep, a, ?_, c, fun x hx => (hm v hv x hx).2 (d x hx)⟩
  refine Eq.trans ?_ b
  refine read_congr _ fun x hx => (hm v hv x ?_).1
  exact Nat.lt_of_lt_of_le (within_of_span hx) c

theorem whole_stores {cs : List Cmd} {mp : Addr → Bool} {md : Addr → Mode} {st : List Live} (hmid : Mid md st) (l : List Act)
    (sts : List (Addr × Byte)) : ∀ m, Up cs m mp st → (∀ e ∈ sts, ∀ v ∈ st, ¬ Within v.start v.len e.1) →
    (Up cs (sts.foldl (fun m s => poke m s.1 s.2) m) mp st → Whole cs (sts.foldl (fun m s => poke m s.1 s.2) m) mp md l) →
    Whole cs m mp md (sts.map (fun e => Act.store e.1 e.2) ++ l) := by
  induction sts with
  | nil => intro m hu _ h; exact h hu
  | cons e sts ih =>
    intro m hu ho h
    refine ⟨hu.good hmid, ih _ (hu.congr fun v hv x hx => ⟨?_, id⟩) (fun x hx => ho x (List.mem_cons_of_mem _ hx)) h⟩
    unfold poke
    rw [if_neg]
    rintro rfl
    exact ho e (List.mem_cons_self ..) v hv hx

theorem whole_copy {cs : List Cmd} {mp : Addr → Bool} {md : Addr → Mode} {st : List Live} (hmid : Mid md st) (l : List Act)
    (m : Mem) (a : Addr) (bs : List Byte) (hb : bs.length ≤ 2 ^ 64) (hu : Up cs m mp st)
    (ho : ∀ v ∈ st, ∀ x, Within a bs.length x → ¬ Within v.start v.len x)
    (h : Up cs (m.write a bs) mp st → Whole cs (m.write a bs) mp md l) :
    Whole cs m mp md (copyTo a bs ++ l) := by
  refine whole_stores hmid l _ m hu (fun e he v hv => ho v hv _ (within_of_span (stores_in he))) ?_
  rw [pokes_write_all a bs hb]
  exact h

theorem whole_tool {F : List Addr} (cs0 : List Cmd) (o : Mem) (cs : List Cmd) : ∀ (st : List Live) (m : Mem) (mp : Addr → Bool) (md : Addr → Mode),
    (∀ c ∈ cs, c ∈ cs0) → (∀ c ∈ cs, c.Fits F) → Roomy F (st.map fun v => (v.start, v.len)) cs →
    (∀ v ∈ st, v.f ∈ F ∧ v.saved.length = 16 ∧ ∀ x, Within v.start v.len x → ¬ InWindow F x) →
    st.Pairwise (fun u v => ∀ x, Within u.start u.len x → ¬ Within v.start v.len x) →
    Up cs0 m mp st → (∀ g, md g = modeOf g st) → Whole cs0 m mp md (toolActs arch o st cs) := by
  induction cs with
  | nil =>
    intro st m mp md _ _ _ _ _ hu hmd
    have : Good cs0 m mp md := hu.good fun g => Or.inr (hmd g)
    cases st <;> exact this
  | cons c cs ih =>
    intro st m mp md hin hfit hroom hst hpw hu hmd
    have hin' : ∀ c ∈ cs, c ∈ cs0 := fun x hx => hin x (List.mem_cons_of_mem _ hx)
    have hfit' : ∀ c ∈ cs, c.Fits F := fun x hx => hfit x (List.mem_cons_of_mem _ hx)
    have hmid : Mid md st := fun g => Or.inr (hmd g)
    cases c with
    | patch f p start img len keep =>
      obtain ⟨hl, hl2, hout, hap, hroom⟩ := hroom
      have hf : f ∈ F := (hfit _ (List.mem_cons_self ..)).1
      rw [toolActs, patchActs]
      simp only [List.append_assoc, List.cons_append, List.nil_append]
      have hu1 : Up cs0 m (fun x => mp x || decide ((x - start).toNat < len)) st :=
        hu.congr fun v hv x hx => ⟨rfl, fun h => by rw [h]; rfl⟩
      refine ⟨hu.good hmid, hu.good hmid, hu1.good hmid, hu1.good hmid, ?_⟩
      refine whole_copy hmid _ m start img (by omega) hu1 ?_ fun hu2 => ?_
      · intro v hv x hx
        exact hap (v.start, v.len) (List.mem_map.2 ⟨v, hv, rfl⟩) x (Nat.lt_of_lt_of_le hx hl)
      have hmid2 : Mid (fun g => if g = f then .changing else md g) st := by
        intro g
        by_cases hg : g = f
        · exact Or.inl (if_pos hg)
        · exact Or.inr ((if_neg hg).trans (hmd g))
      refine ⟨hu2.good hmid, hu2.good hmid, ?_⟩
      -- the new patch is complete before its entry is written, and stays so
      let v : Live := ⟨f, p, start, len, keep, (under arch o st).read f 16⟩
      have hu3 : Up cs0 (m.write start img) (fun x => mp x || decide ((x - start).toNat < len)) (v :: st) := by
        intro u hu
        rcases List.mem_cons.1 hu with rfl | hu
        · exact ⟨img, keep, hin _ (List.mem_cons_self ..), Mem.read_write_self _ _ _ (by omega), hl, fun x hx => by
            show (mp x || decide ((x - start).toNat < len)) = true
            rw [decide_eq_true (show (x - start).toNat < len from hx), Bool.or_true]⟩
        · exact hu2 u hu
      have hwin : ∀ u ∈ v :: st, ∀ x, Within f (jmpEntry arch p).length x → ¬ Within u.start u.len x := by
        intro u hu x hx hw
        rw [jmpEntry_length] at hx
        have hx : InWindow F x := ⟨f, hf, mem_window_iff.2 hx⟩
        rcases List.mem_cons.1 hu with rfl | hu
        · exact hout x hw hx
        · exact (hst u hu).2.2 x hw hx
      have hmid3 : Mid (fun g => if g = f then .changing else md g) (v :: st) := by
        intro g
        by_cases hg : g = f
        · exact Or.inl (if_pos hg)
        · refine Or.inr ((if_neg hg).trans ((hmd g).trans ?_))
          rw [modeOf, if_neg fun h => hg h.symm]
      refine whole_copy hmid3 _ _ f _ (by rw [jmpEntry_length]; omega) hu3 hwin fun hu4 => ?_
      refine ⟨hu4.good hmid3, ?_⟩
      have hmd5 : ∀ g, (if g = f then Mode.redirect p else if g = f then .changing else md g) = modeOf g (v :: st) := by
        intro g
        rw [modeOf]
        by_cases hg : g = f
        · rw [if_pos hg, if_pos hg.symm]
        · rw [if_neg hg, if_neg hg, if_neg fun h => hg h.symm]
          exact hmd g
      refine ⟨hu4.good fun g => Or.inr (hmd5 g), ?_⟩
      refine ih (v :: st) _ _ _ hin' hfit' hroom ?_ ?_ hu4 hmd5
      · intro u hu
        rcases List.mem_cons.1 hu with rfl | hu
        · exact ⟨hf, Mem.read_length .., hout⟩
        · exact hst u hu
      · exact List.pairwise_cons.2 ⟨fun u hu x hx => hap (u.start, u.len) (List.mem_map.2 ⟨u, hu, rfl⟩) x hx, hpw⟩
    | unpatch =>
      cases st with
      | nil => exact ih [] m mp md hin' hfit' hroom hst hpw hu hmd
      | cons v st =>
        obtain ⟨hf, hlen, hout⟩ := hst v (List.mem_cons_self ..)
        obtain ⟨hpw1, hpw2⟩ := List.pairwise_cons.1 hpw
        rw [toolActs, unpatchActs]
        simp only [List.append_assoc, List.cons_append, List.nil_append]
        have hmid2 : Mid (fun g => if g = v.f then .changing else md g) (v :: st) := by
          intro g
          by_cases hg : g = v.f
          · exact Or.inl (if_pos hg)
          · exact Or.inr ((if_neg hg).trans (hmd g))
        refine ⟨hu.good hmid, hu.good hmid, hu.good hmid, ?_⟩
        refine whole_copy hmid2 _ m v.f v.saved (by omega) hu ?_ fun hu2 => ?_
        · intro u hu x hx hw
          rw [hlen] at hx
          exact (hst u hu).2.2 x hw ⟨v.f, hf, mem_window_iff.2 hx⟩
        have hmd3 : ∀ g, (if g = v.f then modeOf v.f st else if g = v.f then .changing else md g) = modeOf g st := by
          intro g
          by_cases hg : g = v.f
          · rw [if_pos hg, hg]
          · rw [if_neg hg, if_neg hg, hmd g, modeOf, if_neg fun h => hg h.symm]
        have hu3 : Up cs0 (m.write v.f v.saved) mp st := fun u hu => hu2 u (List.mem_cons_of_mem _ hu)
        have hu4 : Up cs0 (m.write v.f v.saved) (fun x => mp x && !decide ((x - v.start).toNat < v.len)) st := by
          refine hu3.congr fun u hu x hx => ⟨rfl, fun h => ?_⟩
          show (mp x && !decide ((x - v.start).toNat < v.len)) = true
          rw [h, decide_eq_false (p := (x - v.start).toNat < v.len) (fun hw => hpw1 u hu x hw hx)]
          rfl
        refine ⟨hu2.good hmid2, hu3.good fun g => Or.inr (hmd3 g), hu4.good fun g => Or.inr (hmd3 g), ?_⟩
        exact ih st _ _ _ hin' hfit' hroom (fun u hu => hst u (List.mem_cons_of_mem _ hu)) hpw2 hu4 hmd3

theorem run_mapped (i : Nat) (p q : Proc I) (h : p.run i = some q) : q.mapped = p.mapped := by
  unfold Proc.run at h
  by_cases hs : p.stopped i = true
  · rw [if_pos hs] at h; obtain rfl := Option.some.inj h; rfl
  rw [if_neg hs] at h
  by_cases hm : (I.reads p.mem (p.regs i)).all p.mapped = false
  · rw [if_pos hm] at h; cases h
  rw [if_neg hm] at h
  cases he : I.step p.mem (p.regs i) with
  | none => rw [he] at h; cases h
  | some e =>
    rw [he] at h
    dsimp only at h
    by_cases hd : e.2.all (fun s => p.mapped s.1) = false
    · rw [if_pos hd] at h; cases h
    rw [if_neg hd] at h
    obtain rfl := Option.some.inj h
    rfl

theorem ideal_run_mapped (R : Redirect I arch) (F : List Addr) (i : Nat) (s t : Ideal I) (h : s.run R F i = some t) :
    t.proc.mapped = s.proc.mapped ∧ t.modes = s.modes := by
  unfold Ideal.run at h
  by_cases h1 : s.proc.stopped i = true
  · rw [if_pos h1] at h; obtain rfl := Option.some.inj h; exact ⟨rfl, rfl⟩
  rw [if_neg h1] at h
  cases htk : taken R F s (s.proc.regs i) with
  | none =>
    rw [htk] at h
    dsimp only at h
    cases hp : s.proc.run i with
    | none => rw [hp] at h; cases h
    | some p' =>
      rw [hp] at h
      obtain rfl := Option.some.inj h
      exact ⟨run_mapped i _ _ hp, rfl⟩
  | some x =>
    rw [htk] at h
    dsimp only at h
    by_cases h2 : (window x.1).all s.proc.mapped = false
    · rw [if_pos h2] at h; cases h
    · rw [if_neg h2] at h; obtain rfl := Option.some.inj h; exact ⟨rfl, rfl⟩

theorem Good.congr {cs : List Cmd} {m m' : Mem} {mp : Addr → Bool} {md : Addr → Mode} (h : Good cs m mp md)
    (hl : ∀ f p start img len keep, Cmd.patch f p start img len keep ∈ cs → img.length ≤ len)
    (hm : ∀ x, Owned cs x → m' x = m x) : Good cs m' mp md := by
  intro f p hfp
  obtain ⟨start, img, len, keep, a, b, c⟩ := h f p hfp
  refine ⟨start, img, len, keep, a, ?_, c⟩
  refine Eq.trans ?_ b
  exact read_congr _ fun x hx => hm x ⟨f, p, start, img, len, keep, a, Nat.lt_of_lt_of_le (within_of_span hx) (hl _ _ _ _ _ _ a)⟩

theorem whole_acts (R : Redirect I arch) (F : List Addr) (cs : List Cmd)
    (hl : ∀ f p start img len keep, Cmd.patch f p start img len keep ∈ cs → img.length ≤ len)
    (hw : ∀ x, Owned cs x → ¬ InWindow F x) (l : List Act) : ∀ (s t : Ideal I) (m : Mem),
    (∀ x, Owned cs x → s.proc.mem x = m x) → Whole cs m s.proc.mapped s.modes (l.filter Act.isTool) →
    QuietRun R F cs s l → s.acts R F l = some t → Good cs t.proc.mem t.proc.mapped t.modes := by
  induction l with
  | nil =>
    intro s t m hm h _ ht
    obtain rfl := Option.some.inj ht
    exact Good.congr h hl hm
  | cons a l ih =>
    intro s t m hm h hq ht
    rw [Ideal.acts] at ht
    cases hs : s.act R F a with
    | none => rw [hs] at ht; cases ht
    | some s' =>
      rw [hs] at ht
      obtain ⟨hq1, hq2⟩ := hq s' hs
      cases a with
      | run i =>
        rw [List.filter_cons_of_neg (by simp [Act.isTool])] at h
        obtain ⟨e1, e2⟩ := ideal_run_mapped R F i s s' hs
        refine ih s' t m (fun x hx => (hq1 x hx).trans (hm x hx)) ?_ hq2 ht
        rw [e1, e2]
        exact h
      | store x b =>
        rw [List.filter_cons_of_pos rfl] at h
        unfold Ideal.act at hs
        dsimp only at hs
        by_cases hx : InWindow F x
        · rw [if_pos hx] at hs
          obtain rfl := Option.some.inj hs
          refine ih s t (poke m x b) (fun y hy => ?_) h.2 hq2 ht
          rw [poke, if_neg (by rintro rfl; exact hw _ hy hx)]
          exact hm y hy
        · rw [if_neg hx] at hs
          obtain rfl := Option.some.inj hs
          refine ih _ t (poke m x b) ?_ ?_ hq2 ht
          case refine_2 => exact h.2
          intro y hy
          show poke s.proc.mem x b y = _
          unfold poke
          by_cases e : y = x
          · rw [if_pos e, if_pos e]
          · rw [if_neg e, if_neg e]; exact hm y hy
      | look x bs =>
        rw [List.filter_cons_of_pos rfl] at h
        have : s' = s := by
          unfold Ideal.act at hs
          dsimp only at hs
          by_cases h1 : x ∈ F
          · rw [if_pos h1] at hs; exact (Option.some.inj hs).symm
          · rw [if_neg h1] at hs
            by_cases h2 : s.proc.mem.read x bs.length = bs
            · rw [if_pos h2] at hs; exact (Option.some.inj hs).symm
            · rw [if_neg h2] at hs; cases hs
        subst this
        exact ih s' t m hm h.2 hq2 ht
      | mark f k =>
        rw [List.filter_cons_of_pos rfl] at h
        obtain rfl := Option.some.inj hs
        refine ih _ t m ?_ ?_ hq2 ht
        · exact hm
        · exact h.2
      | attach i =>
        rw [List.filter_cons_of_pos rfl] at h
        obtain rfl := Option.some.inj hs
        refine ih _ t m ?_ ?_ hq2 ht
        · exact hm
        · exact h.2
      | detach i =>
        rw [List.filter_cons_of_pos rfl] at h
        obtain rfl := Option.some.inj hs
        refine ih _ t m ?_ ?_ hq2 ht
        · exact hm
        · exact h.2
      | map x n =>
        rw [List.filter_cons_of_pos rfl] at h
        obtain rfl := Option.some.inj hs
        refine ih _ t m ?_ ?_ hq2 ht
        · exact hm
        · exact h.2
      | unmap x n =>
        rw [List.filter_cons_of_pos rfl] at h
        obtain rfl := Option.some.inj hs
        refine ih _ t m ?_ ?_ hq2 ht
        · exact hm
        · exact h.2

theorem roomy_fits {F : List Addr} (cs : List Cmd) : ∀ rs, Roomy F rs cs →
    ∀ f p start img len keep, Cmd.patch f p start img len keep ∈ cs → img.length ≤ len ∧ ∀ x, Within start len x → ¬ InWindow F x := by
  induction cs with
  | nil => intro rs _ f p start img len keep h; cases h
  | cons c cs ih =>
    intro rs h f p start img len keep hin
    cases c with
    | patch f' p' start' img' len' keep' =>
      rcases List.mem_cons.1 hin with e | hin
      · cases e; exact ⟨h.1, h.2.2.1⟩
      · exact ih _ h.2.2.2.2 f p start img len keep hin
    | unpatch =>
      rcases List.mem_cons.1 hin with e | hin
      · cases e
      · cases rs with
        | nil => exact ih _ h f p start img len keep hin
        | cons r rs => exact ih _ h f p start img len keep hin

end Ulp.ThreadsHist
