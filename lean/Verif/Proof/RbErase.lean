/-
`____rb_erase_color` and `__rb_erase` on trees.
-/
import Verif.Proof.RbInsert
namespace Ulp.Rb
open Tree Comp

/-! The two mirrored branches as one function of the side. -/

def eraseCase1 (d : Bool) (s : St) (parent sibling : Nat) : Option (St × Nat) := do
  let sb ← get s sibling
  let tmp1 := sel d sb
  let s ← setCh (!d) s parent tmp1
  let s ← setCh d s sibling parent
  let s ← rbSetParentColor s tmp1 parent true
  let s ← rbRotateSetParents s parent sibling false
  return (s, tmp1)

def eraseCase3 (d : Bool) (s : St) (parent sibling tmp2 : Nat) : Option St := do
  let t2 ← get s tmp2
  let tmp1 := sel (!d) t2
  let s ← setCh d s sibling tmp1
  let s ← setCh (!d) s tmp2 sibling
  let s ← setCh (!d) s parent tmp2
  setParentBlackIf s tmp1 sibling

def eraseCase4 (d : Bool) (s : St) (parent sibling tmp1 : Nat) : Option St := do
  let sb ← get s sibling
  let tmp2 := sel d sb
  let s ← setCh (!d) s parent tmp2
  let s ← setCh d s sibling parent
  let s ← rbSetParentColor s tmp1 sibling true
  let s ← setParentIf s tmp2 parent
  rbRotateSetParents s parent sibling true

def eraseMain (d : Bool) (s : St) (parent sibling : Nat) : Option (St × Option (Nat × Nat)) := do
  let sb ← get s sibling
  let tmp1 := sel (!d) sb
  let red1 ← isRedNode s tmp1
  if !red1 then
    let tmp2 := sel d sb
    let red2 ← isRedNode s tmp2
    if !red2 then eraseCase2 s parent sibling
    else
      let s ← eraseCase3 d s parent sibling tmp2
      let s ← eraseCase4 d s parent tmp2 sibling
      return (s, none)
  else
    let s ← eraseCase4 d s parent sibling tmp1
    return (s, none)

theorem eraseCase1_false : eraseCase1 false = eraseCase1L := rfl
theorem eraseCase1_true : eraseCase1 true = eraseCase1R := rfl
theorem eraseMain_false : eraseMain false = eraseMainL := rfl
theorem eraseMain_true : eraseMain true = eraseMainR := rfl

/-! What `____rb_erase_color` does to the tree. -/

/-- The subtree on the side `d`. -/
def side (d : Bool) (l r : Tree) : Tree := if d then r else l

/-- Cases 2 to 4, at the parent `f`; `cont` is what follows when the loop goes
on. -/
def eraseMainF (f : Frame) (K : List Frame) (t : Tree) (cont : Tree → Option Tree) : Option Tree :=
  match f.sib with
  | leaf => none
  | node _ l si r =>
    if !(side (!f.d) l r).isRed then
      if !(side f.d l r).isRed then
        if f.c then cont (mk f.d true t f.i (node false l si r))
        else some (plug K (mk f.d true t f.i (node false l si r)))
      else
        match side f.d l r with
        | leaf => none
        | node _ al ai ar =>
          some (plug K (mk f.d f.c (mk f.d true t f.i (side f.d al ar)) ai
            (mk f.d true (blacken (side (!f.d) al ar)) si (side (!f.d) l r))))
    else some (plug K (mk f.d f.c (mk f.d true t f.i (side f.d l r)) si (blacken (side (!f.d) l r))))

def eraseFix : List Frame → Tree → Option Tree
  | [], t => some t
  | f :: K, t =>
    match f.sib with
    | leaf => none
    | node sc l si r =>
      if sc then eraseMainF f K t (eraseFix K)
      else
        match side f.d l r with
        | leaf => none
        | a => eraseMainF ⟨f.d, false, f.i, blacken a⟩ (⟨f.d, f.c, si, side (!f.d) l r⟩ :: K) t (fun _ => none)

theorem side_mk {d : Bool} {c : Bool} {a b : Tree} {i : Nat} {l r : Tree}
    (h : node c l i r = mk d c a i b) : side d l r = a ∧ side (!d) l r = b := by
  cases d <;> simp [mk] at h <;> simp [side, h]

theorem eraseCase4_ok {s0 s : St} {cs : List Comp} {K : List Frame} {d : Bool} {p si : Nat} {pc sc : Bool}
    {n x sp ap bp b0 : Nat} {A B : Tree} (hB : ptr B ≠ 0)
    (h : Holds s0 s (ctx K p :: cell p (nd d (cpar 0 K) pc n x) :: cell si (nd d sp sc (ptr A) b0) ::
      tree ap A :: tree bp B :: cs)) :
    ∃ s', eraseCase4 d s p si (ptr B) = some s' ∧
      Holds s0 s' (ctx K si :: cell p (nd d si true n (ptr A)) :: cell si (nd d (cpar 0 K) pc p b0) ::
        tree p A :: tree si (blacken B) :: cs) := by
  have hp0 := h.ne_zero 1 rfl
  have hpK : p ∉ idsC K := fun hm => h.disj (j := 0) (k := 1) (by omega) rfl rfl p (by simp [Comp.ids, hm])
    (by simp [Comp.ids])
  have hgs := h.get 2 rfl
  obtain ⟨s1, e1, h1⟩ := h.setFar 1 (ptr A) rfl
  obtain ⟨s2, e2, h2⟩ := h1.setNear 2 p rfl
  obtain ⟨s3, e3, h3⟩ := h2.treeSet 4 si true rfl hB
  obtain ⟨s3', e3', h3'⟩ := h3.treeParIf 3 p rfl
  have hgp := h3'.get 1 rfl
  obtain ⟨s4, e4, h4⟩ := h3'.setParCol 2 (cpar 0 K) pc rfl
  obtain ⟨s5, e5, h5⟩ := h4.setParCol 1 si true rfl
  obtain ⟨s6, e6, h6⟩ := h5.changeChild 0 si rfl hpK hp0
  refine ⟨s6, ?_, by rw [blacken_eq]; exact h6⟩
  simp [eraseCase4, hgs, e1, e2, e3, e3', rbRotateSetParents, hgp, e4, e5, e6]

theorem eraseCase1_ok {s0 s : St} {K : List Frame} {d pc sc : Bool} {p si : Nat} {a b t : Tree}
    (ha : ptr a ≠ 0) (h : Holds s0 s [ctx (⟨d, pc, p, mk d sc a si b⟩ :: K) (ptr t), tree p t]) :
    ∃ s', eraseCase1 d s p si = some (s', ptr a) ∧
      Holds s0 s' [ctx (⟨d, false, p, blacken a⟩ :: ⟨d, pc, si, b⟩ :: K) (ptr t), tree p t] := by
  have h1 : Holds s0 s [cell si (nd d p sc (ptr a) (ptr b)), tree si a, tree si b, ctx K p,
      cell p (nd d (cpar 0 K) pc (ptr t) si), tree p t] := by
    have := (h.unstep.front 2 rfl).untree
    rw [ptr_mk] at this
    exact this
  have hp0 := h1.ne_zero 4 rfl
  have hpK : p ∉ idsC K := fun hm => h1.disj (j := 3) (k := 4) (by omega) rfl rfl p (by simp [Comp.ids, hm])
    (by simp [Comp.ids])
  have hgs := h1.get 0 rfl
  obtain ⟨s1, e1, k1⟩ := h1.setFar 4 (ptr a) rfl
  obtain ⟨s2, e2, k2⟩ := k1.setNear 0 p rfl
  obtain ⟨s3, e3, k3⟩ := k2.treeSet 1 p true rfl ha
  have hgp := k3.get 4 rfl
  obtain ⟨s4, e4, k4⟩ := k3.setParCol 0 (cpar 0 K) pc rfl
  obtain ⟨s5, e5, k5⟩ := k4.setParCol 4 si false rfl
  obtain ⟨s6, e6, k6⟩ := k5.changeChild 3 si rfl hpK hp0
  refine ⟨s6, ?_, k6.refold ?_ ?_⟩
  · simp [eraseCase1, hgs, e1, e2, e3, rbRotateSetParents, hgp, e4, e5, e6]
  · intro x
    simp [Comp.ids, idsC, List.count_cons, List.count_append]
    omega
  · intro c hc
    simp only [List.mem_cons, List.not_mem_nil, or_false] at hc
    rcases hc with rfl | rfl
    · obtain ⟨hK, hroot⟩ := k6.at 3 rfl
      refine ⟨⟨hp0, ?_, ?_, ⟨k6.ne_zero 0 rfl, (k6.at 0 rfl).2, k6.at 2 rfl, hK⟩⟩, hroot⟩
      · rw [ptr_blacken]; exact (k6.at 4 rfl).2
      · rw [blacken_eq]; exact k6.at 1 rfl
    · exact k6.at 5 rfl

/-- Cases 2 to 4 refine `eraseMainF`. -/
theorem eraseMain_ok {s0 s : St} {K : List Frame} {f : Frame} {t T : Tree} {cont : Tree → Option Tree}
    (h : Holds s0 s [ctx (f :: K) (ptr t), tree f.i t]) (hT : eraseMainF f K t cont = some T) :
    ∃ s', (eraseMain f.d s f.i (ptr f.sib) = some (s', none) ∧ RepT s0 s' T) ∨
      (∃ t', f.c = true ∧ t' ≠ leaf ∧ ptr t' = f.i ∧ cont t' = some T ∧
        eraseMain f.d s f.i (ptr f.sib) =
          some (s', if cpar 0 K ≠ 0 then some (f.i, cpar 0 K) else none) ∧
        Holds s0 s' [ctx K f.i, tree (cpar 0 K) t']) := by
  obtain ⟨d, pc, p, sib⟩ := f
  cases sib with
  | leaf => simp [eraseMainF] at hT
  | node sc l si r =>
  obtain ⟨a, b, e⟩ := exists_mk d sc l si r
  obtain ⟨ha, hb⟩ := side_mk e
  simp only [eraseMainF, ha, hb] at hT
  have e' : node false l si r = mk d false a si b := by
    have h1 := congrArg (recolor false) e
    rw [recolor_mk] at h1
    exact h1
  rw [e'] at hT
  simp only [e] at h ⊢
  have h1 : Holds s0 s [cell si (nd d p sc (ptr a) (ptr b)), tree si a, tree si b, ctx K p,
      cell p (nd d (cpar 0 K) pc (ptr t) si), tree p t] := by
    have := (h.unstep.front 2 rfl).untree
    rw [ptr_mk] at this
    exact this
  have hgs := h1.get 0 rfl
  have hra := h1.isRed 1 rfl
  have hrb := h1.isRed 2 rfl
  have hsi0 := h1.ne_zero 0 rfl
  have hp0 := h1.ne_zero 4 rfl
  cases hb' : b.isRed
  · cases ha' : a.isRed
    · -- case 2
      simp only [hb', ha', Bool.not_false, if_true] at hT
      obtain ⟨s1, e1, k1⟩ := h1.setParCol 0 p false rfl
      have hgp := k1.get 4 rfl
      have hmain : eraseMain d s p (ptr (mk d sc a si b)) = eraseCase2 s p si := by
        simp [eraseMain, hgs, hra, hrb, ha', hb']
      cases pc
      · simp only [Bool.false_eq_true, if_false, Option.some.injEq] at hT
        obtain ⟨s2, e2, k2⟩ := k1.setBlack 4 rfl
        refine ⟨s2, Or.inl ⟨?_, ?_⟩⟩
        · rw [hmain]
          simp [eraseCase2, e1, hgp, e2]
        · rw [← hT, RepT_plug, ptr_mk]
          refine k2.refold ?_ ?_
          · intro x
            simp [Comp.ids, List.count_cons, List.count_append, count_ids_mk]
            omega
          · intro c hc
            simp only [List.mem_cons, List.not_mem_nil, or_false] at hc
            rcases hc with rfl | rfl
            · exact k2.at 3 rfl
            · refine Rep_mk.2 ⟨hp0, ?_, k2.at 5 rfl, Rep_mk.2 ⟨hsi0, (k2.at 0 rfl).2, k2.at 1 rfl, k2.at 2 rfl⟩⟩
              rw [ptr_mk]; exact (k2.at 4 rfl).2
      · simp only [if_true] at hT
        refine ⟨s1, Or.inr ⟨_, rfl, by cases d <;> simp [mk], ptr_mk .., hT, ?_, ?_⟩⟩
        · rw [hmain]
          by_cases hc0 : cpar 0 K = 0 <;> simp [eraseCase2, e1, hgp, hc0]
        · refine k1.refold ?_ ?_
          · intro x
            simp [Comp.ids, List.count_cons, List.count_append, count_ids_mk]
            omega
          · intro c hc
            simp only [List.mem_cons, List.not_mem_nil, or_false] at hc
            rcases hc with rfl | rfl
            · exact k1.at 3 rfl
            · refine Rep_mk.2 ⟨hp0, ?_, k1.at 5 rfl, Rep_mk.2 ⟨hsi0, (k1.at 0 rfl).2, k1.at 1 rfl, k1.at 2 rfl⟩⟩
              rw [ptr_mk]; exact (k1.at 4 rfl).2
    · -- case 3, then case 4
      cases a with
      | leaf => cases ha'
      | node ac al ai ar =>
      obtain ⟨a1, a2, ea⟩ := exists_mk d ac al ai ar
      obtain ⟨ha1, ha2⟩ := side_mk ea
      simp only [hb', ha', Bool.not_false, Bool.not_true, if_true, Bool.false_eq_true, if_false, ha1, ha2,
        Option.some.injEq] at hT
      rw [ea] at h1 hra hgs ha'
      rw [ptr_mk] at h1 hra hgs
      have h2 : Holds s0 s [cell ai (nd d si ac (ptr a1) (ptr a2)), tree ai a1, tree ai a2,
          cell si (nd d p sc ai (ptr b)), tree si b, ctx K p,
          cell p (nd d (cpar 0 K) pc (ptr t) si), tree p t] := (h1.front 1 rfl).untree
      have hga := h2.get 0 rfl
      obtain ⟨s1, e1, k1⟩ := h2.setNear 3 (ptr a2) rfl
      obtain ⟨s2, e2, k2⟩ := k1.setFar 0 si rfl
      obtain ⟨s3, e3, k3⟩ := k2.setFar 6 ai rfl
      obtain ⟨s4, e4, k4⟩ := k3.treeBlackIf 2 si rfl
      have k5 : Holds s0 s4 [ctx K p, cell p (nd d (cpar 0 K) pc (ptr t) ai), cell ai (nd d si ac (ptr a1) si),
          tree ai a1, tree p (mk d sc (blacken a2) si b), tree p t] := by
        refine k4.refold ?_ ?_
        · intro x
          simp [Comp.ids, List.count_cons, List.count_append, count_ids_mk]
          omega
        · intro c hc
          simp only [List.mem_cons, List.not_mem_nil, or_false] at hc
          rcases hc with rfl | rfl | rfl | rfl | rfl | rfl
          · exact k4.at 5 rfl
          · exact k4.at 6 rfl
          · exact k4.at 0 rfl
          · exact k4.at 1 rfl
          · refine Rep_mk.2 ⟨hsi0, ?_, k4.at 2 rfl, k4.at 4 rfl⟩
            rw [ptr_blacken]; exact (k4.at 3 rfl).2
          · exact k4.at 7 rfl
      obtain ⟨s5, e5, k6⟩ := eraseCase4_ok (by rw [ptr_mk]; exact hsi0) k5
      rw [ptr_mk] at e5
      refine ⟨s5, Or.inl ⟨?_, ?_⟩⟩
      · simp [eraseMain, hgs, hrb, hb', hra, ha', eraseCase3, hga, e1, e2, e3, e4, e5]
      · rw [← hT, RepT_plug, ptr_mk]
        rw [blacken_mk] at k6
        refine k6.refold ?_ ?_
        · intro x
          simp [Comp.ids, List.count_cons, List.count_append, count_ids_mk]
          omega
        · intro c hc
          simp only [List.mem_cons, List.not_mem_nil, or_false] at hc
          rcases hc with rfl | rfl
          · exact k6.at 0 rfl
          · refine Rep_mk.2 ⟨k6.ne_zero 2 rfl, ?_, Rep_mk.2 ⟨hp0, (k6.at 1 rfl).2, k6.at 5 rfl, k6.at 3 rfl⟩,
              k6.at 4 rfl⟩
            rw [ptr_mk, ptr_mk]; exact (k6.at 2 rfl).2
  · -- case 4
    simp only [hb', Bool.not_true, Bool.false_eq_true, if_false, Option.some.injEq] at hT
    have hb0 : ptr b ≠ 0 := by
      intro e
      rw [(Rep.ptr_zero (h1.at 2 rfl : Rep s.m si b)).1 e] at hb'
      cases hb'
    have h2 : Holds s0 s [ctx K p, cell p (nd d (cpar 0 K) pc (ptr t) si), cell si (nd d p sc (ptr a) (ptr b)),
        tree si a, tree si b, tree p t] :=
      h1.append_mono (by intro x; simp [Comp.ids, List.count_cons, List.count_append]; omega) (by simp)
    obtain ⟨s1, e1, k1⟩ := eraseCase4_ok hb0 h2
    refine ⟨s1, Or.inl ⟨?_, ?_⟩⟩
    · simp [eraseMain, hgs, hrb, hb', e1]
    · rw [← hT, RepT_plug, ptr_mk]
      refine k1.refold ?_ ?_
      · intro x
        simp [Comp.ids, List.count_cons, List.count_append, count_ids_mk]
        omega
      · intro c hc
        simp only [List.mem_cons, List.not_mem_nil, or_false] at hc
        rcases hc with rfl | rfl
        · exact k1.at 0 rfl
        · refine Rep_mk.2 ⟨hsi0, ?_, Rep_mk.2 ⟨hp0, (k1.at 1 rfl).2, k1.at 5 rfl, k1.at 3 rfl⟩, k1.at 4 rfl⟩
          rw [ptr_mk, ptr_blacken]; exact (k1.at 2 rfl).2

theorem eraseStep_eq {s0 s : St} {K : List Frame} {f : Frame} {t : Tree} (hs : f.sib ≠ leaf)
    (h : Holds s0 s [ctx (f :: K) (ptr t), tree f.i t]) :
    eraseStep s (ptr t) f.i = if !f.sib.isRed then eraseMain f.d s f.i (ptr f.sib)
      else (eraseCase1 f.d s f.i (ptr f.sib)).bind fun r => eraseMain f.d r.1 f.i r.2 := by
  have h1 : Holds s0 s [ctx K f.i, cell f.i (nd f.d (cpar 0 K) f.c (ptr t) (ptr f.sib)), tree f.i f.sib,
      tree f.i t] := h.unstep
  have hg := h1.get 1 rfl
  have hrep : Rep s.m f.i f.sib := h1.at 2 rfl
  have hs0 : ptr f.sib ≠ 0 := fun e => hs (hrep.ptr_zero.1 e)
  have hne : ptr t ≠ ptr f.sib := by
    intro e
    exact h1.disj (j := 2) (k := 3) (by omega) rfl rfl _ (mem_ids_ptr hs0)
      (by rw [← e]; exact mem_ids_ptr (by rw [e]; exact hs0))
  have hgs : ∃ x, get s (ptr f.sib) = some x ∧ f.sib.isRed = !x.black := by
    cases hsb : f.sib with
    | leaf => exact absurd hsb hs
    | node c l i r =>
      rw [hsb] at hrep
      exact ⟨_, by rw [ptr, get, if_neg hrep.1, hrep.2.1], rfl⟩
  obtain ⟨x, hx, hr⟩ := hgs
  rw [hr, eraseStep, hg]
  simp only [Option.bind_eq_bind, Option.bind_some]
  cases hd : f.d
  · rw [eraseMain_false, eraseCase1_false]
    cases hxb : x.black <;> simp [nd, hne, hx, hxb]
  · rw [eraseMain_true, eraseCase1_true]
    cases hxb : x.black <;> simp [nd, hx, hxb]

theorem cpar_zero {m : Nat → Option RbNode} {K : List Frame} {p : Nat} (h : CRep m 0 K p) :
    cpar 0 K = 0 ↔ K = [] := by
  cases K with
  | nil => simp [cpar]
  | cons f K => simp [cpar, h.1]

/-- `____rb_erase_color` refines `eraseFix`. -/
theorem eraseLoop_ok {s0 : St} : ∀ (K : List Frame) (t T : Tree) (s : St), K ≠ [] →
    Holds s0 s [ctx K (ptr t), tree (cpar 0 K) t] → eraseFix K t = some T →
    ∃ s', eraseLoop s (ptr t) (cpar 0 K) = some s' ∧ RepT s0 s' T
  | [], t, T, s, hK, _, _ => absurd rfl hK
  | f :: K, t, T, s, _, h, hT => by
    rw [cpar] at h ⊢
    rw [eraseFix] at hT
    cases hsib : f.sib with
    | leaf => rw [hsib] at hT; simp at hT
    | node sc l si r =>
    rw [hsib] at hT
    have hstep := eraseStep_eq (by rw [hsib]; simp) h
    cases sc
    · -- red sibling
      simp only [Bool.false_eq_true, if_false] at hT
      obtain ⟨a, b, e⟩ := exists_mk f.d false l si r
      obtain ⟨ha, hb⟩ := side_mk e
      rw [ha, hb] at hT
      cases a with
      | leaf => simp at hT
      | node ac al ai ar =>
      simp only at hT
      have hf : f = ⟨f.d, f.c, f.i, mk f.d false (node ac al ai ar) si b⟩ := by rw [← e, ← hsib]
      have ha0 : ptr (node ac al ai ar) ≠ 0 := by
        have h1 := h.unstep
        have hrep : Rep s.m f.i f.sib := h1.at 2 rfl
        rw [hsib, e] at hrep
        exact (Rep_mk.1 hrep).2.2.1.1
      rw [hf] at h
      obtain ⟨s1, e1, k1⟩ := eraseCase1_ok ha0 h
      obtain ⟨s2, hres⟩ := eraseMain_ok k1 hT
      have hres' : eraseMain f.d s1 f.i (ptr (node ac al ai ar)) = some (s2, none) ∧ RepT s0 s2 T := by
        rcases hres with h | ⟨t', _, _, _, hc, _⟩
        · rw [ptr_blacken] at h
          exact h
        · cases hc
      refine ⟨s2, ?_, hres'.2⟩
      have hsi : ptr f.sib = si := by rw [hsib]; rfl
      have hred : f.sib.isRed = true := by rw [hsib]; rfl
      rw [eraseLoop, hstep, hred, hsi, e1]
      simp [hres'.1]
    · simp only [if_true] at hT
      have hred : f.sib.isRed = false := by rw [hsib]; rfl
      obtain ⟨s1, hres⟩ := eraseMain_ok h hT
      rw [hred] at hstep
      simp only [Bool.not_false, if_true] at hstep
      rcases hres with ⟨e, hr⟩ | ⟨t', _, ht', hp, hc, e, hr⟩
      · refine ⟨s1, ?_, hr⟩
        rw [eraseLoop, hstep, e]
        rfl
      · by_cases hK : K = []
        · subst hK
          rw [eraseFix] at hc
          cases hc
          refine ⟨s1, ?_, ?_⟩
          · rw [eraseLoop, hstep, e]
            rfl
          · rw [RepT, hp]
            exact hr
        · have hc0 : cpar 0 K ≠ 0 := fun e => hK ((cpar_zero (hr.at 0 rfl).1).1 e)
          rw [← hp] at hr
          obtain ⟨s2, e2, hr2⟩ := eraseLoop_ok K t' T s1 hK hr hc
          refine ⟨s2, ?_, hr2⟩
          rw [eraseLoop, hstep, e, if_pos hc0, ← hp]
          exact e2

end Ulp.Rb
