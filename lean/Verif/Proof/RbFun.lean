/-
Order and balance of the trees that insertion and removal produce.
-/
import Verif.Proof.RbErase
namespace Ulp.Rb
open Tree

/-! The order of the nodes -/

theorem ids_mk (d c : Bool) (a : Tree) (i : Nat) (b : Tree) :
    ids (mk d c a i b) = if d then ids b ++ i :: ids a else ids a ++ i :: ids b := by
  cases d <;> rfl

theorem ids_plug_congr : ∀ {K : List Frame} {t t' : Tree}, ids t = ids t' → ids (plug K t) = ids (plug K t')
  | [], _, _, h => h
  | f :: K, t, t', h => ids_plug_congr (K := K) (by rw [ids_mk, ids_mk, h])

theorem ids_insRot {g f : Frame} {t T : Tree} (h : insRot g f t = some T) :
    ids T = ids (mk g.d g.c (mk f.d f.c t f.i f.sib) g.i g.sib) := by
  unfold insRot at h
  by_cases hd : f.d = g.d
  · rw [if_pos hd] at h
    cases h
    simp only [ids_mk, hd, ids_blacken]
    cases g.d <;> simp
  · rw [if_neg hd] at h
    have hd' : f.d = !g.d := by
      revert hd
      cases f.d <;> cases g.d <;> simp
    cases t with
    | leaf => simp at h
    | node c l n r =>
      simp only at h
      cases hg : g.d
      · rw [hg] at h hd'
        simp only [Bool.false_eq_true, if_false, Option.some.injEq] at h
        rw [← h]
        simp [ids_mk, hd', ids]
      · rw [hg] at h hd'
        simp only [if_true, Option.some.injEq] at h
        rw [← h]
        simp [ids_mk, hd', ids]

theorem ids_insFix : ∀ {K : List Frame} {t T : Tree}, insFix K t = some T → ids T = ids (plug K t)
  | [], t, T, h => by
    rw [insFix] at h
    cases h
    simp [plug]
  | [f], t, T, h => by
    rw [insFix] at h
    split at h
    · cases h; rfl
    · cases h
  | f :: g :: K, t, T, h => by
    rw [insFix] at h
    split at h
    · cases h; rfl
    · split at h
      · rw [ids_insFix h, plug, plug]
        refine ids_plug_congr ?_
        simp [ids_mk]
      · rw [Option.map_eq_some_iff] at h
        obtain ⟨T', hT', rfl⟩ := h
        rw [plug, plug]
        exact ids_plug_congr (ids_insRot hT')

theorem ids_eraseMainF {f : Frame} {K : List Frame} {t T : Tree} {cont : Tree → Option Tree}
    (hc : ∀ t' T, cont t' = some T → ids T = ids (plug K t')) (h : eraseMainF f K t cont = some T) :
    ids T = ids (plug (f :: K) t) := by
  rw [plug]
  unfold eraseMainF at h
  split at h
  · cases h
  · rename_i sc l si r hs
    split at h
    · split at h
      · split at h
        · rw [hc _ _ h]
          refine ids_plug_congr ?_
          simp [ids_mk, hs, ids]
        · cases h
          refine ids_plug_congr ?_
          simp [ids_mk, hs, ids]
      · split at h
        · cases h
        · rename_i ac al ai ar ha
          cases h
          refine ids_plug_congr ?_
          cases hd : f.d <;> simp [hd, side] at ha <;> simp [ids_mk, hs, ids, side, ha]
    · cases h
      refine ids_plug_congr ?_
      cases hd : f.d <;> simp [ids_mk, hs, ids, side]

theorem ids_eraseFix : ∀ {K : List Frame} {t T : Tree}, eraseFix K t = some T → ids T = ids (plug K t)
  | [], t, T, h => by
    rw [eraseFix] at h
    cases h
    rfl
  | f :: K, t, T, h => by
    rw [eraseFix] at h
    split at h
    · cases h
    · rename_i sc l si r hs
      split at h
      · exact ids_eraseMainF (fun t' T h => ids_eraseFix h) h
      · split at h
        · cases h
        · rename_i a ha
          rw [ids_eraseMainF (fun t' T h => by cases h) h]
          simp only [plug]
          refine ids_plug_congr ?_
          cases hd : f.d <;> simp [ids_mk, hs, ids, side]

/-! Balance -/

theorem BH_mk_true {d : Bool} {a b : Tree} {i n : Nat} :
    BH (mk d true a i b) n ↔ ∃ m, n = m + 1 ∧ BH a m ∧ BH b m := by
  cases d
  · simp [mk, BH]
  · simp only [mk, BH, if_true]
    exact ⟨fun ⟨m, e, x, y⟩ => ⟨m, e, y, x⟩, fun ⟨m, e, x, y⟩ => ⟨m, e, y, x⟩⟩

theorem BH_mk_false {d : Bool} {a b : Tree} {i n : Nat} :
    BH (mk d false a i b) n ↔ BH a n ∧ BH b n := by
  cases d
  · simp [mk, BH]
  · simp only [mk, BH, if_true]
    exact And.comm

theorem NRR_mk {d c : Bool} {a b : Tree} {i : Nat} :
    NRR (mk d c a i b) ↔ NRR a ∧ NRR b ∧ (c = false → a.isRed = false ∧ b.isRed = false) := by
  cases d
  · simp [mk, NRR]
  · simp only [mk, NRR, if_true]
    exact ⟨fun ⟨x, y, z⟩ => ⟨y, x, fun h => (z h).symm⟩, fun ⟨x, y, z⟩ => ⟨y, x, fun h => (z h).symm⟩⟩

theorem blacken_of_not_red {t : Tree} (h : t.isRed = false) : blacken t = t := by
  cases t with
  | leaf => rfl
  | node c l i r => cases c <;> simp [isRed] at h; rfl

theorem isRed_blacken (t : Tree) : (blacken t).isRed = false := by cases t <;> rfl

theorem NRR_blacken {t : Tree} (h : NRR t) : NRR (blacken t) := by
  cases t with
  | leaf => exact h
  | node c l i r => exact ⟨h.1, h.2.1, fun h => by cases h⟩

theorem BH_blacken_red {t : Tree} {n : Nat} (hr : t.isRed = true) (h : BH t n) : BH (blacken t) (n + 1) := by
  cases t with
  | leaf => cases hr
  | node c l i r =>
    cases c
    · exact ⟨n, rfl, h.1, h.2⟩
    · cases hr

theorem BH_blacken {t : Tree} {n : Nat} (h : BH t n) : ∃ m, BH (blacken t) m := by
  cases hr : t.isRed
  · exact ⟨n, by rw [blacken_of_not_red hr]; exact h⟩
  · exact ⟨n + 1, BH_blacken_red hr h⟩

/-- The black nodes below the hole make every path equal. -/
def CBH : List Frame → Nat → Prop
  | [], _ => True
  | f :: K, n => BH f.sib n ∧ CBH K (if f.c then n + 1 else n)

/-- The frame above is black. -/
def headBlack : List Frame → Prop
  | [] => False
  | f :: _ => f.c = true

/-- No red node on the path, or beside it, has a red child, and the root is
black. -/
def CNR : List Frame → Prop
  | [] => True
  | f :: K => NRR f.sib ∧ (f.c = false → f.sib.isRed = false ∧ headBlack K) ∧ CNR K

theorem RB_plug {K : List Frame} {t : Tree} : RB (plug K t) ↔
    CNR K ∧ NRR t ∧ (t.isRed = true → headBlack K) ∧ ∃ n, CBH K n ∧ BH t n := by
  induction K generalizing t with
  | nil =>
    simp only [plug, RB, CNR, CBH, headBlack, true_and]
    constructor
    · rintro ⟨h1, h2, n, h3⟩
      exact ⟨h2, by simp [h1], n, h3⟩
    · rintro ⟨h1, h2, n, h3⟩
      refine ⟨?_, h1, n, h3⟩
      cases h : t.isRed
      · rfl
      · exact (h2 h).elim
  | cons f K ih =>
    obtain ⟨d, c, i, sib⟩ := f
    rw [plug, ih]
    cases c
    · simp only [NRR_mk, isRed_mk, BH_mk_false, CNR, CBH, headBlack, Bool.not_false, true_implies,
        Bool.false_eq_true, if_false]
      constructor
      · rintro ⟨h1, ⟨h2, h3, h4, h5⟩, h6, n, h7, h8, h9⟩
        exact ⟨⟨h3, ⟨h5, h6⟩, h1⟩, h2, by simp [h4], n, ⟨h9, h7⟩, h8⟩
      · rintro ⟨⟨h3, ⟨h5, h6⟩, h1⟩, h2, h4, n, ⟨h9, h7⟩, h8⟩
        exact ⟨h1, ⟨h2, h3, by simpa using h4, h5⟩, h6, n, h7, h8, h9⟩
    · simp only [NRR_mk, isRed_mk, BH_mk_true, CNR, CBH, headBlack, Bool.not_true, Bool.false_eq_true,
        false_implies, if_true, reduceCtorEq, and_true, true_and, implies_true]
      constructor
      · rintro ⟨h1, ⟨h2, h3⟩, n, h4, m, rfl, h5, h6⟩
        exact ⟨⟨h3, h1⟩, h2, m, ⟨h6, h4⟩, h5⟩
      · rintro ⟨⟨h3, h1⟩, h2, m, ⟨h6, h4⟩, h5⟩
        exact ⟨h1, ⟨h2, h3⟩, m + 1, h4, m, rfl, h5, h6⟩

/-- Insertion keeps the rules. -/
theorem insFix_RB : ∀ (K : List Frame) (t : Tree) (n : Nat), CNR K → CBH K n → BH t n → NRR t →
    t.isRed = true → ∃ T, insFix K t = some T ∧ RB T
  | [], t, n, _, _, hb, hn, _ => ⟨blacken t, rfl, isRed_blacken t, NRR_blacken hn, BH_blacken hb⟩
  | [f], t, n, hc, hcb, hb, hn, hr => by
    cases hfc : f.c
    · exact (hc.2.1 hfc).2.elim
    · exact ⟨_, by rw [insFix, if_pos hfc], RB_plug.2 ⟨hc, hn, fun _ => hfc, n, hcb, hb⟩⟩
  | f :: g :: K, t, n, hc, hcb, hb, hn, hr => by
    cases hfc : f.c
    · obtain ⟨hfs, hgb⟩ := hc.2.1 hfc
      have hgc : g.c = true := hgb
      obtain ⟨hb1, hcb1⟩ := hcb
      simp only [hfc, Bool.false_eq_true, if_false] at hcb1
      obtain ⟨hb2, hcb2⟩ := hcb1
      simp only [hgc, if_true] at hcb2
      cases hgs : g.sib.isRed
      · rw [insFix, hfc, hgs]
        simp only [Bool.false_eq_true, if_false]
        have hres : ∃ T', insRot g f t = some T' ∧ NRR T' ∧ T'.isRed = false ∧ BH T' (n + 1) := by
          unfold insRot
          by_cases hd : f.d = g.d
          · rw [if_pos hd]
            refine ⟨_, rfl, ?_, ?_, ?_⟩
            · rw [blacken_of_not_red hfs]
              simp [NRR_mk, hgc, hn, hc.1, hc.2.2.1, hfs, hgs]
            · simp [hgc]
            · rw [blacken_of_not_red hfs, hgc, BH_mk_true]
              exact ⟨n, rfl, hb, BH_mk_false.2 ⟨hb1, hb2⟩⟩
          · rw [if_neg hd]
            cases t with
            | leaf => cases hr
            | node tc l i r =>
              have htc : tc = false := by
                cases tc
                · rfl
                · cases hr
              subst htc
              obtain ⟨hnl, hnr, hlr⟩ := hn
              obtain ⟨hl, hr'⟩ := hlr rfl
              obtain ⟨hbl, hbr⟩ := hb
              simp only [blacken_of_not_red hl, blacken_of_not_red hr', hgc]
              cases g.d
              · refine ⟨_, rfl, ?_, by simp, ?_⟩
                · simp [NRR_mk, hnl, hnr, hl, hr', hc.1, hc.2.2.1, hfs, hgs]
                · exact BH_mk_true.2 ⟨n, rfl, BH_mk_false.2 ⟨hb1, hbl⟩, BH_mk_false.2 ⟨hbr, hb2⟩⟩
              · refine ⟨_, rfl, ?_, by simp, ?_⟩
                · simp [NRR_mk, hnl, hnr, hl, hr', hc.1, hc.2.2.1, hfs, hgs]
                · exact BH_mk_true.2 ⟨n, rfl, BH_mk_false.2 ⟨hb1, hbr⟩, BH_mk_false.2 ⟨hbl, hb2⟩⟩
        obtain ⟨T', hT', h1, h2, h3⟩ := hres
        refine ⟨plug K T', by rw [hT']; rfl, RB_plug.2 ⟨hc.2.2.2.2, h1, ?_, n + 1, hcb2, h3⟩⟩
        rw [h2]
        intro h
        cases h
      · rw [insFix, hfc, hgs]
        simp only [Bool.false_eq_true, if_false, if_true]
        refine insFix_RB K _ (n + 1) hc.2.2.2.2 hcb2 ?_ ?_ (by simp)
        · exact BH_mk_false.2 ⟨BH_mk_true.2 ⟨n, rfl, hb, hb1⟩, BH_blacken_red hgs hb2⟩
        · refine NRR_mk.2 ⟨NRR_mk.2 ⟨hn, hc.1, fun h => by cases h⟩, NRR_blacken hc.2.2.1, fun _ => ⟨by simp, isRed_blacken _⟩⟩
    · exact ⟨_, by rw [insFix, if_pos hfc], RB_plug.2 ⟨hc, hn, fun _ => hfc, n, hcb, hb⟩⟩

theorem NRR_red_side {c : Bool} {l r : Tree} {i : Nat} (d : Bool) (h : NRR (node c l i r)) :
    NRR (side d l r) := by
  cases d
  · exact h.1
  · exact h.2.1

/-- Cases 2 to 4 repair the black height, given that what follows does. -/
theorem eraseMainF_RB {f : Frame} {K : List Frame} {t : Tree} {n : Nat} {cont : Tree → Option Tree}
    (hcont : f.c = true → ∀ t', CBH K (n + 2) → BH t' (n + 1) → NRR t' → t'.isRed = false →
      ∃ T, cont t' = some T ∧ RB T)
    (hc : CNR (f :: K)) (hcb : CBH (f :: K) (n + 1)) (hb : BH t n) (hn : NRR t)
    (hs : f.sib.isRed = false) : ∃ T, eraseMainF f K t cont = some T ∧ RB T := by
  obtain ⟨d, pc, p, sib⟩ := f
  obtain ⟨hns, hpc, hcK⟩ := hc
  obtain ⟨hbs, hcbK⟩ := hcb
  simp only at hns hpc hcK hbs hcbK hs hcont
  cases sib with
  | leaf => simp [BH] at hbs
  | node sc l si r =>
  cases sc
  · cases hs
  · obtain ⟨a, b, e⟩ := exists_mk d true l si r
    obtain ⟨ha, hb'⟩ := side_mk e
    have e' : node false l si r = mk d false a si b := by
      have h1 := congrArg (recolor false) e
      rw [recolor_mk] at h1
      exact h1
    simp only [eraseMainF, ha, hb', e']
    rw [e] at hns hbs
    obtain ⟨hna, hnb, _⟩ := NRR_mk.1 hns
    obtain ⟨m, hm, hba, hbb⟩ := BH_mk_true.1 hbs
    obtain rfl : n = m := by omega
    cases hbr : b.isRed
    · cases har : a.isRed
      · simp only [Bool.not_false, if_true]
        have hBH : BH (mk d true t p (mk d false a si b)) (n + 1) :=
          BH_mk_true.2 ⟨n, rfl, hb, BH_mk_false.2 ⟨hba, hbb⟩⟩
        have hNRR : NRR (mk d true t p (mk d false a si b)) :=
          NRR_mk.2 ⟨hn, NRR_mk.2 ⟨hna, hnb, fun _ => ⟨har, hbr⟩⟩, fun h => by cases h⟩
        cases pc
        · refine ⟨_, rfl, RB_plug.2 ⟨hcK, hNRR, ?_, n + 1, hcbK, hBH⟩⟩
          simp
        · simp only [if_true] at hcbK ⊢
          exact hcont rfl _ hcbK hBH hNRR (by simp)
      · cases a with
        | leaf => cases har
        | node ac al ai ar =>
        have hac : ac = false := by
          cases ac
          · rfl
          · cases har
        subst hac
        simp only [Bool.not_false, Bool.not_true, Bool.false_eq_true, if_false, if_true]
        obtain ⟨a1, a2, ea⟩ := exists_mk d false al ai ar
        obtain ⟨h1, h2⟩ := side_mk ea
        rw [h1, h2]
        rw [ea] at hna hba
        obtain ⟨hn1, hn2, hn3⟩ := NRR_mk.1 hna
        obtain ⟨hb1, hb2⟩ := BH_mk_false.1 hba
        have h2' := (hn3 rfl).2
        rw [blacken_of_not_red h2']
        refine ⟨_, rfl, ?_⟩
        have hinner : BH (mk d true t p a1) (n + 1) ∧ BH (mk d true a2 si b) (n + 1) :=
          ⟨BH_mk_true.2 ⟨n, rfl, hb, hb1⟩, BH_mk_true.2 ⟨n, rfl, hb2, hbb⟩⟩
        have hnin : NRR (mk d pc (mk d true t p a1) ai (mk d true a2 si b)) := by
          simp [NRR_mk, hn, hn1, hn2, hnb]
        cases pc
        · exact RB_plug.2 ⟨hcK, hnin, fun _ => (hpc rfl).2, n + 1, hcbK, BH_mk_false.2 hinner⟩
        · exact RB_plug.2 ⟨hcK, hnin, by simp, n + 2, hcbK, BH_mk_true.2 ⟨n + 1, rfl, hinner⟩⟩
    · simp only [Bool.not_true, Bool.false_eq_true, if_false]
      refine ⟨_, rfl, ?_⟩
      have hinner : BH (mk d true t p a) (n + 1) ∧ BH (blacken b) (n + 1) :=
        ⟨BH_mk_true.2 ⟨n, rfl, hb, hba⟩, BH_blacken_red hbr hbb⟩
      have hnin : NRR (mk d pc (mk d true t p a) si (blacken b)) := by
        simp [NRR_mk, hn, hna, NRR_blacken hnb, isRed_blacken]
      cases pc
      · exact RB_plug.2 ⟨hcK, hnin, fun _ => (hpc rfl).2, n + 1, hcbK, BH_mk_false.2 hinner⟩
      · exact RB_plug.2 ⟨hcK, hnin, by simp, n + 2, hcbK, BH_mk_true.2 ⟨n + 1, rfl, hinner⟩⟩

/-- Repair after a removal keeps the rules. -/
theorem eraseFix_RB : ∀ (K : List Frame) (t : Tree) (n : Nat), CNR K → CBH K (n + 1) → BH t n → NRR t →
    t.isRed = false → ∃ T, eraseFix K t = some T ∧ RB T
  | [], t, n, _, _, hb, hn, hr => ⟨t, rfl, hr, hn, n, hb⟩
  | f :: K, t, n, hc, hcb, hb, hn, hr => by
    rw [eraseFix]
    cases hsib : f.sib with
    | leaf =>
      have h1 := hcb.1
      rw [hsib] at h1
      simp [BH] at h1
    | node sc l si r =>
    cases sc
    · -- the sibling is red, so the parent is black and the nephews are black
      simp only [Bool.false_eq_true, if_false]
      obtain ⟨a, b, e⟩ := exists_mk f.d false l si r
      obtain ⟨ha, hb'⟩ := side_mk e
      rw [ha, hb']
      have hfc : f.c = true := by
        cases hfc : f.c
        · have := (hc.2.1 hfc).1
          rw [hsib] at this
          cases this
        · rfl
      have hns := hc.1
      have hbs := hcb.1
      rw [hsib, e] at hns hbs
      obtain ⟨hna, hnb, hab⟩ := NRR_mk.1 hns
      obtain ⟨hba, hbb⟩ := BH_mk_false.1 hbs
      obtain ⟨har, hbr⟩ := hab rfl
      cases a with
      | leaf => simp [BH] at hba
      | node ac al ai ar =>
      simp only
      rw [blacken_of_not_red har]
      refine eraseMainF_RB (n := n) (fun h => by cases h) ⟨hna, fun _ => ⟨har, hfc⟩, hnb, ?_, hc.2.2⟩ ?_ hb hn har
      · intro h
        rw [hfc] at h
        cases h
      · refine ⟨hba, hbb, ?_⟩
        have := hcb.2
        rw [hfc] at this ⊢
        exact this
    · simp only [if_true]
      refine eraseMainF_RB (n := n) ?_ hc hcb hb hn (by rw [hsib]; rfl)
      intro hfc t' h1 h2 h3 h4
      exact eraseFix_RB K t' (n + 1) hc.2.2 h1 h2 h3 h4

end Ulp.Rb
