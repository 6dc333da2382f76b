/-
Lemmas about the symbol indexes: linking.
-/
import Verif.Model.Sym
import Verif.Proof.RbOps
import Verif.Proof.RbIter
namespace Ulp.Sym
open Rb (Tree IsTree RB St Mono)
open Rb.Tree (ids)

/-- The symbols in an index: the ones in the tree, each with its list. -/
def members (L : Nat → List Nat) (H : List Nat) : List Nat := H.flatMap fun h => h :: L h

/-- How much an index counts for the reference count of `p`. -/
def contrib (L : Nat → List Nat) (H : List Nat) (p : Nat) : Nat :=
  (members L H).count p + if p ∈ H then (L p).length else 0

structure IxInv (i : Index) (t : Tree) : Prop where
  tree : IsTree i.t t
  rb : RB t
  nodup : (members i.lists (ids t)).Nodup
  heads : ∀ h ∈ ids t, i.isHead h = true

theorem members_append (L : Nat → List Nat) (a b : List Nat) : members L (a ++ b) = members L a ++ members L b := by
  simp [members]

theorem members_cons (L : Nat → List Nat) (h : Nat) (H : List Nat) : members L (h :: H) = h :: L h ++ members L H := by
  simp [members]

theorem head_mem {L : Nat → List Nat} {H : List Nat} {h : Nat} (hh : h ∈ H) : h ∈ members L H :=
  List.mem_flatMap.2 ⟨h, hh, by simp⟩

theorem extra_mem {L : Nat → List Nat} {H : List Nat} {h q : Nat} (hh : h ∈ H) (hq : q ∈ L h) : q ∈ members L H :=
  List.mem_flatMap.2 ⟨h, hh, by simp [hq]⟩

theorem members_congr {L L' : Nat → List Nat} : ∀ {H : List Nat}, (∀ h ∈ H, L' h = L h) → members L' H = members L H
  | [], _ => rfl
  | h :: H, hl => by
    rw [members_cons, members_cons, hl h (by simp), members_congr fun x hx => hl x (by simp [hx])]

/-! ### The comparison of names -/

theorem strcmp_eq : ∀ {a b : List Byte}, strcmp a b = 0 ↔ a = b
  | [], [] => by simp [strcmp]
  | [], _ :: _ => by simp [strcmp]
  | _ :: _, [] => by simp [strcmp]
  | x :: s, y :: t => by
    rw [strcmp]
    by_cases h : x = y
    · rw [if_pos h, strcmp_eq, h]; simp
    · rw [if_neg h]
      split <;> simp [h]

theorem strcmp_swap : ∀ {a b : List Byte}, strcmp a b < 0 ↔ strcmp b a > 0
  | [], [] => by simp [strcmp]
  | [], _ :: _ => by simp [strcmp]
  | _ :: _, [] => by simp [strcmp]
  | x :: s, y :: t => by
    rw [strcmp, strcmp]
    by_cases h : x = y
    · rw [if_pos h, if_pos h.symm, strcmp_swap]
    · rw [if_neg h, if_neg (Ne.symm h)]
      have hxy : x < y ∨ y < x := by
        rw [BitVec.lt_def, BitVec.lt_def]
        have : x.toNat ≠ y.toNat := fun e => h (BitVec.eq_of_toNat_eq e)
        omega
      rcases hxy with hxy | hxy
      · have : ¬ y < x := by
          rw [BitVec.lt_def] at hxy ⊢; omega
        rw [if_pos hxy, if_neg this]; simp
      · have : ¬ x < y := by
          rw [BitVec.lt_def] at hxy ⊢; omega
        rw [if_neg this, if_pos hxy]; simp

theorem strcmp_trans : ∀ {a b c : List Byte}, strcmp a b < 0 → strcmp b c < 0 → strcmp a c < 0
  | [], [], _, h, _ => by simp [strcmp] at h
  | [], _ :: _, [], _, h => by simp [strcmp] at h
  | [], _ :: _, _ :: _, _, _ => by simp [strcmp]
  | _ :: _, [], _, h, _ => by simp [strcmp] at h
  | _ :: _, _ :: _, [], _, h => by simp [strcmp] at h
  | x :: s, y :: t, z :: u, h1, h2 => by
    rw [strcmp] at h1 h2 ⊢
    by_cases hxy : x = y
    · rw [if_pos hxy] at h1
      by_cases hyz : y = z
      · rw [if_pos hyz] at h2
        rw [if_pos (hxy.trans hyz)]
        exact strcmp_trans h1 h2
      · rw [if_neg hyz] at h2
        rw [hxy, if_neg hyz]
        exact h2
    · rw [if_neg hxy] at h1
      have l1 : x < y := by
        by_cases h : x < y
        · exact h
        · rw [if_neg h] at h1; simp at h1
      by_cases hyz : y = z
      · rw [← hyz, if_neg hxy]
        exact h1
      · rw [if_neg hyz] at h2
        have l2 : y < z := by
          by_cases h : y < z
          · exact h
          · rw [if_neg h] at h2; simp at h2
        have hxz : x < z := by
          rw [BitVec.lt_def] at l1 l2 ⊢; omega
        have hne : x ≠ z := by
          rintro rfl
          rw [BitVec.lt_def] at hxz; omega
        rw [if_neg hne, if_pos hxz]
        simp

/-! ### Linking -/

theorem setIx_ix (s : Syms) (w : Which) : s.setIx w (s.ix w) = s := by
  cases w <;> rfl

theorem ix_setIx (s : Syms) (w : Which) (i : Index) : (s.setIx w i).ix w = i := by
  cases w <;> rfl

/-- The other index. -/
def Which.other : Which → Which
  | .name => .addr
  | .addr => .name

theorem ix_setIx_other (s : Syms) (w : Which) (i : Index) : (s.setIx w i).ix w.other = s.ix w.other := by
  cases w <;> rfl

theorem rc_setIx (s : Syms) (w : Which) (i : Index) : (s.setIx w i).rc = s.rc := by
  cases w <;> rfl

theorem info_setIx (s : Syms) (w : Which) (i : Index) : (s.setIx w i).info = s.info := by
  cases w <;> rfl

theorem setIx_setIx (s : Syms) (w : Which) (i j : Index) : (s.setIx w i).setIx w j = s.setIx w j := by
  cases w <;> rfl

theorem ix_incRc {s s' : Syms} {p : Nat} (h : incRc s p = some s') (w : Which) : s'.ix w = s.ix w := by
  rw [incRc] at h
  cases hc : s.rc p with
  | none => rw [hc] at h; cases h
  | some c =>
    rw [hc] at h
    simp only [Option.bind_some, Option.some.injEq] at h
    subst h
    cases w <;> rfl

theorem incRc_ok {s : Syms} {p c : Nat} (h : s.rc p = some c) :
    ∃ s', incRc s p = some s' ∧ (∀ w, s'.ix w = s.ix w) ∧ s'.info = s.info ∧
      ∀ x, s'.rc x = if x = p then some (c + 1) else s.rc x := by
  refine ⟨{ s with rc := fun x => if x = p then some (c + 1) else s.rc x }, by rw [incRc, h]; rfl, ?_, rfl,
    fun _ => rfl⟩
  intro w
  cases w <;> rfl

/-- What linking does to one index, for any comparison and any notion of duplicate. -/
theorem linkIn_ok {s : Syms} {w : Which} {t : Tree} (h : IxInv (s.ix w) t) {new c0 : Nat} (hn0 : new ≠ 0)
    (hnm : new ∉ members (s.ix w).lists (ids t)) (ha : (s.ix w).t.m new ≠ none) (hl : (s.ix w).lists new = [])
    (hrn : s.rc new = some c0) (hrc : ∀ p ∈ members (s.ix w).lists (ids t), ∃ c, s.rc p = some c)
    (cmp : Nat → Int) (same : Nat → Bool) :
    ∃ s' ins t', linkIn w s new cmp same = some (s', ins) ∧ IxInv (s'.ix w) t' ∧ s'.ix w.other = s.ix w.other ∧
      s'.info = s.info ∧
      (∀ x, s.rc x = none → s'.rc x = none) ∧
      (∀ x k, s.rc x = some (contrib (s.ix w).lists (ids t) x + k) →
        s'.rc x = some (contrib (s'.ix w).lists (ids t') x + k)) ∧
      (∀ x, x ≠ 0 → x ≠ new → x ∉ ids t → (s'.ix w).t.m x = (s.ix w).t.m x) ∧
      (∀ x, x ≠ 0 → (s.ix w).t.m x ≠ none → (s'.ix w).t.m x ≠ none) ∧
      (∀ x, x ∈ members (s'.ix w).lists (ids t') ↔ x ∈ members (s.ix w).lists (ids t) ∨ (x = new ∧ ins = true)) ∧
      ((ins = true ∧ Rb.insTree cmp new t = some t' ∧ (s'.ix w).lists = (s.ix w).lists ∧
          ∃ a b, ids t = a ++ b ∧ ids t' = a ++ new :: b ∧
            (Mono cmp (ids t) → (∀ x ∈ a, cmp x > 0) ∧ ∀ x ∈ b, cmp x < 0)) ∨
       (∃ n ∈ ids t, cmp n = 0 ∧ t' = t ∧ Rb.insTree cmp new t = none ∧
          ((ins = false ∧ (∃ q ∈ n :: (s.ix w).lists n, same q = true) ∧ s' = s) ∨
           (ins = true ∧ (∀ q ∈ n :: (s.ix w).lists n, same q = false) ∧
            ∀ x, (s'.ix w).lists x = if x = n then (s.ix w).lists x ++ [new] else (s.ix w).lists x)))) := by
  have hnt : new ∉ ids t := fun hm => hnm (head_mem hm)
  rcases Rb.rbInsertNode_any (f := cmp) h.tree h.rb hn0 hnt ha with
    ⟨n, hn, hc, hnone, e⟩ | ⟨rb, t', a, b, e, ht, h1, h2, h3, h4, h5, h6⟩
  · -- found
    have hnz : n ≠ 0 := h.tree.rep.ne_zero n hn
    have hs1 : s.setIx w { s.ix w with t := (s.ix w).t } = s := setIx_ix s w
    by_cases hd : ∃ q ∈ n :: (s.ix w).lists n, same q = true
    · refine ⟨s, false, t, ?_, h, rfl, rfl, fun _ h => h, fun _ _ h => h, fun _ _ _ _ => rfl, fun _ _ h => h, by simp,
        Or.inr ⟨n, hn, hc, rfl, hnone, Or.inl ⟨rfl, hd, rfl⟩⟩⟩
      rw [linkIn, e]
      simp only [Option.bind_some, hs1, if_neg hnz]
      obtain ⟨q, hq, hsq⟩ := hd
      rcases List.mem_cons.1 hq with rfl | hq
      · rw [if_pos hsq]
      · by_cases hsn : same n = true
        · rw [if_pos hsn]
        · rw [if_neg hsn, if_pos]
          exact List.any_eq_true.2 ⟨q, hq, hsq⟩
    · have hd' : ∀ q ∈ n :: (s.ix w).lists n, same q = false := by
        intro q hq
        cases hq' : same q
        · rfl
        · exact absurd ⟨q, hq, hq'⟩ hd
      have hnn : new ≠ n := fun e => hnt (e ▸ hn)
      obtain ⟨cn, hcn⟩ := hrc n (head_mem hn)
      generalize hs2 : s.setIx w { s.ix w with
        lists := fun x => if x = n then (s.ix w).lists x ++ [new] else (s.ix w).lists x } = s2
      have hrc2 : s2.rc = s.rc := by rw [← hs2, rc_setIx]
      obtain ⟨s3, e3, hx3, hi3, hr3⟩ := incRc_ok (s := s2) (p := new) (c := c0) (by rw [hrc2]; exact hrn)
      obtain ⟨s4, e4, hx4, hi4, hr4⟩ := incRc_ok (s := s3) (p := n) (c := cn) (by
        rw [hr3, if_neg (Ne.symm hnn), hrc2]; exact hcn)
      have hix : s4.ix w = { s.ix w with
          lists := fun x => if x = n then (s.ix w).lists x ++ [new] else (s.ix w).lists x } := by
        rw [hx4, hx3, ← hs2, ix_setIx]
      obtain ⟨u, v, huv⟩ := List.append_of_mem hn
      have hnd := h.tree.nodup
      rw [huv, List.nodup_append, List.nodup_cons] at hnd
      have hnu : n ∉ u := fun hm => hnd.2.2 n hm n (by simp) rfl
      have hnv : n ∉ v := hnd.2.1.1
      have hmem : (members (s4.ix w).lists (ids t)).Perm (new :: members (s.ix w).lists (ids t)) := by
        rw [hix, huv, members_append, members_cons, members_append, members_cons]
        simp only [if_true]
        rw [members_congr (L := (s.ix w).lists) (H := u), members_congr (L := (s.ix w).lists) (H := v)]
        · have : members (s.ix w).lists u ++ (n :: ((s.ix w).lists n ++ [new]) ++ members (s.ix w).lists v) =
              (members (s.ix w).lists u ++ (n :: (s.ix w).lists n)) ++ new :: members (s.ix w).lists v := by simp
          rw [this]
          refine List.perm_middle.trans ?_
          simp
        · intro x hx
          rw [if_neg]
          rintro rfl
          exact hnv hx
        · intro x hx
          rw [if_neg]
          rintro rfl
          exact hnu hx
      have hcon : ∀ x, contrib (s4.ix w).lists (ids t) x =
          contrib (s.ix w).lists (ids t) x + (if x = new then 1 else 0) + if x = n then 1 else 0 := by
        intro x
        rw [contrib, contrib, hmem.count_eq, List.count_cons, hix]
        simp only [beq_iff_eq]
        by_cases hxn : x = n
        · subst hxn
          simp only [hn, if_true, List.length_append, List.length_singleton]
          rw [if_neg hnn, if_neg (Ne.symm hnn)]
          omega
        · simp only [if_neg hxn]
          by_cases hxw : new = x
          · simp [hxw]; omega
          · simp [hxw, Ne.symm hxw]
      have hr : ∀ x, s4.rc x = if x = n then some (cn + 1) else if x = new then some (c0 + 1) else s.rc x := by
        intro x
        rw [hr4, hr3, hrc2]
      refine ⟨s4, true, t, ?_, ⟨?_, h.rb, ?_, ?_⟩, ?_, ?_, ?_, ?_, ?_, ?_, ?_,
        Or.inr ⟨n, hn, hc, rfl, hnone, Or.inr ⟨rfl, hd', ?_⟩⟩⟩
      · rw [linkIn, e]
        simp only [Option.bind_some, hs1, if_neg hnz]
        rw [if_neg (by rw [hd' n (by simp)]; simp), if_neg, hs2, e3]
        · simp only [Option.bind_some]
          rw [e4]
          rfl
        · rw [Bool.not_eq_true, List.any_eq_false]
          intro q hq
          rw [hd' q (by simp [hq])]
          simp
      · rw [hix]; exact h.tree
      · rw [hmem.nodup_iff, List.nodup_cons]
        exact ⟨hnm, h.nodup⟩
      · rw [hix]; exact h.heads
      · rw [hx4, hx3, ← hs2, ix_setIx_other]
      · rw [hi4, hi3, ← hs2, info_setIx]
      · intro x hx
        rw [hr, if_neg, if_neg]
        · exact hx
        · rintro rfl; rw [hx] at hrn; cases hrn
        · rintro rfl; rw [hx] at hcn; cases hcn
      · intro x k hx
        rw [hr, hcon]
        by_cases hxn : x = n
        · subst hxn
          rw [hcn, Option.some.injEq] at hx
          rw [if_pos rfl, if_pos rfl, if_neg (Ne.symm hnn), hx]
          congr 1
          omega
        · rw [if_neg hxn, if_neg hxn]
          by_cases hxw : x = new
          · subst hxw
            rw [hrn, Option.some.injEq] at hx
            rw [if_pos rfl, if_pos rfl, hx]
            congr 1
            omega
          · rw [if_neg hxw, if_neg hxw, hx]
            rfl
      · intro x _ _ _
        rw [hix]
      · intro x _ hx
        rw [hix]; exact hx
      · intro x
        rw [hmem.mem_iff, List.mem_cons]
        simp only [and_true]
        exact Or.comm
      · intro x
        rw [hix]
  · -- new
    generalize hs1 : s.setIx w { s.ix w with t := rb } = s1
    generalize hs2 : s1.setIx w { s1.ix w with isHead := fun x => if x = new then true else (s1.ix w).isHead x } = s2
    have hrc2 : s2.rc = s.rc := by rw [← hs2, rc_setIx, ← hs1, rc_setIx]
    obtain ⟨s3, e3, hx3, hi3, hr3⟩ := incRc_ok (s := s2) (p := new) (c := c0) (by rw [hrc2]; exact hrn)
    have hix : s3.ix w = { s.ix w with
        t := rb, isHead := fun x => if x = new then true else (s.ix w).isHead x } := by
      rw [hx3, ← hs2, ix_setIx, ← hs1, ix_setIx]
    have hmem : (members (s3.ix w).lists (ids t')).Perm (new :: members (s.ix w).lists (ids t)) := by
      rw [hix, h4, h3, members_append, members_cons, members_append, hl]
      simp only [List.cons_append, List.nil_append]
      exact List.perm_middle
    have hcon : ∀ x, contrib (s3.ix w).lists (ids t') x =
        contrib (s.ix w).lists (ids t) x + if x = new then 1 else 0 := by
      intro x
      rw [contrib, contrib, hmem.count_eq, List.count_cons, hix, h4, h3]
      simp only [beq_iff_eq, List.mem_append, List.mem_cons]
      by_cases hxn : x = new
      · subst hxn
        simp [hl]
      · simp [hxn, Ne.symm hxn]
    have hr : ∀ x, s3.rc x = if x = new then some (c0 + 1) else s.rc x := by
      intro x
      rw [hr3, hrc2]
    refine ⟨s3, true, t', ?_, ⟨?_, h2, ?_, ?_⟩, ?_, ?_, ?_, ?_, ?_, ?_, ?_,
      Or.inl ⟨rfl, ht, ?_, a, b, h3, h4, h6⟩⟩
    · rw [linkIn, e]
      simp only [Option.bind_some, hs1, if_true]
      rw [hs2, e3]
      rfl
    · rw [hix]; exact h1
    · rw [hmem.nodup_iff, List.nodup_cons]
      exact ⟨hnm, h.nodup⟩
    · intro x hx
      rw [hix]
      simp only
      by_cases hxn : x = new
      · rw [if_pos hxn]
      · rw [if_neg hxn]
        refine h.heads x ?_
        rw [h4] at hx
        rw [h3]
        simpa [hxn] using hx
    · rw [hx3, ← hs2, ix_setIx_other, ← hs1, ix_setIx_other]
    · rw [hi3, ← hs2, info_setIx, ← hs1, info_setIx]
    · intro x hx
      rw [hr, if_neg]
      · exact hx
      · rintro rfl; rw [hx] at hrn; cases hrn
    · intro x k hx
      rw [hr, hcon]
      by_cases hxw : x = new
      · subst hxw
        rw [hrn, Option.some.injEq] at hx
        rw [if_pos rfl, if_pos rfl, hx]
        congr 1
        omega
      · rw [if_neg hxw, if_neg hxw, hx]
        rfl
    · intro x hx0 hxn hxt
      rw [hix]
      refine h5 x hx0 ?_
      rw [h4]
      rw [h3] at hxt
      simpa [hxn] using hxt
    · intro x hx0 hx
      rw [hix]
      simp only
      by_cases hxt : x ∈ ids t'
      · exact Rb.Rep.mem_ne_none h1.rep x hxt
      · rw [h5 x hx0 hxt]; exact hx
    · intro x
      rw [hmem.mem_iff, List.mem_cons]
      simp only [and_true]
      exact Or.comm
    · rw [hix]

end Ulp.Sym
