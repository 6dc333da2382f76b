import Verif.Model.BfdSym
import Verif.Spec.BfdSym
import Verif.Props.RbTree
import Verif.Proof.Sym
namespace Ulp.Bfd
open BfdSpec Dict
open Load (lit)
open Rb (St World Inv)
open Rb.Tree (ids)

theorem strcmp_ordered : Ordered Sym.strcmp :=
  ⟨fun _ _ => Sym.strcmp_eq, fun _ _ => Sym.strcmp_swap, fun _ _ _ => Sym.strcmp_trans⟩

theorem hasSub_iff (p : List Byte) : ∀ s : List Byte, Str.hasSub p s = true ↔ ∃ a b, s = a ++ p ++ b
  | [] => by
    rw [Str.hasSub, List.isEmpty_iff]
    constructor
    · rintro rfl
      exact ⟨[], [], rfl⟩
    · rintro ⟨a, b, h⟩
      have := congrArg List.length h
      simp only [List.length_nil, List.length_append] at this
      exact List.eq_nil_of_length_eq_zero (by omega)
  | c :: s => by
    rw [Str.hasSub, Bool.or_eq_true, hasSub_iff p s, List.isPrefixOf_iff_prefix]
    constructor
    · rintro (⟨b, h⟩ | ⟨a, b, h⟩)
      · exact ⟨[], b, by rw [← h]; rfl⟩
      · exact ⟨c :: a, b, by rw [h]; rfl⟩
    · rintro ⟨a, b, h⟩
      cases a with
      | nil => exact Or.inl ⟨b, h.symm⟩
      | cons x a =>
        refine Or.inr ⟨a, b, ?_⟩
        simp only [List.cons_append, List.cons.injEq] at h
        simpa using h.2

theorem isKind_iff {s : ASym} {n : List Byte} (hn : s.name = some n) (k : Kind) :
    isKind s n k = true ↔ OfKind s k := by
  cases k with
  | text => simp [isKind, OfKind]
  | plt =>
    rw [isKind, hasSub_iff, OfKind]
    constructor
    · rintro ⟨a, b, h⟩
      exact ⟨n, a, b, hn, h⟩
    · rintro ⟨m, a, b, h1, h2⟩
      rw [hn] at h1
      cases h1
      exact ⟨a, b, h2⟩
  | data => simp [isKind, OfKind, or_assoc]

theorem keep_iff (s : ASym) : keep s = true ↔ Counts s := by
  rw [keep, Counts]
  cases hn : s.name with
  | none => simp
  | some n =>
    have hs : isSignificant n = true ↔ (∃ r, n = lit ".plt" ++ r) ∨ ∃ r, n = lit ".got" ++ r := by
      rw [isSignificant, Str.startswith, Str.startswith, Bool.or_eq_true, List.isPrefixOf_iff_prefix,
        List.isPrefixOf_iff_prefix]
      constructor <;> rintro (⟨r, h⟩ | ⟨r, h⟩)
      · exact Or.inl ⟨r, h.symm⟩
      · exact Or.inr ⟨r, h.symm⟩
      · exact Or.inl ⟨r, h.symm⟩
      · exact Or.inr ⟨r, h.symm⟩
    simp only [Option.some.injEq]
    constructor
    · intro h
      split at h
      · cases h
      rename_i hv
      split at h
      · cases h
      rename_i h0
      split at h
      · cases h
      rename_i h1
      split at h
      · cases h
      rename_i h2
      refine ⟨hv, by revert h2; cases s.und <;> simp, by revert h2; cases s.com <;> cases s.und <;> simp,
        n, rfl, h0, ?_⟩
      rw [← hs]
      revert h1
      cases s.debugging <;> cases s.sectionSym <;> cases isSignificant n <;> simp
    · rintro ⟨hv, hu, hc, m, rfl, h0, h⟩
      rw [if_neg hv, if_neg h0, if_neg, if_neg]
      · rw [hu, hc]; simp
      · rw [← hs] at h
        rcases h with ⟨h1, h2⟩ | h
        · rw [h1, h2]; simp
        · rw [h]; simp

theorem take_takeWhile {α : Type} (p : α → Bool) : ∀ l : List α, l.take (l.takeWhile p).length = l.takeWhile p
  | [] => rfl
  | x :: l => by
    rw [List.takeWhile_cons]
    split
    · simp [take_takeWhile p l]
    · rfl

theorem takeWhile_all {α : Type} (p : α → Bool) : ∀ l : List α, (∀ x ∈ l, p x = true) → l.takeWhile p = l
  | [], _ => rfl
  | x :: l, h => by
    rw [List.takeWhile_cons, if_pos (h x (by simp)), takeWhile_all p l fun y hy => h y (by simp [hy])]

theorem pureName_eq (n : List Byte) (blen : Nat) : pureName n blen =
    if n.contains 0x40#8 then
      if (base n).length > blen then some none
      else if (base n).length < blen then some (some (n.take (base n).length))
      else none
    else some (some n) := rfl

theorem pureName_short {n : List Byte} (h : 0x40#8 ∈ n → (base n).length < 256) :
    pureName n 256 = some (some (base n)) := by
  rw [pureName_eq]
  by_cases hm : 0x40#8 ∈ n
  · have hl := h hm
    rw [if_pos (by simpa using hm), if_neg (by omega), if_pos hl, base, take_takeWhile]
  · rw [if_neg (by simpa using hm), base, takeWhile_all]
    intro x hx
    simp only [decide_eq_true_eq, ne_eq]
    exact fun e => hm (by rw [← e]; exact hx)

/-- What one tree holds after the symbols `done`: `mal i` is the structure of the
symbol `i`. -/
structure TabOK (k : Kind) (mal : Nat → Nat) (t : Tab) (done : List ASym) (a : Abs (List Byte)) (tr : Rb.Tree) : Prop where
  inv : Inv Sym.strcmp ⟨t.s, t.name⟩ a tr
  live : ∀ p, a.live p = true → ∃ i, i < done.length ∧ mal i = p
  alloc : ∀ i s, done[i]? = some s → OfKind s k → t.s.m (mal i) ≠ none
  miss : ∀ n, (∀ s ∈ done, ¬ Named k n s) → a.dict n = 0
  hit : ∀ n u s v, done = u ++ s :: v → Named k n s → (∀ x ∈ u, ¬ Named k n x) →
    a.dict n = mal u.length ∧ t.addr (mal u.length) = s.value

theorem TabOK.init (k : Kind) (mal : Nat → Nat) : TabOK k mal Tab.init [] (Abs.empty _) .leaf := by
  refine ⟨Inv.start _ _, ?_, ?_, fun _ _ => rfl, ?_⟩
  · intro p h; cases h
  · intro i s h; simp at h
  · intro n u s v h; simp at h

/-- The two ways a list with one more element splits. -/
theorem snoc_split {α : Type} {l u v : List α} {x y : α} (h : l ++ [x] = u ++ y :: v) :
    (v = [] ∧ y = x ∧ u = l) ∨ ∃ v', v = v' ++ [x] ∧ l = u ++ y :: v' := by
  rcases List.eq_nil_or_concat v with rfl | ⟨v', z, rfl⟩
  · obtain ⟨h1, h2⟩ := List.append_inj' h (by simp)
    exact Or.inl ⟨rfl, by simpa using h2.symm, h1.symm⟩
  · have : l ++ [x] = (u ++ y :: v') ++ [z] := by simpa using h
    obtain ⟨h1, h2⟩ := List.append_inj' this (by simp)
    refine Or.inr ⟨v', ?_, h1⟩
    simp at h2
    simp [h2]

theorem TabOK.skip {k : Kind} {mal : Nat → Nat} {t : Tab} {done : List ASym} {a : Abs (List Byte)} {tr : Rb.Tree}
    (h : TabOK k mal t done a tr) {s : ASym} (hk : ¬ OfKind s k) : TabOK k mal t (done ++ [s]) a tr := by
  refine ⟨h.inv, ?_, ?_, ?_, ?_⟩
  · intro p hp
    obtain ⟨i, hi, e⟩ := h.live p hp
    exact ⟨i, by simp; omega, e⟩
  · intro i x hx hxk
    rw [List.getElem?_append] at hx
    split at hx
    · exact h.alloc i x hx hxk
    · have : x = s := by
        rcases hj : i - done.length with _ | j
        · rw [hj] at hx; simpa using hx.symm
        · rw [hj] at hx; simp at hx
      exact absurd (this ▸ hxk) hk
  · intro n hn
    exact h.miss n fun x hx => hn x (by simp [hx])
  · intro n u x v e hx hu
    rcases snoc_split e with ⟨_, rfl, _⟩ | ⟨v', _, e'⟩
    · exact absurd hx.1 hk
    · exact h.hit n u x v' e' hx hu

theorem TabOK.add {k : Kind} {mal : Nat → Nat} {t : Tab} {done : List ASym} {a : Abs (List Byte)} {tr : Rb.Tree}
    (h : TabOK k mal t done a tr) (hz : ∀ i, mal i ≠ 0) (hinj : ∀ i j, mal i = mal j → i = j)
    {s : ASym} {n : List Byte} (hn : s.name = some n) (hk : OfKind s k) :
    ∃ t1 r a' tr', allocBfdSym t (mal done.length) (some (base n)) s.value = some t1 ∧
      linkBfdSym t1 (mal done.length) = some r ∧ TabOK k mal r.1 (done ++ [s]) a' tr' := by
  generalize hp : mal done.length = p
  have hp0 : p ≠ 0 := hp ▸ hz _
  have hpl : a.live p = false := by
    cases hl : a.live p with
    | false => rfl
    | true =>
      obtain ⟨i, hi, e⟩ := h.live p hl
      have := hinj i done.length (e.trans hp.symm)
      omega
  obtain ⟨w1, tr1, e1, h1⟩ := h.inv.step strcmp_ordered ⟨0, false, 0, 0⟩ (.alloc p) ⟨hp0, hpl⟩
  simp only [Rb.step, specStep, Option.some.injEq, Prod.mk.injEq, and_true] at e1 h1
  subst e1
  have hnd : ∀ x, a.dict x ≠ p := by
    intro x hx
    have h2 := ((h.inv.dict x p hp0).1 hx).1
    have h3 := (h.inv.live p hp0).2 (Rb.Rep.alive h.inv.tree.rep p h2)
    rw [hpl] at h3
    cases h3
  obtain ⟨s', tr', e2, h2, _⟩ := h1.insert strcmp_ordered (n := p) (k := base n) (by simp) hnd
  refine ⟨_, ⟨⟨s', fun x => if x = p then base n else t.name x, fun x => if x = p then s.value else t.addr x⟩,
      if a.dict (base n) = 0 then 0 else -1⟩,
    (specStep { a with live := fun x => if x = p then true else a.live x } (.insert p (base n))).1,
    tr', rfl, ?_, ?_⟩
  · rw [linkBfdSym]
    have : cmpSym ⟨Rb.upd t.s p ⟨0, false, 0, 0⟩, fun x => if x = p then base n else t.name x,
        fun x => if x = p then s.value else t.addr x⟩ ((fun x => if x = p then base n else t.name x) p) =
        fun m => Sym.strcmp (if m = p then base n else t.name m) (base n) := by
      funext m
      simp [cmpSym]
    simp only at this ⊢
    rw [this]
    simp only [] at e2
    rw [e2]
    rfl
  · have hdict : ∀ x, (specStep { a with live := fun x => if x = p then true else a.live x }
        (.insert p (base n))).1.dict x = if x = base n ∧ a.dict (base n) = 0 then p else a.dict x := by
      intro x
      rw [specStep]
      simp only
      by_cases h0 : a.dict (base n) = 0
      · rw [if_pos h0]
        simp [h0]
      · rw [if_neg h0]
        simp [h0]
    have hlive : ∀ x, (specStep { a with live := fun x => if x = p then true else a.live x }
        (.insert p (base n))).1.live x = if x = p then true else a.live x := by
      intro x
      rw [specStep]
      simp only
      split <;> rfl
    refine ⟨h2, ?_, ?_, ?_, ?_⟩
    · intro x hx
      rw [hlive] at hx
      by_cases hxp : x = p
      · exact ⟨done.length, by simp, by rw [hp, hxp]⟩
      · rw [if_neg hxp] at hx
        obtain ⟨i, hi, e⟩ := h.live x hx
        exact ⟨i, by simp; omega, e⟩
    · intro i x hx hxk
      refine (h2.live _ (hz i)).1 ?_
      rw [hlive]
      rw [List.getElem?_append] at hx
      split at hx
      · split
        · rfl
        · exact (h.inv.live _ (hz i)).2 (h.alloc i x hx hxk)
      · rename_i hi
        have : i = done.length := by
          rcases hj : i - done.length with _ | j
          · omega
          · rw [hj] at hx; simp at hx
        rw [this, hp, if_pos rfl]
    · intro m hm
      rw [hdict, if_neg, h.miss m fun x hx => hm x (by simp [hx])]
      rintro ⟨rfl, _⟩
      exact hm s (by simp) ⟨hk, by rw [hn]; rfl⟩
    · intro m u x v e hx hu
      simp only
      rcases snoc_split e with ⟨_, rfl, rfl⟩ | ⟨v', _, e'⟩
      · have hm : m = base n := by
          have := hx.2
          rw [hn] at this
          exact (Option.some.inj this).symm
        rw [hp, hdict, if_pos ⟨hm, by rw [← hm]; exact h.miss m hu⟩]
        simp
      · obtain ⟨h3, h4⟩ := h.hit m u x v' e' hx hu
        have hne : mal u.length ≠ p := by
          intro h5
          have := hinj _ _ (h5.trans hp.symm)
          rw [e'] at this
          simp at this
        rw [hdict, if_neg, if_neg hne]
        · exact ⟨h3, h4⟩
        · rintro ⟨rfl, h5⟩
          rw [h3] at h5
          exact hz _ h5

/-- What the file holds after the symbols `done`. -/
def FileOK (mal : Nat → Kind → Nat) (f : BFile) (done : List ASym) : Prop :=
  ∀ k, ∃ a tr, TabOK k (fun i => mal i k) (f k) done a tr

theorem addSym_ok {mal : Nat → Kind → Nat} (hz : ∀ i k, mal i k ≠ 0) (hinj : ∀ k i j, mal i k = mal j k → i = j)
    {f : BFile} {done : List ASym} {k : Kind} {s : ASym} {n : List Byte} (hn : s.name = some n)
    (h : ∃ a tr, TabOK k (fun i => mal i k) (f k) done a tr) :
    ∃ f', addSym f k (mal done.length k) s n (some (base n)) = some f' ∧
      (∃ a tr, TabOK k (fun i => mal i k) (f' k) (done ++ [s]) a tr) ∧ ∀ j, j ≠ k → f' j = f j := by
  obtain ⟨a, tr, h⟩ := h
  rw [addSym]
  by_cases hk : isKind s n k = true
  · obtain ⟨t1, r, a', tr', e1, e2, h'⟩ := h.add (fun i => hz i k) (hinj k) hn ((isKind_iff hn k).1 hk)
    rw [if_pos hk, e1, Option.bind_some, e2, Option.bind_some]
    refine ⟨_, rfl, ⟨a', tr', ?_⟩, ?_⟩
    · simpa using h'
    · intro j hj
      simp [hj]
  · rw [if_neg hk]
    exact ⟨f, rfl, ⟨a, tr, h.skip fun h => hk ((isKind_iff hn k).2 h)⟩, fun _ _ => rfl⟩

theorem loadSym_ok {mal : Nat → Kind → Nat} (hz : ∀ i k, mal i k ≠ 0) (hinj : ∀ k i j, mal i k = mal j k → i = j)
    {f : BFile} {done : List ASym} {s : ASym} (hs : Short s) (h : FileOK mal f done) :
    ∃ f', loadSym f (mal done.length) s = some f' ∧ FileOK mal f' (done ++ [s]) := by
  obtain ⟨n, hn, hl⟩ := hs
  rw [loadSym, hn, Option.bind_some, pureName_short hl, Option.bind_some]
  obtain ⟨f1, e1, p1, q1⟩ := addSym_ok hz hinj (f := f) (k := .plt) hn (h .plt)
  obtain ⟨f2, e2, p2, q2⟩ := addSym_ok hz hinj (f := f1) (k := .text) hn (by rw [q1 .text (by decide)]; exact h .text)
  obtain ⟨f3, e3, p3, q3⟩ := addSym_ok hz hinj (f := f2) (k := .data) hn
    (by rw [q2 .data (by decide), q1 .data (by decide)]; exact h .data)
  rw [e1, Option.bind_some, e2, Option.bind_some]
  refine ⟨f3, e3, ?_⟩
  intro k
  cases k with
  | text => rw [q3 .text (by decide)]; exact p2
  | plt => rw [q3 .plt (by decide), q2 .plt (by decide)]; exact p1
  | data => exact p3

theorem loadSyms_ok {mal : Nat → Kind → Nat} (hz : ∀ i k, mal i k ≠ 0) (hinj : ∀ k i j, mal i k = mal j k → i = j) :
    ∀ {l : List ASym} {f : BFile} {done : List ASym}, (∀ s ∈ l, Short s) → FileOK mal f done →
    ∃ f', loadSyms mal f done.length l = some f' ∧ FileOK mal f' (done ++ l)
  | [], f, done, _, h => ⟨f, rfl, by simpa using h⟩
  | s :: l, f, done, hs, h => by
    obtain ⟨f1, e1, h1⟩ := loadSym_ok hz hinj (hs s (by simp)) h
    obtain ⟨f2, e2, h2⟩ := loadSyms_ok hz hinj (l := l) (fun x hx => hs x (by simp [hx])) h1
    refine ⟨f2, ?_, by simpa using h2⟩
    rw [loadSyms, e1, Option.bind_some]
    simpa using e2

theorem removeUseless_eq (l : List ASym) : removeUseless l = table l [] [] := by
  rw [removeUseless, table, List.append_nil]
  have : (if l ≠ [] then l else []) = l := by
    by_cases h : l = [] <;> simp [h]
  rw [this]
  apply List.filter_congr
  intro x _
  rw [Bool.eq_iff_iff, keep_iff]
  simp

end Ulp.Bfd
