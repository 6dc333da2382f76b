/-
C29: `list_sort` sorts stably.
-/
import Verif.Proof.SortLoop
import Verif.Props.CList
import Verif.Spec.Sorted
namespace Ulp.CList
open Ulp.Sorted

/-- The whole of `list_sort` as a function on sequences. -/
def sortAll (le : Nat → Nat → Bool) (xs : List Nat) : List Nat :=
  match xs with
  | [] => []
  | [x] => [x]
  | x :: y :: r =>
    match sortF le (x :: y :: r) 0 [] with
    | [] => []
    | l :: ls => List.merge (collapseF le ls l).1 (collapseF le ls l).2 le

theorem SL_of_Linked {h : Heap} (h0 : h 0 = none) : ∀ (l : List Nat) (last p : Nat),
    Linked h (p :: l ++ [last]) → last ∉ p :: l → (p :: l).Nodup → (h last).isSome = true →
    SL (wN h last 0) p (p :: l ++ [last])
  | [], last, p, hk, hl, _, hv => by
    have hp : p ≠ 0 := by
      intro e
      have := live_of_next hk.1
      rw [e, h0] at this
      cases this
    have hl0 : last ≠ 0 := by
      intro e
      rw [e, h0] at hv
      cases hv
    have hpl : p ≠ last := fun e => hl (by simp [e])
    exact ⟨rfl, hp, last, by rw [next_wN_ne hpl]; exact hk.1, rfl, hl0, 0, next_wN_self 0 hv, rfl⟩
  | q :: l, last, p, hk, hl, hnd, hv => by
    have hp : p ≠ 0 := by
      intro e
      have := live_of_next hk.1
      rw [e, h0] at this
      cases this
    have hpl : p ≠ last := fun e => hl (by simp [e])
    exact ⟨rfl, hp, q, by rw [next_wN_ne hpl]; exact hk.1,
      SL_of_Linked h0 l last q hk.2.2 (fun hm => hl (List.mem_cons_of_mem _ hm))
        (List.nodup_cons.1 hnd).2 hv⟩

theorem sortF_flatten (le : Nat → Nat → Bool) : ∀ (xs : List Nat) (count : Nat) (ls : List (List Nat)),
    (sortF le xs count ls).flatten.Perm (ls.flatten ++ xs)
  | [], _, _ => by simp [sortF]
  | x :: xs, count, ls => by
    rw [sortF]
    refine (sortF_flatten le xs _ _).trans ?_
    rw [List.flatten_cons, List.singleton_append, List.cons_append]
    exact (((mergeAt_flatten le ls count).append_right xs).cons x).trans List.perm_middle.symm

/-- C29: for every comparison function, `list_sort` terminates, never looks at
memory that is not there, changes only the list, and leaves a well-formed list
with the elements `sortAll` says. -/
theorem listSort_spec (cmp : Nat → Nat → Int) {h : Heap} {head : Nat} {xs : List Nat}
    (hl : IsList h head xs) (h0 : h 0 = none) :
    ∃ h', listSort cmp h head = some h' ∧ IsList h' head (sortAll (leOf cmp) xs) ∧
      (sortAll (leOf cmp) xs).Perm xs ∧ SameOutside h h' (head :: xs) := by
  obtain ⟨hnd, y, r, e, hk⟩ := id hl
  cases e
  match xs, hl, hnd, hk with
  | [], hl, hnd, hk =>
    have hn : next h head = some head := hk.1
    have hp : prev h head = some head := hk.2.1
    refine ⟨h, ?_, hl, .refl _, fun _ _ => rfl⟩
    unfold listSort
    simp [hn, hp]
  | [x], hl, hnd, hk =>
    have hn : next h head = some x := hk.1
    have hp : prev h head = some x := hk.2.2.2.1
    refine ⟨h, ?_, hl, .refl _, fun _ _ => rfl⟩
    unfold listSort
    simp [hn, hp]
  | x :: y :: r, hl, hnd, hk =>
    have hn : next h head = some x := hk.1
    obtain ⟨l, p, el, hpl, hll, hnp, hph⟩ := Ring.last hl
    cases l with
    | nil => simp at el
    | cons q l =>
      simp only [List.cons_append, List.cons.injEq] at el
      obtain ⟨rfl, el⟩ := el
      cases l with
      | nil => simp at el
      | cons q l =>
        simp only [List.cons_append, List.cons.injEq] at el
        obtain ⟨rfl, el⟩ := el
        have hxp : ¬ x = p := fun e => hpl (by simp [e])
        have hpv : (h p).isSome = true := live_of_next hnp
        have exs : x :: y :: r = x :: l ++ [p] := by rw [List.cons_append, ← el]
        have hS : SL (wN h p 0) x (x :: y :: r) := by
          rw [exs]
          refine SL_of_Linked h0 l p x ?_ (fun hm => hpl (List.mem_cons_of_mem _ hm)) ?_ hpv
          · exact hll.2.2
          · have := (List.nodup_cons.1 hnd).2
            rw [exs] at this
            exact (List.nodup_append.1 this).1
        have hP0 : PL (wN h p 0) 0 [] := rfl
        obtain ⟨h1, p1, e1, P1, L1, f1⟩ := sortLoop_spec cmp (y :: r) x (wN h p 0) x 0 0 [] hS hP0
          (by rw [blen_zero]; rfl) (by simpa using (List.nodup_cons.1 hnd).2)
        have hfl := sortF_flatten (leOf cmp) (x :: y :: r) 0 []
        simp only [List.flatten_nil, List.nil_append] at hfl
        have hlen2 : 2 ≤ (sortF (leOf cmp) (x :: y :: r) 0 []).length := by
          rw [L1, blen, if_neg (by simp), blen, if_neg (by simp)]
          omega
        have hsa : sortAll (leOf cmp) (x :: y :: r) =
          match sortF (leOf cmp) (x :: y :: r) 0 [] with
          | [] => []
          | l :: ls => List.merge (collapseF (leOf cmp) ls l).1 (collapseF (leOf cmp) ls l).2
              (leOf cmp) := rfl
        rw [hsa]
        generalize hls : sortF (leOf cmp) (x :: y :: r) 0 [] = ls at P1 hlen2 hfl
        cases ls with
        | nil => simp at hlen2
        | cons l1 ls =>
          cases ls with
          | nil => simp at hlen2
          | cons l2 ls =>
            obtain ⟨hl1, hs1, q1, hq1, P2⟩ := P1
            have hper : ((l2 :: ls).flatten ++ l1).Perm (x :: y :: r) := by
              refine List.perm_append_comm.trans ?_
              rw [List.flatten_cons] at hfl
              exact hfl
            have hnd2 : ((l2 :: ls).flatten ++ l1).Nodup :=
              hper.symm.nodup (List.nodup_cons.1 hnd).2
            obtain ⟨h2, p2, l3, e2, a2, b2, s2, t2, pm2, f2⟩ := collapse_spec cmp (l2 :: ls) h1 q1 p1
              l1 (by simp) hl1 P2 hs1 hnd2
            have hhead : head ∉ x :: y :: r := (List.nodup_cons.1 hnd).1
            have hhp : head ≠ p := fun e => hpl (by simp [e])
            have hlive2 : (h2 head).isSome = true := by
              rw [f2 head fun hm => hhead (hper.mem_iff.1 hm),
                f1 head (by simpa using hhead), wN_ne hhp]
              exact live_of_next hn
            dsimp only
            generalize ecl : collapseF (leOf cmp) (l2 :: ls) l1 = ab at a2 b2 s2 t2 pm2
            obtain ⟨A, B⟩ := ab
            dsimp only at a2 b2 s2 t2 pm2 ⊢
            cases A with
            | nil => exact absurd rfl a2
            | cons xa A =>
              cases B with
              | nil => exact absurd rfl b2
              | cons xb B =>
                have hpm : ((xa :: A) ++ (xb :: B)).Perm (x :: y :: r) := pm2.trans hper
                have hhn : head ∉ (xa :: A) ++ (xb :: B) := fun hm => hhead (hpm.mem_iff.1 hm)
                obtain ⟨h3, e3, k3, n3, v3⟩ := finalFrom_spec cmp _ h2 head head xa xb A B p2 l3 rfl
                  s2 t2 (List.nodup_cons.2 ⟨hhn, hpm.symm.nodup (List.nodup_cons.1 hnd).2⟩)
                  hlive2 hhn hlive2
                have hmp := (List.merge_perm_append (leOf cmp) (xs := xa :: A) (ys := xb :: B)).trans
                  hpm
                refine ⟨h3, ?_, ⟨?_, head, _, rfl, k3⟩, hmp, ?_⟩
                · unfold listSort
                  simp only [hn, hph, Option.bind_eq_bind, Option.bind_some, if_neg hxp,
                    setNext_live 0 hpv, e1, hq1, e2, mergeFinal_eq]
                  exact e3
                · exact List.nodup_cons.2 ⟨fun hm => hhead (hmp.mem_iff.1 hm),
                    hmp.symm.nodup (List.nodup_cons.1 hnd).2⟩
                · intro z hz
                  have hzh : z ≠ head := fun e => hz (by simp [e])
                  have hzx : z ∉ x :: y :: r := fun hm => hz (List.mem_cons_of_mem _ hm)
                  have hz2 : z ∉ (xa :: A) ++ (xb :: B) := fun hm => hzx (hpm.mem_iff.1 hm)
                  rw [heap_ext (n3 z hz2 hzh) (v3 z hz2 hzh),
                    f2 z fun hm => hzx (hper.mem_iff.1 hm), f1 z (by simpa using hzx),
                    wN_ne fun e => hzx (by rw [exs, e]; simp)]

/-! ### The order of the result -/

section Order
variable {le : Nat → Nat → Bool} (tot : ∀ a b, le a b = true ∨ le b a = true)
  (tr : ∀ a b c, le a b = true → le b c = true → le a c = true)
include tot tr

/-- Ascending. -/
abbrev Asc (le : Nat → Nat → Bool) (l : List Nat) : Prop := l.Pairwise fun a b => le a b = true

theorem merge_asc {l r : List Nat} (hl : Asc le l) (hr : Asc le r) : Asc le (List.merge l r le) :=
  List.pairwise_merge tr (fun a b => by rcases tot a b with h | h <;> simp [h]) l r hl hr

theorem merge_filter (c : Nat) : ∀ (l r : List Nat), Asc le l → Asc le r →
    (List.merge l r le).filter (same le c) = l.filter (same le c) ++ r.filter (same le c)
  | [], r, _, _ => by simp
  | x :: l, [], _, _ => by simp
  | x :: l, y :: r, hl, hr => by
    by_cases h : le x y = true
    · rw [List.cons_merge_cons_pos _ _ _ h, List.filter_cons, List.filter_cons,
        merge_filter c l (y :: r) (List.pairwise_cons.1 hl).2 hr]
      split <;> simp
    · rw [List.cons_merge_cons_neg _ _ _ h, List.filter_cons,
        merge_filter c (x :: l) r hl (List.pairwise_cons.1 hr).2, List.filter_cons (x := y)]
      split
      · rename_i hs
        have hempty : (x :: l).filter (same le c) = [] := by
          rw [List.filter_eq_nil_iff]
          intro z hz hsz
          simp only [same, Bool.and_eq_true] at hs hsz
          have hxz : le x z = true := by
            rcases List.mem_cons.1 hz with rfl | hz
            · rcases tot z z with h | h <;> exact h
            · exact (List.pairwise_cons.1 hl).1 z hz
          exact h (tr x z y hxz (tr z c y hsz.1 hs.2))
        rw [hempty]
        simp
      · rfl

/-- The pending lists in the order of the input. -/
def flatR (ls : List (List Nat)) : List Nat := ls.reverse.flatten

omit tot tr in
theorem flatR_cons (l : List Nat) (ls : List (List Nat)) : flatR (l :: ls) = flatR ls ++ l := by
  simp [flatR]

theorem mergeAt_asc : ∀ (ls : List (List Nat)) (bits : Nat), (∀ l ∈ ls, Asc le l) →
    ∀ l ∈ mergeAt le bits ls, Asc le l
  | [], _, _ => by simp [mergeAt]
  | l :: r, bits, hg => by
    intro m hm
    rw [mergeAt] at hm
    split at hm
    · rcases List.mem_cons.1 hm with rfl | hm
      · exact hg _ (by simp)
      · exact mergeAt_asc r _ (fun l hl => hg l (List.mem_cons_of_mem _ hl)) m hm
    · split at hm
      · exact hg m hm
      · cases r with
        | nil => exact hg m hm
        | cons k r =>
          rcases List.mem_cons.1 hm with rfl | hm
          · exact merge_asc tot tr (hg k (by simp)) (hg l (by simp))
          · exact hg m (by simp [hm])

theorem mergeAt_filter (c : Nat) : ∀ (ls : List (List Nat)) (bits : Nat), (∀ l ∈ ls, Asc le l) →
    (flatR (mergeAt le bits ls)).filter (same le c) = (flatR ls).filter (same le c)
  | [], _, _ => by simp [mergeAt]
  | l :: r, bits, hg => by
    rw [mergeAt]
    split
    · rw [flatR_cons, flatR_cons, List.filter_append, List.filter_append,
        mergeAt_filter c r _ fun l hl => hg l (List.mem_cons_of_mem _ hl)]
    · split
      · rfl
      · cases r with
        | nil => rfl
        | cons k r =>
          rw [mergeTop, flatR_cons, flatR_cons, flatR_cons, List.filter_append, List.filter_append,
            List.filter_append, merge_filter tot tr c k l (hg k (by simp)) (hg l (by simp)),
            List.append_assoc]

theorem sortF_order (c : Nat) : ∀ (xs : List Nat) (count : Nat) (ls : List (List Nat)),
    (∀ l ∈ ls, Asc le l) → (∀ l ∈ sortF le xs count ls, Asc le l) ∧
    (flatR (sortF le xs count ls)).filter (same le c) = (flatR ls ++ xs).filter (same le c)
  | [], _, ls, hg => by simpa [sortF] using hg
  | x :: xs, count, ls, hg => by
    rw [sortF]
    have hg2 : ∀ l ∈ [x] :: mergeAt le count ls, Asc le l := by
      intro l hl
      rcases List.mem_cons.1 hl with rfl | hl
      · simp
      · exact mergeAt_asc tot tr ls count hg l hl
    obtain ⟨h1, h2⟩ := sortF_order c xs (count + 1) _ hg2
    refine ⟨h1, ?_⟩
    rw [h2, flatR_cons, List.append_assoc, List.filter_append, List.filter_append,
      mergeAt_filter tot tr c ls count hg, List.filter_append (l₁ := flatR ls),
      show x :: xs = [x] ++ xs from rfl, List.filter_append]

theorem collapseF_order (c : Nat) : ∀ (ls : List (List Nat)) (acc : List Nat),
    (∀ l ∈ ls, Asc le l) → Asc le acc →
    Asc le (collapseF le ls acc).1 ∧ Asc le (collapseF le ls acc).2 ∧
    ((collapseF le ls acc).1 ++ (collapseF le ls acc).2).filter (same le c) =
      (flatR ls ++ acc).filter (same le c)
  | [], acc, _, ha => by simp [collapseF, flatR, ha]
  | [l], acc, hg, ha => by
    refine ⟨hg l (by simp), ha, ?_⟩
    simp [collapseF, flatR]
  | l :: m :: r, acc, hg, ha => by
    rw [collapseF]
    obtain ⟨h1, h2, h3⟩ := collapseF_order c (m :: r) (List.merge l acc le)
      (fun k hk => hg k (List.mem_cons_of_mem _ hk)) (merge_asc tot tr (hg l (by simp)) ha)
    refine ⟨h1, h2, ?_⟩
    rw [h3, flatR_cons (l := l), List.filter_append, List.filter_append,
      merge_filter tot tr c l acc (hg l (by simp)) ha, List.filter_append, List.append_assoc]

theorem sortAll_order (c : Nat) (xs : List Nat) :
    Asc le (sortAll le xs) ∧ (sortAll le xs).filter (same le c) = xs.filter (same le c) := by
  match xs with
  | [] => simp [sortAll]
  | [x] => simp [sortAll]
  | x :: y :: r =>
    have hso := sortF_order tot tr c (x :: y :: r) 0 [] (by simp)
    have hfl := sortF_flatten le (x :: y :: r) 0 []
    have hsa : sortAll le (x :: y :: r) =
      match sortF le (x :: y :: r) 0 [] with
      | [] => []
      | l :: ls => List.merge (collapseF le ls l).1 (collapseF le ls l).2 le := rfl
    rw [hsa]
    generalize sortF le (x :: y :: r) 0 [] = ls at hso hfl
    cases ls with
    | nil =>
      have := hfl.length_eq
      simp at this
    | cons l ls =>
      obtain ⟨h1, h2, h3⟩ := collapseF_order tot tr c ls l
        (fun k hk => hso.1 k (List.mem_cons_of_mem _ hk)) (hso.1 l (by simp))
      refine ⟨merge_asc tot tr h1 h2, ?_⟩
      dsimp only
      rw [merge_filter tot tr c _ _ h1 h2, ← List.filter_append, h3, ← flatR_cons, hso.2]
      simp [flatR]

end Order

/-- C29: `list_sort`, for every list and every comparison function that is a
total preorder, terminates without touching memory that is not there, changes
nothing but the list, and leaves a well-formed list with the elements stably
sorted. -/
theorem C29_sort (cmp : Nat → Nat → Int) {h : Heap} {head : Nat} {xs : List Nat}
    (hl : IsList h head xs) (h0 : h 0 = none)
    (tot : ∀ a b, cmp a b ≤ 0 ∨ cmp b a ≤ 0)
    (tr : ∀ a b c, cmp a b ≤ 0 → cmp b c ≤ 0 → cmp a c ≤ 0) :
    ∃ h' ys, listSort cmp h head = some h' ∧ IsList h' head ys ∧
      StableSort (fun a b => decide (cmp a b ≤ 0)) xs ys ∧ SameOutside h h' (head :: xs) := by
  obtain ⟨h', e, hr, hp, hs⟩ := listSort_spec cmp hl h0
  have ord := sortAll_order (le := leOf cmp)
    (fun a b => by simpa [leOf] using tot a b)
    (fun a b c h1 h2 => by
      simp only [leOf, decide_eq_true_eq] at h1 h2 ⊢
      exact tr a b c h1 h2)
  exact ⟨h', _, e, hr, ⟨hp, (ord 0 xs).1, fun c => (ord c xs).2⟩, hs⟩

/-- C29: even with a comparison function that is no order at all, `list_sort`
terminates without touching memory that is not there, and leaves a well-formed
list with the same elements. -/
theorem C29_any_comparison (cmp : Nat → Nat → Int) {h : Heap} {head : Nat} {xs : List Nat}
    (hl : IsList h head xs) (h0 : h 0 = none) :
    ∃ h' ys, listSort cmp h head = some h' ∧ IsList h' head ys ∧ ys.Perm xs ∧
      SameOutside h h' (head :: xs) := by
  obtain ⟨h', e, hr, hp, hs⟩ := listSort_spec cmp hl h0
  exact ⟨h', _, e, hr, hp, hs⟩

/-! Non-vacuity: a list of five elements ordered by their last decimal digit. -/

def exCmp (a b : Nat) : Int := (a % 10 : Int) - (b % 10 : Int)

def exList : Heap := fun x =>
  if x = 1 then some ⟨23, 12⟩ else if x = 23 then some ⟨31, 1⟩ else if x = 31 then some ⟨22, 23⟩ else
  if x = 22 then some ⟨13, 31⟩ else if x = 13 then some ⟨12, 22⟩ else
  if x = 12 then some ⟨1, 13⟩ else none

example : IsList exList 1 [23, 31, 22, 13, 12] ∧ exList 0 = none ∧
    (∀ a b, exCmp a b ≤ 0 ∨ exCmp b a ≤ 0) ∧
    (∀ a b c, exCmp a b ≤ 0 → exCmp b c ≤ 0 → exCmp a c ≤ 0) := by
  refine ⟨⟨by decide, 1, _, rfl, rfl, rfl, rfl, rfl, rfl, rfl, rfl, rfl, rfl, rfl, rfl, rfl, trivial⟩,
    rfl, ?_, ?_⟩
  · intro a b; unfold exCmp; omega
  · intro a b c; unfold exCmp; omega

example : ((listSort exCmp exList 1).bind fun h => next h 1) = some 31 := by
  obtain ⟨h', ys, e, hl, hs, _⟩ := C29_sort exCmp (h := exList) (head := 1)
    (xs := [23, 31, 22, 13, 12])
    ⟨by decide, 1, _, rfl, rfl, rfl, rfl, rfl, rfl, rfl, rfl, rfl, rfl, rfl, rfl, rfl, trivial⟩ rfl
    (by intro a b; unfold exCmp; omega) (by intro a b c; unfold exCmp; omega)
  rw [e]
  have hm : 31 ∈ ys := hs.perm.mem_iff.2 (by simp)
  obtain ⟨_, x, r, ee, hk⟩ := hl
  cases ee
  cases ys with
  | nil => cases hm
  | cons y ys =>
    have hy : y ∈ [23, 31, 22, 13, 12] := hs.perm.mem_iff.1 (by simp)
    have hle : exCmp y 31 ≤ 0 := by
      rcases List.mem_cons.1 hm with e | hm
      · rw [← e]; decide
      · simpa using (List.pairwise_cons.1 hs.ascending).1 31 hm
    have : y = 31 := by
      simp only [List.mem_cons, List.not_mem_nil, or_false] at hy
      rcases hy with rfl | rfl | rfl | rfl | rfl <;> first | rfl | (exfalso; revert hle; decide)
    rw [← this]
    exact hk.1

end Ulp.CList
