/-
C28: linked lists behave as sequences.
-/
import Verif.Proof.CList
namespace Ulp.CList

/-! ### The single operations -/

/-- C28: initialising gives an empty list, whatever the node held before. -/
theorem C28_init {h : Heap} {l : Nat} (hv : (h l).isSome = true) :
    ∃ h', listInit h l = some h' ∧ IsList h' l [] ∧ SameOutside h h' [l] := by
  refine ⟨wP (wN h l l) l l, ?_, ⟨by simp, l, [], rfl, ?_⟩, ?_⟩
  · unfold listInit
    simp only [Option.bind_eq_bind, setPrev_live, setNext_live, isSome_wN, hv, Option.bind_some]
  · refine ⟨?_, ?_, trivial⟩
    · rw [next_wP]
      exact next_wN_self _ hv
    · exact prev_wP_self _ (by rw [isSome_wN]; exact hv)
  · intro x hx
    have : x ≠ l := by simpa using hx
    rw [wP_ne this, wN_ne this]

/-- C28: `list_add` appends. -/
theorem C28_add {h : Heap} {head new : Nat} {xs : List Nat} (hl : IsList h head xs)
    (hf : new ∉ head :: xs) (hv : (h new).isSome = true) :
    ∃ h', listAdd h new head = some h' ∧ IsList h' head (xs ++ [new]) ∧
      SameOutside h h' (new :: head :: xs) := by
  obtain ⟨p, h', hp, _, _, he, hr, hs⟩ := add_ring hl hf hv
  refine ⟨h', ?_, hr, ?_⟩
  · unfold listAdd
    rw [hp]
    exact he
  · intro x hx
    refine hs x ?_
    simp only [List.mem_cons, not_or] at hx
    simp [hx.1, hx.2.1, hx.2.2]

/-- C28: `list_add_head` prepends. -/
theorem C28_add_head {h : Heap} {head new : Nat} {xs : List Nat} (hl : IsList h head xs)
    (hf : new ∉ head :: xs) (hv : (h new).isSome = true) :
    ∃ h', listAddHead h new head = some h' ∧ IsList h' head (new :: xs) ∧
      SameOutside h h' (new :: head :: xs) := by
  cases xs with
  | nil =>
    obtain ⟨p, h', hp, hpm, hnp, he, hr, hs⟩ := add_ring hl hf hv
    have : p = head := by simpa using hpm
    subst this
    refine ⟨h', ?_, hr, ?_⟩
    · unfold listAddHead
      rw [hnp]
      exact he
    · intro x hx
      refine hs x ?_
      simp only [List.mem_cons, not_or] at hx
      simp [hx.1, hx.2.1]
  | cons q xs =>
    have hrot : Ring h (q :: (xs ++ [head])) := Ring.rotate (a := [head]) (b := q :: xs) hl
    obtain ⟨p, h', hp, hpm, hnp, he, hr, hs⟩ := add_ring (new := new) hrot
      (by simp only [List.mem_cons, List.mem_append, not_or] at hf ⊢; simp [hf.1, hf.2.1, hf.2.2]) hv
    have hph : p = head := by
      obtain ⟨_, x, r, e, hl⟩ := hl
      cases e
      have : prev h q = some head := hl.2.1
      rw [hp] at this
      exact Option.some.inj this
    subst hph
    refine ⟨h', ?_, ?_, ?_⟩
    · unfold listAddHead
      rw [hnp]
      exact he
    · have := Ring.rotate (a := q :: xs) (b := [p, new]) (by simpa using hr)
      simpa [IsList] using this
    · intro x hx
      refine hs x ?_
      simp only [List.mem_cons, not_or] at hx
      simp [hx.1, hx.2.1, hx.2.2.1, hx.2.2.2]

/-- C28: `list_del` removes the element; the removed node itself is not touched. -/
theorem C28_del {h : Heap} {head x : Nat} {a b : List Nat} (hl : IsList h head (a ++ x :: b)) :
    ∃ h', listDel h x = some h' ∧ IsList h' head (a ++ b) ∧
      SameOutside h h' (head :: (a ++ b)) ∧ h' x = h x := by
  have hrot : Ring h (x :: (b ++ head :: a)) := by
    have := Ring.rotate (a := head :: a) (b := x :: b) hl
    simpa using this
  obtain ⟨h', he, hr, hs, hx⟩ := del_ring hrot (by simp)
  refine ⟨h', he, Ring.rotate (a := b) (b := head :: a) hr, ?_, hx⟩
  intro y hy
  refine hs y ?_
  simp only [List.mem_cons, List.mem_append, not_or] at hy ⊢
  exact ⟨hy.2.2, hy.1, hy.2.1⟩

/-- C28: `list_replace` puts the new element in the place of the old one. -/
theorem C28_replace {h : Heap} {head old new : Nat} {a b : List Nat}
    (hl : IsList h head (a ++ old :: b)) (hf : new ∉ head :: (a ++ old :: b))
    (hv : (h new).isSome = true) : ∃ h', listReplace h old new = some h' ∧
      IsList h' head (a ++ new :: b) ∧ SameOutside h h' (new :: head :: (a ++ old :: b)) := by
  have hrot : Ring h (old :: (b ++ head :: a)) := by
    have := Ring.rotate (a := head :: a) (b := old :: b) hl
    simpa using this
  obtain ⟨h', he, hr, hs⟩ := replace_ring (new := new) hrot (by
    simp only [List.mem_cons, List.mem_append, not_or] at hf ⊢
    exact ⟨hf.2.2.1, hf.2.2.2, hf.1, hf.2.1⟩) hv
  refine ⟨h', he, Ring.rotate (a := new :: b) (b := head :: a) hr, ?_⟩
  intro y hy
  refine hs y ?_
  simp only [List.mem_cons, List.mem_append, not_or] at hy ⊢
  exact ⟨hy.1, hy.2.2.2.1, hy.2.2.2.2, hy.2.1, hy.2.2.1⟩

/-- C28: replacing a list head moves the whole list to the new head. -/
theorem C28_replace_head {h : Heap} {old new : Nat} {xs : List Nat}
    (hl : IsList h old xs) (hf : new ∉ old :: xs) (hv : (h new).isSome = true) :
    ∃ h', listReplace h old new = some h' ∧ IsList h' new xs ∧
      SameOutside h h' (new :: old :: xs) := replace_ring hl hf hv

theorem isSome_of_sameOutside {h h' : Heap} {l : List Nat} (hs : SameOutside h h' l) {x : Nat}
    (hx : x ∉ l) (hv : (h x).isSome = true) : (h' x).isSome = true := by
  rw [hs x hx]
  exact hv

/-- C28: `list_move` and `list_move_tail` within a list put the element at its
end. -/
theorem C28_move_same {h : Heap} {head x : Nat} {a b : List Nat} (hl : IsList h head (a ++ x :: b)) :
    ∃ h', listMove h x head = some h' ∧ listMoveTail h x head = some h' ∧
      IsList h' head (a ++ b ++ [x]) ∧ SameOutside h h' (head :: (a ++ x :: b)) := by
  obtain ⟨h1, he, hr, hs, hx⟩ := C28_del hl
  have hv : (h1 x).isSome = true := by
    rw [hx]
    exact Ring.live hl x (by simp)
  have hnm : x ∉ head :: (a ++ b) := by
    have hnd := hl.1
    simp only [List.nodup_cons, List.nodup_append, List.mem_append, List.mem_cons, not_or] at hnd ⊢
    exact ⟨fun e => hnd.1.2.1 e.symm, fun hc => hnd.2.2.2 x hc x (Or.inl rfl) rfl, hnd.2.2.1.1⟩
  obtain ⟨h2, he2, hr2, hs2⟩ := C28_add hr hnm hv
  refine ⟨h2, ?_, ?_, hr2, ?_⟩
  · unfold listMove; rw [he]; exact he2
  · unfold listMoveTail; rw [he]; exact he2
  · intro y hy
    simp only [List.mem_cons, List.mem_append, not_or] at hy
    rw [hs2 y (by simp [hy]), hs y (by simp [hy])]

/-- C28: `list_move` and `list_move_tail` to another list remove the element
from its list and append it to the other one. -/
theorem C28_move_other {h : Heap} {head x other : Nat} {a b c : List Nat}
    (hl : IsList h head (a ++ x :: b)) (ho : IsList h other c)
    (hd : ∀ y ∈ head :: (a ++ x :: b), y ∉ other :: c) :
    ∃ h', listMove h x other = some h' ∧ listMoveTail h x other = some h' ∧
      IsList h' head (a ++ b) ∧ IsList h' other (c ++ [x]) ∧
      SameOutside h h' (head :: (a ++ x :: b) ++ other :: c) := by
  obtain ⟨h1, he, hr, hs, hx⟩ := C28_del hl
  have hv : (h1 x).isSome = true := by
    rw [hx]
    exact Ring.live hl x (by simp)
  have hsub : ∀ y ∈ head :: (a ++ b), y ∈ head :: (a ++ x :: b) := by
    intro y hy
    simp only [List.mem_cons, List.mem_append] at hy ⊢
    rcases hy with h | h | h <;> simp [h]
  have ho1 : IsList h1 other c := Ring.congr ho fun y hy => hs y fun hc => hd y (hsub y hc) hy
  have hxo : x ∉ other :: c := hd x (by simp)
  obtain ⟨h2, he2, hr2, hs2⟩ := C28_add ho1 hxo hv
  have hnd := hl.1
  have hnm : x ∉ head :: (a ++ b) := by
    simp only [List.nodup_cons, List.nodup_append, List.mem_append, List.mem_cons, not_or] at hnd ⊢
    exact ⟨fun e => hnd.1.2.1 e.symm, fun hc => hnd.2.2.2 x hc x (Or.inl rfl) rfl, hnd.2.2.1.1⟩
  refine ⟨h2, ?_, ?_, ?_, hr2, ?_⟩
  · unfold listMove; rw [he]; exact he2
  · unfold listMoveTail; rw [he]; exact he2
  · refine Ring.congr hr fun y hy => hs2 y ?_
    intro hc
    rcases List.mem_cons.1 hc with e | hc
    · exact hnm (e ▸ hy)
    · exact hd y (hsub y hy) hc
  · intro y hy
    simp only [List.mem_cons, List.mem_append, not_or] at hy
    rw [hs2 y (by simp [hy]), hs y (by simp [hy])]

/-- C28: `list_rotate_left` moves the first element to the end. -/
theorem C28_rotate {h : Heap} {head : Nat} {xs : List Nat} (hl : IsList h head xs) :
    ∃ h', listRotateLeft h head = some h' ∧
      IsList h' head (xs.drop 1 ++ xs.take 1) ∧ SameOutside h h' (head :: xs) := by
  cases xs with
  | nil =>
    obtain ⟨_, x, r, e, hk⟩ := id hl
    cases e
    have hn : next h head = some head := hk.1
    refine ⟨h, ?_, hl, fun _ _ => rfl⟩
    unfold listRotateLeft listEmpty
    simp [hn]
  | cons x xs =>
    obtain ⟨hnd, y, r, e, hk⟩ := id hl
    cases e
    have hn : next h head = some x := hk.1
    have hxh : ¬ x = head := by
      intro e
      rw [e] at hnd
      simp at hnd
    obtain ⟨h', _, he, hr, hs⟩ := C28_move_same (a := []) hl
    refine ⟨h', ?_, by simpa using hr, by simpa using hs⟩
    unfold listRotateLeft listEmpty
    simp only [Option.bind_eq_bind, hn, Option.bind_some, Option.pure_def, hxh, decide_false]
    exact he

/-- C28: `__list_cut_position` moves everything up to `entry` to the fresh head
`list`. -/
theorem C28_cut {h : Heap} {list head entry : Nat} {a b : List Nat}
    (hl : IsList h head (a ++ entry :: b)) (hf : list ∉ head :: (a ++ entry :: b))
    (hv : (h list).isSome = true) : ∃ h', listCutPosition h list head entry = some h' ∧
      IsList h' list (a ++ [entry]) ∧ IsList h' head b ∧
      SameOutside h h' (list :: head :: (a ++ entry :: b)) := cut_ring hl hf hv

/-- C28: `list_splice` puts the elements of one list in front of those of
another. -/
theorem C28_splice {h : Heap} {list head : Nat} {a b : List Nat} (h1 : IsList h list a)
    (h2 : IsList h head b) (hd : ∀ x ∈ list :: a, x ∉ head :: b) :
    ∃ h', listSplice h list head = some h' ∧ IsList h' head (a ++ b) ∧
      SameOutside h h' (head :: (a ++ b)) := by
  obtain ⟨hnd, y, r, e, hk⟩ := id h1
  cases e
  cases a with
  | nil =>
    have hn : next h list = some list := hk.1
    refine ⟨h, ?_, h2, fun _ _ => rfl⟩
    unfold listSplice listEmpty
    simp [hn]
  | cons f a =>
    have hn : next h list = some f := hk.1
    have hfl : ¬ f = list := by
      intro e
      rw [e] at hnd
      simp at hnd
    have hemp : listSplice h list head = (next h head).bind fun n => listSplice' h list head n := by
      unfold listSplice listEmpty
      simp only [Option.bind_eq_bind, hn, Option.bind_some, Option.pure_def, hfl, decide_false]
      rfl
    cases b with
    | nil =>
      obtain ⟨p, h', hp, hpm, hnp, he, hr, hs⟩ := splice_ring h1 (by simp) h2 hd
      have : p = head := by simpa using hpm
      subst this
      refine ⟨h', by rw [hemp, hnp]; exact he, by simpa [IsList] using hr, by simpa using hs⟩
    | cons q b =>
      have hrot : Ring h (q :: (b ++ [head])) := Ring.rotate (a := [head]) (b := q :: b) h2
      obtain ⟨p, h', hp, hpm, hnp, he, hr, hs⟩ := splice_ring h1 (by simp) hrot (by
        intro x hx hc
        refine hd x hx ?_
        simp only [List.mem_cons, List.mem_append, List.not_mem_nil, or_false] at hc ⊢
        rcases hc with h | h | h <;> simp [h])
      have hph : p = head := by
        obtain ⟨_, x, r, e, hl⟩ := h2
        cases e
        have : prev h q = some head := hl.2.1
        rw [hp] at this
        exact Option.some.inj this
      subst hph
      refine ⟨h', by rw [hemp, hnp]; exact he, ?_, ?_⟩
      · have := Ring.rotate (a := q :: b) (b := p :: f :: a) (by simpa using hr)
        simpa [IsList] using this
      · intro y hy
        refine hs y ?_
        simp only [List.mem_cons, List.mem_append, not_or] at hy ⊢
        simp [hy]

/-- C28: `list_splice_tail` puts the elements of one list behind those of
another. -/
theorem C28_splice_tail {h : Heap} {list head : Nat} {a b : List Nat} (h1 : IsList h list a)
    (h2 : IsList h head b) (hd : ∀ x ∈ list :: a, x ∉ head :: b) :
    ∃ h', listSpliceTail h list head = some h' ∧ IsList h' head (b ++ a) ∧
      SameOutside h h' (head :: (b ++ a)) := by
  obtain ⟨hnd, y, r, e, hk⟩ := id h1
  cases e
  cases a with
  | nil =>
    have hn : next h list = some list := hk.1
    refine ⟨h, ?_, by simpa using h2, fun _ _ => rfl⟩
    unfold listSpliceTail listEmpty
    simp [hn]
  | cons f a =>
    have hn : next h list = some f := hk.1
    have hfl : ¬ f = list := by
      intro e
      rw [e] at hnd
      simp at hnd
    obtain ⟨p, h', hp, hpm, hnp, he, hr, hs⟩ := splice_ring h1 (by simp) h2 hd
    refine ⟨h', ?_, hr, hs⟩
    unfold listSpliceTail listEmpty
    simp only [Option.bind_eq_bind, hn, Option.bind_some, Option.pure_def, hfl, decide_false, hp]
    exact he

/-- C28: the tests answer about the sequence. -/
theorem C28_tests {h : Heap} {head : Nat} {xs : List Nat} (hl : IsList h head xs) :
    listEmpty h head = some (decide (xs = [])) ∧
    listEmptyCareful h head = some (decide (xs = [])) ∧
    listIsSingular h head = some (decide (xs.length = 1)) ∧
    ∀ x ∈ xs, listIsLast h x head = some (decide (xs.getLast? = some x)) := by
  obtain ⟨l, p, e, hpl, hll, hnp, hpq⟩ := Ring.last hl
  obtain ⟨hnd, y, r, ee, hk⟩ := id hl
  cases ee
  have hlast : ∀ x ∈ xs, listIsLast h x head = some (decide (xs.getLast? = some x)) := by
    intro x hx
    obtain ⟨a, b, rfl⟩ := List.append_of_mem hx
    unfold listIsLast
    have hk2 : Linked h ((head :: a) ++ x :: (b ++ [head])) := by simpa using hk
    rw [Linked_split] at hk2
    have hnd' := hnd
    simp only [List.nodup_cons, List.nodup_append, List.mem_append, List.mem_cons, not_or] at hnd'
    cases b with
    | nil =>
      have hn : next h x = some head := hk2.2.1
      simp [hn]
    | cons c b =>
      have hn : next h x = some c := hk2.2.1
      have hch : ¬ c = head := by
        intro e
        exact hnd'.1.2.2 (by simp [e])
      have hlx : ¬ (a ++ x :: c :: b).getLast? = some x := by
        rw [List.getLast?_append, List.getLast?_cons_cons]
        intro hc
        have : (c :: b).getLast? = some x := by
          rw [List.getLast?_eq_some_getLast (by simp)] at hc ⊢
          exact hc
        have hm := List.mem_of_getLast? this
        exact hnd'.2.2.1.1 (by simpa using hm)
      simp only [Option.bind_eq_bind, hn, Option.bind_some, Option.pure_def, hch, hlx, decide_false]
  cases xs with
  | nil =>
    have hn : next h head = some head := hk.1
    have hp : prev h head = some head := hk.2.1
    refine ⟨?_, ?_, ?_, hlast⟩
    · simp [listEmpty, hn]
    · simp [listEmptyCareful, hn, hp]
    · simp [listIsSingular, listEmpty, hn]
  | cons q xs =>
    have hn : next h head = some q := hk.1
    have hqh : ¬ q = head := by
      intro e
      rw [e] at hnd
      simp at hnd
    refine ⟨?_, ?_, ?_, hlast⟩
    · simp [listEmpty, hn, hqh]
    · simp [listEmptyCareful, hn, hqh]
    · simp only [listIsSingular, listEmpty, Option.bind_eq_bind, hn, Option.bind_some,
        Option.pure_def, hqh, decide_false, hpq]
      congr 1
      have hlen := congrArg List.length e
      simp only [List.length_cons, List.length_append, List.length_nil] at hlen
      cases xs with
      | nil =>
        cases l with
        | nil => simp at hlen
        | cons a l =>
          cases l with
          | nil =>
            simp only [List.cons_append, List.nil_append, List.cons.injEq, and_true] at e
            simp [e.2]
          | cons => simp at hlen
      | cons c xs =>
        have hqp : ¬ q = p := by
          intro e'
          subst e'
          cases l with
          | nil => simp at hlen
          | cons a l =>
            simp only [List.cons_append, List.cons.injEq] at e
            cases l with
            | nil => simp at e
            | cons d l =>
              simp only [List.cons_append, List.cons.injEq] at e
              exact hpl (by simp [e.2.1])
        simp [hqp]

/-! ### Histories -/

/-- An operation of the list interface. -/
inductive Op
  | init (l : Nat)
  | add (new head : Nat)
  | addHead (new head : Nat)
  | del (x : Nat)
  | replace (old new : Nat)
  | move (x head : Nat)
  | moveTail (x head : Nat)
  | rotate (head : Nat)
  | cut (list head entry : Nat)
  | splice (list head : Nat)
  | spliceTail (list head : Nat)

/-- What the code does. -/
def Op.exec (h : Heap) : Op → Option Heap
  | .init l => listInit h l
  | .add n l => listAdd h n l
  | .addHead n l => listAddHead h n l
  | .del x => listDel h x
  | .replace o n => listReplace h o n
  | .move x l => listMove h x l
  | .moveTail x l => listMoveTail h x l
  | .rotate l => listRotateLeft h l
  | .cut l hd e => listCutPosition h l hd e
  | .splice l hd => listSplice h l hd
  | .spliceTail l hd => listSpliceTail h l hd

/-- Sequences by the head they belong to. -/
abbrev World := Nat → Option (List Nat)

def World.set (w : World) (l : Nat) (v : Option (List Nat)) : World := fun x => if x = l then v else w x

/-- The node is a head or an element of some list. -/
def World.Uses (w : World) (n : Nat) : Prop := ∃ l xs, w l = some xs ∧ n ∈ l :: xs

/-- What the operation means for sequences. -/
inductive Means : World → Op → World → Prop
  | init {w l} : ¬ w.Uses l → Means w (.init l) (w.set l (some []))
  | add {w l n xs} : w l = some xs → ¬ w.Uses n → Means w (.add n l) (w.set l (some (xs ++ [n])))
  | addHead {w l n xs} : w l = some xs → ¬ w.Uses n →
      Means w (.addHead n l) (w.set l (some (n :: xs)))
  | del {w l x a b} : w l = some (a ++ x :: b) → Means w (.del x) (w.set l (some (a ++ b)))
  | replace {w l o n a b} : w l = some (a ++ o :: b) → ¬ w.Uses n →
      Means w (.replace o n) (w.set l (some (a ++ n :: b)))
  | replaceHead {w o n xs} : w o = some xs → ¬ w.Uses n →
      Means w (.replace o n) ((w.set o none).set n (some xs))
  | moveSame {w l x a b} : w l = some (a ++ x :: b) →
      Means w (.move x l) (w.set l (some (a ++ b ++ [x])))
  | moveOther {w l x a b m c} : w l = some (a ++ x :: b) → w m = some c → l ≠ m →
      Means w (.move x m) ((w.set l (some (a ++ b))).set m (some (c ++ [x])))
  | moveTailSame {w l x a b} : w l = some (a ++ x :: b) →
      Means w (.moveTail x l) (w.set l (some (a ++ b ++ [x])))
  | moveTailOther {w l x a b m c} : w l = some (a ++ x :: b) → w m = some c → l ≠ m →
      Means w (.moveTail x m) ((w.set l (some (a ++ b))).set m (some (c ++ [x])))
  | rotate {w l xs} : w l = some xs → Means w (.rotate l) (w.set l (some (xs.drop 1 ++ xs.take 1)))
  | cut {w l m e a b} : w m = some (a ++ e :: b) → ¬ w.Uses l →
      Means w (.cut l m e) ((w.set m (some b)).set l (some (a ++ [e])))
  | splice {w l m a b} : w l = some a → w m = some b → l ≠ m →
      Means w (.splice l m) ((w.set l none).set m (some (a ++ b)))
  | spliceTail {w l m a b} : w l = some a → w m = some b → l ≠ m →
      Means w (.spliceTail l m) ((w.set l none).set m (some (b ++ a)))

/-- The heap holds the sequences of the world, without sharing nodes. -/
structure Holds (h : Heap) (w : World) : Prop where
  list : ∀ l xs, w l = some xs → IsList h l xs
  apart : ∀ l l' xs xs', w l = some xs → w l' = some xs' → l ≠ l' → ∀ x ∈ l :: xs, x ∉ l' :: xs'

theorem Holds.change {h h' : Heap} {w w' : World} (hw : Holds h w) (s : List Nat) (t : List Nat)
    (hsame : ∀ l, l ∉ s → w' l = w l)
    (hring : ∀ l ∈ s, ∀ xs, w' l = some xs → IsList h' l xs)
    (hout : SameOutside h h' t)
    (hold : ∀ l, l ∉ s → ∀ xs, w l = some xs → ∀ x ∈ l :: xs, x ∉ t)
    (hcov : ∀ l ∈ s, ∀ xs, w' l = some xs → ∀ x ∈ l :: xs, x ∈ t)
    (hdis : ∀ l ∈ s, ∀ l' ∈ s, ∀ xs xs', w' l = some xs → w' l' = some xs' → l ≠ l' →
      ∀ x ∈ l :: xs, x ∉ l' :: xs') : Holds h' w' := by
  constructor
  · intro l xs he
    by_cases hl : l ∈ s
    · exact hring l hl xs he
    · rw [hsame l hl] at he
      exact Ring.congr (hw.list l xs he) fun x hx => hout x (hold l hl xs he x hx)
  · intro l l' xs xs' he he' hne x hx
    by_cases hl : l ∈ s
    · by_cases hl' : l' ∈ s
      · exact hdis l hl l' hl' xs xs' he he' hne x hx
      · rw [hsame l' hl'] at he'
        exact fun hc => hold l' hl' xs' he' x hc (hcov l hl xs he x hx)
    · rw [hsame l hl] at he
      by_cases hl' : l' ∈ s
      · exact fun hc => hold l hl xs he x hx (hcov l' hl' xs' he' x hc)
      · rw [hsame l' hl'] at he'
        exact hw.apart l l' xs xs' he he' hne x hx

theorem set_same (w : World) (l : Nat) (v : Option (List Nat)) : w.set l v l = v := if_pos rfl
theorem set_other (w : World) {l x : Nat} (v : Option (List Nat)) (hx : x ≠ l) :
    w.set l v x = w x := if_neg hx

/-- One list changes. -/
theorem Holds.one {h h' : Heap} {w : World} {l : Nat} {ys t : List Nat} (hw : Holds h w)
    (hr : IsList h' l ys) (hout : SameOutside h h' t)
    (hold : ∀ m, m ≠ l → ∀ xs, w m = some xs → ∀ x ∈ m :: xs, x ∉ t)
    (hcov : ∀ x ∈ l :: ys, x ∈ t) : Holds h' (w.set l (some ys)) := by
  refine hw.change [l] t ?_ ?_ hout ?_ ?_ ?_
  · intro m hm
    exact set_other _ _ (by simpa using hm)
  · intro m hm xs he
    rw [List.mem_singleton.1 hm] at he ⊢
    rw [set_same] at he
    cases he
    exact hr
  · intro m hm
    exact hold m (by simpa using hm)
  · intro m hm xs he
    rw [List.mem_singleton.1 hm] at he ⊢
    rw [set_same] at he
    cases he
    exact hcov
  · intro m hm m' hm' xs xs' _ _ hne
    rw [List.mem_singleton.1 hm, List.mem_singleton.1 hm'] at hne
    exact absurd rfl hne

/-- Two lists change; one of them may disappear. -/
theorem Holds.two {h h' : Heap} {w : World} {l m : Nat} {v : Option (List Nat)} {zs t : List Nat}
    (hw : Holds h w) (hlm : l ≠ m) (hr1 : ∀ ys, v = some ys → IsList h' l ys)
    (hr2 : IsList h' m zs) (hout : SameOutside h h' t)
    (hold : ∀ k, k ≠ l → k ≠ m → ∀ xs, w k = some xs → ∀ x ∈ k :: xs, x ∉ t)
    (hcov1 : ∀ ys, v = some ys → ∀ x ∈ l :: ys, x ∈ t) (hcov2 : ∀ x ∈ m :: zs, x ∈ t)
    (hdis : ∀ ys, v = some ys → ∀ x ∈ l :: ys, x ∉ m :: zs) :
    Holds h' ((w.set l v).set m (some zs)) := by
  have el : (w.set l v).set m (some zs) l = v := by
    rw [set_other _ _ hlm, set_same]
  have em : (w.set l v).set m (some zs) m = some zs := set_same _ _ _
  have hcase : ∀ k ∈ [l, m], k = l ∨ k = m := by
    intro k hk
    simpa using hk
  refine hw.change [l, m] t ?_ ?_ hout ?_ ?_ ?_
  · intro k hk
    simp only [List.mem_cons, List.not_mem_nil, or_false, not_or] at hk
    rw [set_other _ _ hk.2, set_other _ _ hk.1]
  · intro k hk xs he
    rcases hcase k hk with rfl | rfl
    · rw [el] at he; exact hr1 xs he
    · rw [em] at he; cases he; exact hr2
  · intro k hk
    simp only [List.mem_cons, List.not_mem_nil, or_false, not_or] at hk
    exact hold k hk.1 hk.2
  · intro k hk xs he
    rcases hcase k hk with rfl | rfl
    · rw [el] at he; exact hcov1 xs he
    · rw [em] at he; cases he; exact hcov2
  · intro k hk k' hk' xs xs' he he' hne x hx
    rcases hcase k hk with rfl | rfl
    · rcases hcase k' hk' with rfl | rfl
      · exact absurd rfl hne
      · rw [el] at he; rw [em] at he'; cases he'
        exact hdis xs he x hx
    · rcases hcase k' hk' with rfl | rfl
      · rw [em] at he; rw [el] at he'; cases he
        exact fun hc => hdis xs' he' x hc hx
      · exact absurd rfl hne

/-- The nodes an operation newly brings into a list. -/
def Op.fresh : Op → List Nat
  | .init l => [l]
  | .add n _ => [n]
  | .addHead n _ => [n]
  | .replace _ n => [n]
  | .cut l _ _ => [l]
  | _ => []

/-- C28: one operation on any heap that holds the lists of `w` runs without
touching unallocated memory and leaves a heap that holds exactly the lists the
operation should give, linked consistently in both directions. -/
theorem C28_step {h : Heap} {w w' : World} {op : Op} (hw : Holds h w) (hm : Means w op w')
    (hv : ∀ n ∈ op.fresh, (h n).isSome = true) : ∃ h', op.exec h = some h' ∧ Holds h' w' := by
  have unused : ∀ {n : Nat}, ¬ w.Uses n → ∀ l xs, w l = some xs → n ∉ l :: xs :=
    fun hn l xs he hc => hn ⟨l, xs, he, hc⟩
  cases hm with
  | @init l hn =>
    obtain ⟨h', he, hr, hs⟩ := C28_init (hv l (by simp [Op.fresh]))
    refine ⟨h', he, hw.one hr hs ?_ (by simp)⟩
    intro m _ xs hx x hxm
    have := unused hn m xs hx
    simp only [List.mem_singleton]
    exact fun e => this (e ▸ hxm)
  | @add l n xs hl hn =>
    obtain ⟨h', he, hr, hs⟩ := C28_add (hw.list l xs hl) (unused hn l xs hl)
      (hv n (by simp [Op.fresh]))
    refine ⟨h', he, hw.one hr hs ?_ ?_⟩
    · intro m hml ys hy x hxm hc
      rcases List.mem_cons.1 hc with e | hc
      · exact unused hn m ys hy (e ▸ hxm)
      · exact hw.apart m l ys xs hy hl hml x hxm hc
    · intro x hx
      simp only [List.mem_cons, List.mem_append, List.not_mem_nil, or_false] at hx ⊢
      rcases hx with h | h | h <;> simp [h]
  | @addHead l n xs hl hn =>
    obtain ⟨h', he, hr, hs⟩ := C28_add_head (hw.list l xs hl) (unused hn l xs hl)
      (hv n (by simp [Op.fresh]))
    refine ⟨h', he, hw.one hr hs ?_ ?_⟩
    · intro m hml ys hy x hxm hc
      rcases List.mem_cons.1 hc with e | hc
      · exact unused hn m ys hy (e ▸ hxm)
      · exact hw.apart m l ys xs hy hl hml x hxm hc
    · intro x hx
      simp only [List.mem_cons] at hx ⊢
      rcases hx with h | h | h <;> simp [h]
  | @del l x a b hl =>
    obtain ⟨h', he, hr, hs, _⟩ := C28_del (hw.list l _ hl)
    refine ⟨h', he, hw.one hr hs ?_ (fun x hx => hx)⟩
    intro m hml ys hy y hym hc
    refine hw.apart m l ys _ hy hl hml y hym ?_
    simp only [List.mem_cons, List.mem_append] at hc ⊢
    rcases hc with h | h | h <;> simp [h]
  | @replace l o n a b hl hn =>
    obtain ⟨h', he, hr, hs⟩ := C28_replace (hw.list l _ hl) (unused hn l _ hl)
      (hv n (by simp [Op.fresh]))
    refine ⟨h', he, hw.one hr hs ?_ ?_⟩
    · intro m hml ys hy x hxm hc
      rcases List.mem_cons.1 hc with e | hc
      · exact unused hn m ys hy (e ▸ hxm)
      · exact hw.apart m l ys _ hy hl hml x hxm hc
    · intro x hx
      simp only [List.mem_cons, List.mem_append] at hx ⊢
      rcases hx with h | h | h | h <;> simp [h]
  | @replaceHead o n xs hl hn =>
    obtain ⟨h', he, hr, hs⟩ := C28_replace_head (hw.list o _ hl) (unused hn o _ hl)
      (hv n (by simp [Op.fresh]))
    have hon : o ≠ n := fun e => unused hn o xs hl (by simp [e])
    refine ⟨h', he, hw.two hon (by intro ys e; cases e) hr hs ?_ (by intro ys e; cases e) ?_
      (by intro ys e; cases e)⟩
    · intro m hmo hmn ys hy x hxm hc
      rcases List.mem_cons.1 hc with e | hc
      · exact unused hn m ys hy (e ▸ hxm)
      · exact hw.apart m o ys _ hy hl hmo x hxm hc
    · intro x hx
      simp only [List.mem_cons] at hx ⊢
      rcases hx with h | h <;> simp [h]
  | @moveSame l x a b hl =>
    obtain ⟨h', he, _, hr, hs⟩ := C28_move_same (hw.list l _ hl)
    refine ⟨h', he, hw.one hr hs ?_ ?_⟩
    · intro m hml ys hy
      exact hw.apart m l ys _ hy hl hml
    · intro y hy
      simp only [List.mem_cons, List.mem_append, List.not_mem_nil, or_false] at hy ⊢
      rcases hy with h | ((h | h) | h) <;> simp [h]
  | @moveTailSame l x a b hl =>
    obtain ⟨h', _, he, hr, hs⟩ := C28_move_same (hw.list l _ hl)
    refine ⟨h', he, hw.one hr hs ?_ ?_⟩
    · intro m hml ys hy
      exact hw.apart m l ys _ hy hl hml
    · intro y hy
      simp only [List.mem_cons, List.mem_append, List.not_mem_nil, or_false] at hy ⊢
      rcases hy with h | ((h | h) | h) <;> simp [h]
  | @moveOther l x a b m c hl hmc hlm =>
    have hap := hw.apart l m _ _ hl hmc hlm
    obtain ⟨h', he, _, hr1, hr2, hs⟩ := C28_move_other (hw.list l _ hl) (hw.list m _ hmc) hap
    have hnd := (hw.list l _ hl).1
    refine ⟨h', he, hw.two hlm (by intro ys e; cases e; exact hr1) hr2 hs ?_ ?_ ?_ ?_⟩
    · intro k hkl hkm ys hy x hxm hc
      rcases List.mem_append.1 hc with hc | hc
      · exact hw.apart k l ys _ hy hl hkl x hxm hc
      · exact hw.apart k m ys _ hy hmc hkm x hxm hc
    · intro ys e y hy
      cases e
      simp only [List.mem_cons, List.mem_append] at hy ⊢
      rcases hy with h | h | h <;> simp [h]
    · intro y hy
      simp only [List.mem_cons, List.mem_append, List.not_mem_nil, or_false] at hy ⊢
      rcases hy with h | h | h <;> simp [h]
    · intro ys e y hy hc
      cases e
      have hy2 : y ∈ l :: (a ++ x :: b) := by
        simp only [List.mem_cons, List.mem_append] at hy ⊢
        rcases hy with h | h | h <;> simp [h]
      have hyx : y ≠ x := by
        intro e
        subst e
        simp only [List.nodup_cons, List.nodup_append, List.mem_append, List.mem_cons, not_or] at hnd hy
        rcases hy with h | h | h
        · exact hnd.1.2.1 h.symm
        · exact hnd.2.2.2 y h y (Or.inl rfl) rfl
        · exact hnd.2.2.1.1 h
      refine hap y hy2 ?_
      simp only [List.mem_cons, List.mem_append, List.not_mem_nil, or_false] at hc ⊢
      rcases hc with h | h | h
      · simp [h]
      · simp [h]
      · exact absurd h hyx
  | @moveTailOther l x a b m c hl hmc hlm =>
    have hap := hw.apart l m _ _ hl hmc hlm
    obtain ⟨h', _, he, hr1, hr2, hs⟩ := C28_move_other (hw.list l _ hl) (hw.list m _ hmc) hap
    have hnd := (hw.list l _ hl).1
    refine ⟨h', he, hw.two hlm (by intro ys e; cases e; exact hr1) hr2 hs ?_ ?_ ?_ ?_⟩
    · intro k hkl hkm ys hy x hxm hc
      rcases List.mem_append.1 hc with hc | hc
      · exact hw.apart k l ys _ hy hl hkl x hxm hc
      · exact hw.apart k m ys _ hy hmc hkm x hxm hc
    · intro ys e y hy
      cases e
      simp only [List.mem_cons, List.mem_append] at hy ⊢
      rcases hy with h | h | h <;> simp [h]
    · intro y hy
      simp only [List.mem_cons, List.mem_append, List.not_mem_nil, or_false] at hy ⊢
      rcases hy with h | h | h <;> simp [h]
    · intro ys e y hy hc
      cases e
      have hy2 : y ∈ l :: (a ++ x :: b) := by
        simp only [List.mem_cons, List.mem_append] at hy ⊢
        rcases hy with h | h | h <;> simp [h]
      have hyx : y ≠ x := by
        intro e
        subst e
        simp only [List.nodup_cons, List.nodup_append, List.mem_append, List.mem_cons, not_or] at hnd hy
        rcases hy with h | h | h
        · exact hnd.1.2.1 h.symm
        · exact hnd.2.2.2 y h y (Or.inl rfl) rfl
        · exact hnd.2.2.1.1 h
      refine hap y hy2 ?_
      simp only [List.mem_cons, List.mem_append, List.not_mem_nil, or_false] at hc ⊢
      rcases hc with h | h | h
      · simp [h]
      · simp [h]
      · exact absurd h hyx
  | @rotate l xs hl =>
    obtain ⟨h', he, hr, hs⟩ := C28_rotate (hw.list l _ hl)
    refine ⟨h', he, hw.one hr hs ?_ ?_⟩
    · intro m hml ys hy
      exact hw.apart m l ys _ hy hl hml
    · intro y hy
      cases xs with
      | nil => simpa using hy
      | cons x xs =>
        simp at hy ⊢
        rcases hy with h | h | h <;> simp [h]
  | @cut l m e a b hm hn =>
    have hfr := unused hn m _ hm
    obtain ⟨h', he, hr1, hr2, hs⟩ := C28_cut (hw.list m _ hm) hfr (hv l (by simp [Op.fresh]))
    have hnd := (hw.list m _ hm).1
    have hml : m ≠ l := fun e => hfr (by simp [e])
    refine ⟨h', he, hw.two hml (by intro ys e; cases e; exact hr2) hr1 hs ?_ ?_ ?_ ?_⟩
    · intro k hkm hkl ys hy x hxm hc
      rcases List.mem_cons.1 hc with e | hc
      · exact unused hn k ys hy (e ▸ hxm)
      · exact hw.apart k m ys _ hy hm hkm x hxm hc
    · intro ys e y hy
      cases e
      simp only [List.mem_cons, List.mem_append] at hy ⊢
      rcases hy with h | h <;> simp [h]
    · intro y hy
      simp only [List.mem_cons, List.mem_append, List.not_mem_nil, or_false] at hy ⊢
      rcases hy with h | h | h <;> simp [h]
    · intro ys e y hy hc
      cases e
      simp only [List.nodup_cons, List.nodup_append, List.mem_append, List.mem_cons, not_or] at hnd hfr
      simp only [List.mem_cons, List.mem_append, List.not_mem_nil, or_false] at hc hy
      rcases hy with rfl | hy
      · rcases hc with h | h | h
        · exact hml h
        · exact hnd.1.1 h
        · exact hnd.1.2.1 h
      · rcases hc with h | h | h
        · exact hfr.2.2.2 (h ▸ hy)
        · exact hnd.2.2.2 y h y (Or.inr hy) rfl
        · exact hnd.2.2.1.1 (h ▸ hy)
  | @splice l m a b hl hm hlm =>
    have hap := hw.apart l m _ _ hl hm hlm
    obtain ⟨h', he, hr, hs⟩ := C28_splice (hw.list l _ hl) (hw.list m _ hm) hap
    refine ⟨h', he, hw.two hlm (by intro ys e; cases e) hr hs ?_ (by intro ys e; cases e)
      (fun x hx => hx) (by intro ys e; cases e)⟩
    intro k hkl hkm ys hy x hxm hc
    simp only [List.mem_cons, List.mem_append] at hc
    rcases hc with h | h | h
    · exact hw.apart k m ys _ hy hm hkm x hxm (by simp [h])
    · exact hw.apart k l ys _ hy hl hkl x hxm (by simp [h])
    · exact hw.apart k m ys _ hy hm hkm x hxm (by simp [h])
  | @spliceTail l m a b hl hm hlm =>
    have hap := hw.apart l m _ _ hl hm hlm
    obtain ⟨h', he, hr, hs⟩ := C28_splice_tail (hw.list l _ hl) (hw.list m _ hm) hap
    refine ⟨h', he, hw.two hlm (by intro ys e; cases e) hr hs ?_ (by intro ys e; cases e)
      (fun x hx => hx) (by intro ys e; cases e)⟩
    intro k hkl hkm ys hy x hxm hc
    simp only [List.mem_cons, List.mem_append] at hc
    rcases hc with h | h | h
    · exact hw.apart k m ys _ hy hm hkm x hxm (by simp [h])
    · exact hw.apart k m ys _ hy hm hkm x hxm (by simp [h])
    · exact hw.apart k l ys _ hy hl hkl x hxm (by simp [h])

/-! Operations never allocate or free. -/

theorem setNext_some {h h' : Heap} {p v : Nat} (e : setNext h p v = some h') :
    ∀ x, (h' x).isSome = (h x).isSome := by
  have hp : (h p).isSome = true := by
    unfold setNext at e
    cases hh : h p with
    | none => rw [hh] at e; cases e
    | some n => rfl
  rw [setNext_live v hp] at e
  cases e
  intro x
  exact isSome_wN h p v x

theorem setPrev_some {h h' : Heap} {p v : Nat} (e : setPrev h p v = some h') :
    ∀ x, (h' x).isSome = (h x).isSome := by
  have hp : (h p).isSome = true := by
    unfold setPrev at e
    cases hh : h p with
    | none => rw [hh] at e; cases e
    | some n => rfl
  rw [setPrev_live v hp] at e
  cases e
  intro x
  exact isSome_wP h p v x

/-- Same allocated nodes. -/
def SameLive (h h' : Heap) : Prop := ∀ x, (h' x).isSome = (h x).isSome

theorem SameLive.refl (h : Heap) : SameLive h h := fun _ => rfl
theorem SameLive.trans {h h1 h2 : Heap} (a : SameLive h h1) (b : SameLive h1 h2) : SameLive h h2 :=
  fun x => (b x).trans (a x)

theorem bind_live {α : Type} {h h' : Heap} {o : Option α} {f : α → Option Heap}
    (e : o.bind f = some h') (hf : ∀ a, f a = some h' → SameLive h h') : SameLive h h' := by
  cases o with
  | none => cases e
  | some a => exact hf a e

theorem bindN_live {h h' : Heap} {p v : Nat} {f : Heap → Option Heap}
    (e : (setNext h p v).bind f = some h') (hf : ∀ a, f a = some h' → SameLive a h') :
    SameLive h h' := by
  cases hs : setNext h p v with
  | none => rw [hs] at e; cases e
  | some a => rw [hs] at e; exact (show SameLive h a from setNext_some hs).trans (hf a e)

theorem bindP_live {h h' : Heap} {p v : Nat} {f : Heap → Option Heap}
    (e : (setPrev h p v).bind f = some h') (hf : ∀ a, f a = some h' → SameLive a h') :
    SameLive h h' := by
  cases hs : setPrev h p v with
  | none => rw [hs] at e; cases e
  | some a => rw [hs] at e; exact (show SameLive h a from setPrev_some hs).trans (hf a e)

theorem listAdd'_live {h h' : Heap} {n p q : Nat} (e : listAdd' h n p q = some h') : SameLive h h' :=
  bindP_live e fun _ e => bindN_live e fun _ e => bindP_live e fun _ e => setNext_some e

theorem listDel_live {h h' : Heap} {x : Nat} (e : listDel h x = some h') : SameLive h h' :=
  bind_live e fun _ e => bind_live e fun _ e => bindP_live e fun _ e => setNext_some e

theorem listAdd_live {h h' : Heap} {n l : Nat} (e : listAdd h n l = some h') : SameLive h h' :=
  bind_live e fun _ e => listAdd'_live e

theorem listMove_live {h h' : Heap} {n l : Nat} (e : listMove h n l = some h') : SameLive h h' := by
  unfold listMove at e
  cases hd : listDel h n with
  | none => rw [hd] at e; cases e
  | some h1 => rw [hd] at e; exact (listDel_live hd).trans (listAdd_live e)

theorem listSplice'_live {h h' : Heap} {l p n : Nat} (e : listSplice' h l p n = some h') :
    SameLive h h' :=
  bind_live e fun _ e => bind_live e fun _ e => bindP_live e fun _ e => bindN_live e fun _ e =>
    bindN_live e fun _ e => setPrev_some e

theorem Op.exec_live {h h' : Heap} {op : Op} (e : op.exec h = some h') : SameLive h h' := by
  cases op with
  | init l => exact bindN_live e fun _ e => setPrev_some e
  | add n l => exact listAdd_live e
  | addHead n l => exact bind_live e fun _ e => listAdd'_live e
  | del x => exact listDel_live e
  | replace o n =>
    exact bind_live e fun _ e => bindN_live e fun _ e => bind_live e fun _ e =>
      bindP_live e fun _ e => bind_live e fun _ e => bindP_live e fun _ e =>
      bind_live e fun _ e => setNext_some e
  | move x l => exact listMove_live e
  | moveTail x l => exact listMove_live e
  | rotate l =>
    refine bind_live e fun b e => ?_
    split at e
    · cases e; exact SameLive.refl h
    · exact bind_live e fun _ e => listMove_live e
  | cut l m en =>
    exact bind_live e fun _ e => bind_live e fun _ e => bindN_live e fun _ e =>
      bind_live e fun _ e => bindP_live e fun _ e => bindP_live e fun _ e =>
      bindN_live e fun _ e => bindN_live e fun _ e => setPrev_some e
  | splice l m =>
    refine bind_live e fun b e => ?_
    split at e
    · cases e; exact SameLive.refl h
    · exact bind_live e fun _ e => listSplice'_live e
  | spliceTail l m =>
    refine bind_live e fun b e => ?_
    split at e
    · cases e; exact SameLive.refl h
    · exact bind_live e fun _ e => listSplice'_live e

/-- Running a sequence of operations. -/
def runOps (h : Heap) : List Op → Option Heap
  | [] => some h
  | op :: ops => (op.exec h).bind fun h' => runOps h' ops

/-- The meaning of a sequence of operations. -/
inductive MeansAll : World → List Op → World → Prop
  | nil {w} : MeansAll w [] w
  | cons {w w1 w2 op ops} : Means w op w1 → MeansAll w1 ops w2 → MeansAll w (op :: ops) w2

/-- C28: any sequence of list operations, from any heap that holds the given
lists, has exactly the effect of the sequence operations, with consistent links
throughout and without touching unallocated memory. -/
theorem C28_history {h : Heap} {w w' : World} {ops : List Op} (hw : Holds h w)
    (hm : MeansAll w ops w') (hv : ∀ op ∈ ops, ∀ n ∈ op.fresh, (h n).isSome = true) :
    ∃ h', runOps h ops = some h' ∧ Holds h' w' := by
  induction hm generalizing h with
  | nil => exact ⟨h, rfl, hw⟩
  | @cons w w1 w2 op ops h1 _ ih =>
    obtain ⟨h', he, hw'⟩ := C28_step hw h1 (hv op (by simp))
    have hl := Op.exec_live he
    obtain ⟨h2, he2, hw2⟩ := ih hw' fun o ho n hn => by
      rw [hl n]
      exact hv o (by simp [ho]) n hn
    exact ⟨h2, by rw [runOps, he]; exact he2, hw2⟩

/-! Non-vacuity: a heap of ten uninitialised nodes holds no list; a history on it. -/

def exHeap : Heap := fun x => if 1 ≤ x ∧ x ≤ 10 then some ⟨0, 0⟩ else none

theorem exHolds : Holds exHeap (fun _ => none) := ⟨nofun, nofun⟩

example : ∃ w', MeansAll (fun _ => none)
    [.init 1, .add 2 1, .add 3 1, .addHead 4 1, .init 5, .move 3 5] w' ∧
    w' 1 = some [4, 2] ∧ w' 5 = some [3] := by
  have unused : ∀ (w : World) (n : Nat), (∀ l xs, w l = some xs → n ∉ l :: xs) → ¬ w.Uses n :=
    fun w n h ⟨l, xs, e, hm⟩ => h l xs e hm
  refine ⟨_, .cons (.init ?_) (.cons (.add (xs := []) ?_ ?_) (.cons (.add (xs := [2]) ?_ ?_)
    (.cons (.addHead (xs := [2, 3]) ?_ ?_) (.cons (.init ?_)
    (.cons (.moveOther (l := 1) (a := [4, 2]) (b := []) (c := []) ?_ ?_ ?_) .nil))))), ?_, ?_⟩
  all_goals first
    | rfl
    | decide
    | (apply unused
       intro l xs e
       try simp only [World.set] at e
       repeat' split at e
       all_goals first
         | (cases e; done)
         | (rename_i hl; cases e; subst hl; decide)
         | (cases e; subst_vars; decide))

example : IsList (fun x => if x = 1 then some ⟨2, 3⟩ else if x = 2 then some ⟨3, 1⟩ else
    if x = 3 then some ⟨1, 2⟩ else none) 1 [2, 3] :=
  ⟨by decide, 1, [2, 3], rfl, rfl, rfl, rfl, rfl, rfl, rfl, trivial⟩

/-- The comment of `list_move` says "add as another's head", but the element
becomes the last one. -/
theorem C28_move_is_not_head : ∃ (h : Heap) (h' : Heap), IsList h 1 [2, 3, 4] ∧
    listMove h 3 1 = some h' ∧ IsList h' 1 [2, 4, 3] ∧ ¬ IsList h' 1 [3, 2, 4] := by
  have hl : IsList (fun x => if x = 1 then some ⟨2, 4⟩ else if x = 2 then some ⟨3, 1⟩ else
    if x = 3 then some ⟨4, 2⟩ else if x = 4 then some ⟨1, 3⟩ else none) 1 [2, 3, 4] :=
    ⟨by decide, 1, [2, 3, 4], rfl, rfl, rfl, rfl, rfl, rfl, rfl, rfl, rfl, trivial⟩
  obtain ⟨h', he, _, hr, _⟩ := C28_move_same (a := [2]) (b := [4]) hl
  refine ⟨_, h', hl, he, hr, ?_⟩
  intro hc
  obtain ⟨_, x, r, e, hk⟩ := hr
  cases e
  obtain ⟨_, x, r, e, hk'⟩ := hc
  cases e
  have h1 : next h' 1 = some 2 := hk.1
  have h2 : next h' 1 = some 3 := hk'.1
  rw [h1] at h2
  cases h2

end Ulp.CList
