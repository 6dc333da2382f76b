import Verif.Spec.Seq
namespace Ulp.CList

/-- The heap after `p->next = v`. -/
def wN (h : Heap) (p v : Nat) : Heap := fun x =>
  if x = p then (h x).map fun n => { n with next := v } else h x

/-- The heap after `p->prev = v`. -/
def wP (h : Heap) (p v : Nat) : Heap := fun x =>
  if x = p then (h x).map fun n => { n with prev := v } else h x

theorem setNext_live {h : Heap} {p : Nat} (v : Nat) (hp : (h p).isSome = true) :
    setNext h p v = some (wN h p v) := by
  unfold setNext wN
  cases hh : h p with
  | none => rw [hh] at hp; cases hp
  | some n =>
    dsimp only
    congr 1
    funext x
    split
    · rename_i e; subst e; rw [hh]; rfl
    · rfl

theorem setPrev_live {h : Heap} {p : Nat} (v : Nat) (hp : (h p).isSome = true) :
    setPrev h p v = some (wP h p v) := by
  unfold setPrev wP
  cases hh : h p with
  | none => rw [hh] at hp; cases hp
  | some n =>
    dsimp only
    congr 1
    funext x
    split
    · rename_i e; subst e; rw [hh]; rfl
    · rfl

theorem isSome_wN (h : Heap) (p v x : Nat) : (wN h p v x).isSome = (h x).isSome := by
  unfold wN
  split
  · rw [Option.isSome_map]
  · rfl

theorem isSome_wP (h : Heap) (p v x : Nat) : (wP h p v x).isSome = (h x).isSome := by
  unfold wP
  split
  · rw [Option.isSome_map]
  · rfl

theorem next_wP (h : Heap) (p v x : Nat) : next (wP h p v) x = next h x := by
  unfold next wP
  split
  · rw [Option.map_map]; rfl
  · rfl

theorem prev_wN (h : Heap) (p v x : Nat) : prev (wN h p v) x = prev h x := by
  unfold prev wN
  split
  · rw [Option.map_map]; rfl
  · rfl

theorem next_wN_ne {h : Heap} {p v x : Nat} (hx : x ≠ p) : next (wN h p v) x = next h x := by
  unfold next wN
  rw [if_neg hx]

theorem prev_wP_ne {h : Heap} {p v x : Nat} (hx : x ≠ p) : prev (wP h p v) x = prev h x := by
  unfold prev wP
  rw [if_neg hx]

theorem next_wN_self {h : Heap} {p : Nat} (v : Nat) (hp : (h p).isSome = true) :
    next (wN h p v) p = some v := by
  unfold next wN
  rw [if_pos rfl, Option.map_map]
  obtain ⟨n, hn⟩ := Option.isSome_iff_exists.1 hp
  rw [hn]; rfl

theorem prev_wP_self {h : Heap} {p : Nat} (v : Nat) (hp : (h p).isSome = true) :
    prev (wP h p v) p = some v := by
  unfold prev wP
  rw [if_pos rfl, Option.map_map]
  obtain ⟨n, hn⟩ := Option.isSome_iff_exists.1 hp
  rw [hn]; rfl

theorem wN_ne {h : Heap} {p v x : Nat} (hx : x ≠ p) : wN h p v x = h x := if_neg hx
theorem wP_ne {h : Heap} {p v x : Nat} (hx : x ≠ p) : wP h p v x = h x := if_neg hx

theorem live_of_next {h : Heap} {p n : Nat} (e : next h p = some n) : (h p).isSome = true := by
  unfold next at e
  cases hh : h p with
  | none => rw [hh] at e; cases e
  | some _ => rfl

theorem live_of_prev {h : Heap} {p n : Nat} (e : prev h p = some n) : (h p).isSome = true := by
  unfold prev at e
  cases hh : h p with
  | none => rw [hh] at e; cases e
  | some _ => rfl

/-! ### chains -/

theorem Linked_split (h : Heap) (a : Nat) (l2 : List Nat) : ∀ l1 : List Nat,
    Linked h (l1 ++ a :: l2) ↔ Linked h (l1 ++ [a]) ∧ Linked h (a :: l2)
  | [] => by simp [Linked]
  | [x] => by
    simp only [List.singleton_append, Linked, and_true]
    exact ⟨fun h => ⟨⟨h.1, h.2.1⟩, h.2.2⟩, fun h => ⟨h.1.1, h.1.2, h.2⟩⟩
  | x :: y :: l1 => by
    have ih := Linked_split h a l2 (y :: l1)
    simp only [List.cons_append, Linked] at ih ⊢
    rw [ih]
    exact ⟨fun h => ⟨⟨h.1, h.2.1, h.2.2.1⟩, h.2.2.2⟩, fun h => ⟨h.1.1, h.1.2.1, h.1.2.2, h.2⟩⟩

theorem Linked_pair (h : Heap) (l : List Nat) (p q : Nat) :
    Linked h (l ++ [p, q]) ↔ Linked h (l ++ [p]) ∧ next h p = some q ∧ prev h q = some p := by
  have := Linked_split h p [q] l
  rw [this]
  simp [Linked]

theorem Linked_frame {h h' : Heap} : ∀ {l : List Nat}, Linked h l →
    (∀ x ∈ l.dropLast, next h' x = next h x) → (∀ y ∈ l.tail, prev h' y = prev h y) → Linked h' l
  | [], _, _, _ => trivial
  | [_], _, _, _ => trivial
  | a :: b :: r, hl, hn, hp => by
    simp only [Linked] at hl ⊢
    refine ⟨?_, ?_, ?_⟩
    · rw [hn a (by simp), hl.1]
    · rw [hp b (by simp), hl.2.1]
    · refine Linked_frame hl.2.2 (fun x hx => hn x ?_) (fun y hy => hp y ?_)
      · rw [List.dropLast_cons_of_ne_nil (by simp)]
        exact List.mem_cons_of_mem _ hx
      · simp only [List.tail_cons] at hy ⊢
        exact List.mem_cons_of_mem _ hy

theorem Ring.congr {h h' : Heap} {c : List Nat} (hr : Ring h c) (he : ∀ x ∈ c, h' x = h x) :
    Ring h' c := by
  obtain ⟨hn, x, r, rfl, hl⟩ := hr
  refine ⟨hn, x, r, rfl, Linked_frame hl ?_ ?_⟩
  · intro y hy
    rw [List.dropLast_concat] at hy
    unfold next
    rw [he y hy]
  · intro y hy
    simp only [List.cons_append, List.tail_cons, List.mem_append, List.mem_singleton] at hy
    unfold prev
    rw [he y (by rcases hy with hy | hy <;> simp [hy])]

theorem Ring.rotate {h : Heap} {a b : List Nat} (hr : Ring h (a ++ b)) : Ring h (b ++ a) := by
  cases a with
  | nil => simpa using hr
  | cons x a =>
    cases b with
    | nil => simpa using hr
    | cons y b =>
      obtain ⟨hn, x', r, e, hl⟩ := hr
      simp only [List.cons_append, List.cons.injEq] at e
      obtain ⟨rfl, rfl⟩ := e
      refine ⟨?_, y, b ++ x :: a, rfl, ?_⟩
      · have := List.Perm.nodup (List.perm_append_comm (l₁ := x :: a) (l₂ := y :: b)) hn
        exact this
      · have h1 : Linked h ((x :: a) ++ y :: (b ++ [x])) := by simpa using hl
        rw [Linked_split] at h1
        have h2 : Linked h ((y :: b) ++ x :: (a ++ [y])) := by
          rw [Linked_split]
          exact ⟨by simpa using h1.2, by simpa using h1.1⟩
        simpa using h2

/-- In a ring the last node and the first are linked, and so is the rest. -/
theorem Ring.last {h : Heap} {q : Nat} {m : List Nat} (hr : Ring h (q :: m)) :
    ∃ l p, q :: m = l ++ [p] ∧ p ∉ l ∧ Linked h (l ++ [p]) ∧ next h p = some q ∧
      prev h q = some p := by
  obtain ⟨hn, x, r, e, hl⟩ := hr
  cases e
  have hne : q :: m ≠ [] := by simp
  have e := List.dropLast_concat_getLast hne
  refine ⟨(q :: m).dropLast, (q :: m).getLast hne, e.symm, ?_, ?_⟩
  · rw [← e, List.nodup_append] at hn
    intro hc
    exact hn.2.2 _ hc _ (by simp) rfl
  · rw [← e, List.append_assoc] at hl
    simp only [List.singleton_append] at hl
    rw [Linked_pair] at hl
    exact hl

theorem Ring.live {h : Heap} {c : List Nat} (hr : Ring h c) : ∀ x ∈ c, (h x).isSome = true := by
  intro x hx
  obtain ⟨a, b, rfl⟩ := List.append_of_mem hx
  have := hr.rotate
  obtain ⟨l, p, _, _, _, _, hp⟩ := Ring.last (q := x) (m := b ++ a) (by simpa using this)
  exact live_of_prev hp

/-- A new node between the last and the first node of a ring. -/
theorem add_ring {h : Heap} {q : Nat} {m : List Nat} {new : Nat} (hr : Ring h (q :: m))
    (hf : new ∉ q :: m) (hv : (h new).isSome = true) : ∃ p h', prev h q = some p ∧ p ∈ q :: m ∧
      next h p = some q ∧ listAdd' h new p q = some h' ∧ Ring h' (q :: m ++ [new]) ∧
      SameOutside h h' (q :: m ++ [new]) := by
  obtain ⟨l, p, e, hpl, hl, hnp, hpq⟩ := hr.last
  have hlive := hr.live
  have hqv := hlive q (by simp)
  have hpm : p ∈ q :: m := by rw [e]; simp
  have hpv := hlive p hpm
  have hqn : q ≠ new := fun e => hf (by simp [e])
  have hpn : p ≠ new := fun e => hf (by rw [← e]; exact hpm)
  have hnd := hr.1
  have hq : q ∉ m := (List.nodup_cons.1 hnd).1
  refine ⟨p, wN (wP (wN (wP h q new) new q) new p) p new, hpq, hpm, hnp, ?_, ?_, ?_⟩
  · unfold listAdd'
    simp only [Option.bind_eq_bind, setPrev_live, setNext_live, isSome_wN, isSome_wP, hqv, hv, hpv,
      Option.bind_some]
  · refine ⟨?_, q, m ++ [new], rfl, ?_⟩
    · rw [List.nodup_append]
      refine ⟨hnd, by simp, ?_⟩
      intro a ha b hb
      rw [List.mem_singleton.1 hb]
      exact fun e => hf (e ▸ ha)
    · have : q :: m ++ [new] ++ [q] = l ++ [p] ++ [new, q] := by rw [e]; simp
      rw [this, Linked_pair, List.append_assoc]
      have e2 : l ++ ([p] ++ [new]) = l ++ [p, new] := by simp
      rw [e2, Linked_pair]
      refine ⟨⟨Linked_frame hl ?_ ?_, ?_, ?_⟩, ?_, ?_⟩
      · intro x hx
        rw [List.dropLast_concat] at hx
        have hxp : x ≠ p := fun e => hpl (e ▸ hx)
        have hxn : x ≠ new := fun e' => hf (by rw [e]; simp [← e', hx])
        simp only [next_wN_ne hxp, next_wP, next_wN_ne hxn]
      · intro y hy
        rw [← e] at hy
        simp only [List.tail_cons] at hy
        have hyq : y ≠ q := fun e => hq (e ▸ hy)
        have hyn : y ≠ new := fun e => hf (by simp [← e, hy])
        simp only [prev_wN, prev_wP_ne hyn, prev_wP_ne hyq]
      · exact next_wN_self _ (by simp only [isSome_wN, isSome_wP, hpv])
      · rw [prev_wN]
        exact prev_wP_self _ (by simp only [isSome_wN, isSome_wP, hv])
      · rw [next_wN_ne hpn.symm, next_wP]
        exact next_wN_self _ (by simp only [isSome_wP, hv])
      · rw [prev_wN, prev_wP_ne hqn, prev_wN]
        exact prev_wP_self _ hqv
  · intro x hx
    simp only [List.mem_append, List.mem_singleton, not_or] at hx
    have hxp : x ≠ p := fun e => hx.1 (e ▸ hpm)
    have hxq : x ≠ q := fun e => hx.1 (by simp [e])
    rw [wN_ne hxp, wP_ne hx.2, wN_ne hx.2, wP_ne hxq]

/-- Removing a node from a ring of at least two. -/
theorem del_ring {h : Heap} {e : Nat} {m : List Nat} (hr : Ring h (e :: m)) (hm : m ≠ []) :
    ∃ h', listDel h e = some h' ∧ Ring h' m ∧ SameOutside h h' m ∧ h' e = h e := by
  cases m with
  | nil => exact absurd rfl hm
  | cons q m =>
    obtain ⟨hnd, x, r, ee, hl⟩ := hr
    cases ee
    have hr' : Ring h (e :: q :: m) := ⟨hnd, e, q :: m, rfl, hl⟩
    have hlive := hr'.live
    obtain ⟨hem, hnd2⟩ := List.nodup_cons.1 hnd
    have hq : q ∉ m := (List.nodup_cons.1 hnd2).1
    have hne : q :: m ≠ [] := by simp
    have es := List.dropLast_concat_getLast hne
    generalize (q :: m).dropLast = l at es
    generalize (q :: m).getLast hne = p at es
    have hpm : p ∈ q :: m := by rw [← es]; simp
    have hl0 : Linked h ([e] ++ q :: (m ++ [e])) := by simpa using hl
    rw [Linked_split] at hl0
    obtain ⟨⟨hen, _, _⟩, hl1⟩ := hl0
    have hl2 : Linked h (l ++ [p, e]) := by
      rw [show l ++ [p, e] = (l ++ [p]) ++ [e] by simp, es]
      simpa using hl1
    rw [Linked_pair] at hl2
    obtain ⟨hl3, _, hep⟩ := hl2
    have hqv := hlive q (by simp)
    have hpv := hlive p (List.mem_cons_of_mem _ hpm)
    have hpl : p ∉ l := by
      intro hc
      rw [← es, List.nodup_append] at hnd2
      exact hnd2.2.2 _ hc _ (by simp) rfl
    refine ⟨wN (wP h q p) p q, ?_, ⟨hnd2, q, m, rfl, ?_⟩, ?_, ?_⟩
    · unfold listDel listDel'
      simp only [Option.bind_eq_bind, setPrev_live, setNext_live, isSome_wP, hqv, hpv,
        Option.bind_some, hep, hen]
    · have : q :: m ++ [q] = l ++ [p, q] := by rw [← es]; simp
      rw [this, Linked_pair]
      refine ⟨Linked_frame hl3 ?_ ?_, ?_, ?_⟩
      · intro x hx
        rw [List.dropLast_concat] at hx
        have hxp : x ≠ p := fun e => hpl (e ▸ hx)
        rw [next_wN_ne hxp, next_wP]
      · intro y hy
        rw [es, List.tail_cons] at hy
        have hyq : y ≠ q := fun e => hq (e ▸ hy)
        rw [prev_wN, prev_wP_ne hyq]
      · exact next_wN_self _ (by rw [isSome_wP]; exact hpv)
      · rw [prev_wN]
        exact prev_wP_self _ hqv
    · intro x hx
      have hxp : x ≠ p := fun e => hx (e ▸ hpm)
      have hxq : x ≠ q := fun e => hx (by simp [e])
      rw [wN_ne hxp, wP_ne hxq]
    · have hxp : e ≠ p := fun e' => hem (e' ▸ hpm)
      have hxq : e ≠ q := fun e' => hem (by simp [e'])
      rw [wN_ne hxp, wP_ne hxq]

/-- A new node in the place of an old one. -/
theorem replace_ring {h : Heap} {old new : Nat} {m : List Nat} (hr : Ring h (old :: m))
    (hf : new ∉ old :: m) (hv : (h new).isSome = true) : ∃ h', listReplace h old new = some h' ∧
      Ring h' (new :: m) ∧ SameOutside h h' (new :: old :: m) := by
  have hlive := hr.live
  have hov := hlive old (by simp)
  have hon : old ≠ new := fun e => hf (by simp [e])
  cases m with
  | nil =>
    obtain ⟨hnd, x, r, e, hl⟩ := hr
    cases e
    simp only [List.cons_append, List.nil_append, Linked, and_true] at hl
    obtain ⟨hn, hp⟩ := hl
    refine ⟨wN (wP (wP (wN h new old) old new) new new) new new, ?_, ?_, ?_⟩
    · unfold listReplace
      have h1 : next (wN h new old) new = some old := next_wN_self _ hv
      have h2 : prev (wP (wN h new old) old new) old = some new :=
        prev_wP_self _ (by rw [isSome_wN]; exact hov)
      have h3 : prev (wP (wP (wN h new old) old new) new new) new = some new :=
        prev_wP_self _ (by rw [isSome_wP, isSome_wN]; exact hv)
      simp only [Option.bind_eq_bind, setPrev_live, setNext_live, isSome_wP, isSome_wN, hv, hov,
        Option.bind_some, hn, h1, h2, h3]
    · refine ⟨by simp, new, [], rfl, ?_⟩
      simp only [List.cons_append, List.nil_append, Linked, and_true]
      refine ⟨next_wN_self _ (by rw [isSome_wP, isSome_wP, isSome_wN]; exact hv), ?_⟩
      rw [prev_wN]
      exact prev_wP_self _ (by rw [isSome_wP, isSome_wN]; exact hv)
    · intro x hx
      simp only [List.mem_cons, not_or, List.not_mem_nil, not_false_eq_true, and_true] at hx
      rw [wN_ne hx.1, wP_ne hx.1, wP_ne hx.2, wN_ne hx.1]
  | cons q m =>
    obtain ⟨hnd, x, r, ee, hl⟩ := hr
    cases ee
    obtain ⟨hem, hnd2⟩ := List.nodup_cons.1 hnd
    have hq : q ∉ m := (List.nodup_cons.1 hnd2).1
    have hne : q :: m ≠ [] := by simp
    have es := List.dropLast_concat_getLast hne
    generalize (q :: m).dropLast = l at es
    generalize (q :: m).getLast hne = p at es
    have hpm : p ∈ q :: m := by rw [← es]; simp
    have hl0 : Linked h ([old] ++ q :: (m ++ [old])) := by simpa using hl
    rw [Linked_split] at hl0
    obtain ⟨⟨hen, _, _⟩, hl1⟩ := hl0
    have hl2 : Linked h (l ++ [p, old]) := by
      rw [show l ++ [p, old] = (l ++ [p]) ++ [old] by simp, es]
      simpa using hl1
    rw [Linked_pair] at hl2
    obtain ⟨hl3, _, hep⟩ := hl2
    have hqv := hlive q (by simp)
    have hpv := hlive p (List.mem_cons_of_mem _ hpm)
    have hpl : p ∉ l := by
      intro hc
      rw [← es, List.nodup_append] at hnd2
      exact hnd2.2.2 _ hc _ (by simp) rfl
    have hoq : old ≠ q := fun e => hem (by simp [e])
    have hop : old ≠ p := fun e => hem (e ▸ hpm)
    have hnq : new ≠ q := fun e => hf (by simp [e])
    have hnp : new ≠ p := fun e => hf (List.mem_cons_of_mem _ (e ▸ hpm))
    refine ⟨wN (wP (wP (wN h new q) q new) new p) p new, ?_, ⟨?_, new, q :: m, rfl, ?_⟩, ?_⟩
    · unfold listReplace
      have h1 : next (wN h new q) new = some q := next_wN_self _ hv
      have h2 : prev (wP (wN h new q) q new) old = some p := by
        rw [prev_wP_ne hoq, prev_wN, hep]
      have h3 : prev (wP (wP (wN h new q) q new) new p) new = some p :=
        prev_wP_self _ (by rw [isSome_wP, isSome_wN]; exact hv)
      simp only [Option.bind_eq_bind, setPrev_live, setNext_live, isSome_wP, isSome_wN, hv, hqv, hpv,
        Option.bind_some, hen, h1, h2, h3]
    · rw [List.nodup_cons]
      exact ⟨fun hc => hf (List.mem_cons_of_mem _ hc), hnd2⟩
    · have hg : Linked (wN (wP (wP (wN h new q) q new) new p) p new) (l ++ [p, new]) := by
        rw [Linked_pair]
        refine ⟨Linked_frame hl3 ?_ ?_, ?_, ?_⟩
        · intro x hx
          rw [List.dropLast_concat] at hx
          have hxp : x ≠ p := fun e => hpl (e ▸ hx)
          have hxn : x ≠ new := fun e => hf (List.mem_cons_of_mem _ (by rw [← es]; simp [← e, hx]))
          rw [next_wN_ne hxp, next_wP, next_wP, next_wN_ne hxn]
        · intro y hy
          rw [es, List.tail_cons] at hy
          have hyq : y ≠ q := fun e => hq (e ▸ hy)
          have hyn : y ≠ new := fun e => hf (by simp [← e, hy])
          rw [prev_wN, prev_wP_ne hyn, prev_wP_ne hyq, prev_wN]
        · exact next_wN_self _ (by simp only [isSome_wP, isSome_wN]; exact hpv)
        · rw [prev_wN]
          exact prev_wP_self _ (by simp only [isSome_wP, isSome_wN]; exact hv)
      have hgo : Linked (wN (wP (wP (wN h new q) q new) new p) p new) ([new] ++ q :: (m ++ [new])) := by
        rw [Linked_split]
        refine ⟨⟨?_, ?_, trivial⟩, ?_⟩
        · rw [next_wN_ne hnp, next_wP, next_wP]
          exact next_wN_self _ hv
        · rw [prev_wN, prev_wP_ne hnq.symm]
          exact prev_wP_self _ (by rw [isSome_wN]; exact hqv)
        · have : q :: (m ++ [new]) = l ++ [p, new] := by
            rw [show l ++ [p, new] = (l ++ [p]) ++ [new] by simp, es]
            rfl
          rw [this]
          exact hg
      simpa using hgo
    · intro x hx
      simp only [List.mem_cons, not_or] at hx
      have hxp : x ≠ p := by
        intro e
        rcases List.mem_cons.1 hpm with h | h
        · exact hx.2.2.1 (e.trans h)
        · exact hx.2.2.2 (e ▸ h)
      rw [wN_ne hxp, wP_ne hx.1, wP_ne hx.2.2.1, wN_ne hx.1]

theorem last_split {l : List Nat} (hne : l ≠ []) (hnd : l.Nodup) : ∃ r p, l = r ++ [p] ∧ p ∉ r := by
  refine ⟨l.dropLast, l.getLast hne, (List.dropLast_concat_getLast hne).symm, ?_⟩
  intro hc
  have e := List.dropLast_concat_getLast hne
  rw [← e, List.nodup_append] at hnd
  exact hnd.2.2 _ hc _ (by simp) rfl

/-- The elements `a` of one ring between the last and the first node of another. -/
theorem splice_ring {h : Heap} {list q : Nat} {a m : List Nat} (h1 : Ring h (list :: a))
    (ha : a ≠ []) (h2 : Ring h (q :: m)) (hd : ∀ x ∈ list :: a, x ∉ q :: m) :
    ∃ p h', prev h q = some p ∧ p ∈ q :: m ∧ next h p = some q ∧ listSplice' h list p q = some h' ∧
      Ring h' (q :: m ++ a) ∧ SameOutside h h' (q :: m ++ a) := by
  obtain ⟨l, p, e, hpl, hl, hnp, hpq⟩ := h2.last
  have hpm : p ∈ q :: m := by rw [e]; simp
  have hnd2 := h2.1
  have hq : q ∉ m := (List.nodup_cons.1 hnd2).1
  have hlive1 := h1.live
  have hlive2 := h2.live
  obtain ⟨hnd1, x, r, ee, hl1⟩ := h1
  cases ee
  have hnda := (List.nodup_cons.1 hnd1).2
  obtain ⟨l2, z, ez, hz⟩ := last_split ha hnda
  obtain ⟨f, a', ef⟩ := List.exists_cons_of_ne_nil ha
  have hfa' : f ∉ a' := by rw [ef] at hnda; exact (List.nodup_cons.1 hnda).1
  have hfa : f ∈ a := by rw [ef]; simp
  have hza : z ∈ a := by rw [ez]; simp
  -- the links inside the first ring
  have hl1' : Linked h ([list] ++ f :: (a' ++ [list])) := by
    rw [ef] at hl1
    simpa using hl1
  rw [Linked_split] at hl1'
  obtain ⟨⟨hnl, _, _⟩, hl3⟩ := hl1'
  have hl4 : Linked h (l2 ++ [z, list]) := by
    rw [show l2 ++ [z, list] = (l2 ++ [z]) ++ [list] by simp, ← ez, ef]
    simpa using hl3
  rw [Linked_pair] at hl4
  obtain ⟨hl5, _, hlz⟩ := hl4
  have hda : ∀ x ∈ a, x ∉ q :: m := fun x hx => hd x (List.mem_cons_of_mem _ hx)
  have hfv := hlive1 f (List.mem_cons_of_mem _ hfa)
  have hzv := hlive1 z (List.mem_cons_of_mem _ hza)
  have hpv := hlive2 p hpm
  have hqv := hlive2 q (by simp)
  have hfq : f ≠ q := fun e => hda f hfa (by simp [e])
  have hpz : p ≠ z := fun e => hda z hza (e ▸ hpm)
  refine ⟨p, wP (wN (wN (wP h f p) p f) z q) q z, hpq, hpm, hnp, ?_, ⟨?_, q, m ++ a, rfl, ?_⟩, ?_⟩
  · unfold listSplice'
    simp only [Option.bind_eq_bind, setPrev_live, setNext_live, isSome_wP, isSome_wN, hfv, hzv, hpv,
      hqv, Option.bind_some, hnl, hlz]
  · rw [List.nodup_append]
    refine ⟨hnd2, hnda, ?_⟩
    intro x hx y hy exy
    exact hda y hy (exy ▸ hx)
  · have h6 : Linked (wP (wN (wN (wP h f p) p f) z q) q z) (l ++ [p]) := by
      refine Linked_frame hl ?_ ?_
      · intro x hx
        rw [List.dropLast_concat] at hx
        have hxp : x ≠ p := fun e => hpl (e ▸ hx)
        have hxz : x ≠ z := fun e' => hda z hza (by rw [e]; simp [← e', hx])
        rw [next_wP, next_wN_ne hxz, next_wN_ne hxp, next_wP]
      · intro y hy
        rw [← e, List.tail_cons] at hy
        have hyq : y ≠ q := fun e => hq (e ▸ hy)
        have hyf : y ≠ f := fun e => hda f hfa (by simp [← e, hy])
        rw [prev_wP_ne hyq, prev_wN, prev_wN, prev_wP_ne hyf]
    have h7 : Linked (wP (wN (wN (wP h f p) p f) z q) q z) (l2 ++ [z]) := by
      refine Linked_frame hl5 ?_ ?_
      · intro x hx
        rw [List.dropLast_concat] at hx
        have hxz : x ≠ z := fun e => hz (e ▸ hx)
        have hxp : x ≠ p := fun e => hda x (by rw [ez]; simp [hx]) (e ▸ hpm)
        rw [next_wP, next_wN_ne hxz, next_wN_ne hxp, next_wP]
      · intro y hy
        rw [← ez, ef, List.tail_cons] at hy
        have hyf : y ≠ f := fun e => hfa' (e ▸ hy)
        have hyq : y ≠ q := fun e => hda y (by rw [ef]; simp [hy]) (by simp [e])
        rw [prev_wP_ne hyq, prev_wN, prev_wN, prev_wP_ne hyf]
    have h8 : Linked (wP (wN (wN (wP h f p) p f) z q) q z) (l2 ++ [z, q]) := by
      rw [Linked_pair]
      refine ⟨h7, ?_, ?_⟩
      · rw [next_wP]
        exact next_wN_self _ (by simp only [isSome_wN, isSome_wP]; exact hzv)
      · exact prev_wP_self _ (by simp only [isSome_wN, isSome_wP]; exact hqv)
    have h9 : q :: m ++ a ++ [q] = l ++ p :: f :: (a' ++ [q]) := by
      rw [e, ef]; simp
    rw [h9, Linked_split]
    refine ⟨h6, ?_, ?_, ?_⟩
    · rw [next_wP, next_wN_ne hpz]
      exact next_wN_self _ (by rw [isSome_wP]; exact hpv)
    · rw [prev_wP_ne hfq, prev_wN, prev_wN]
      exact prev_wP_self _ hfv
    · rw [show f :: (a' ++ [q]) = l2 ++ [z, q] by
        rw [show l2 ++ [z, q] = (l2 ++ [z]) ++ [q] by simp, ← ez, ef]; rfl]
      exact h8
  · intro x hx
    simp only [List.mem_append, not_or] at hx
    have hxp : x ≠ p := fun e => hx.1 (e ▸ hpm)
    have hxq : x ≠ q := fun e => hx.1 (by simp [e])
    have hxf : x ≠ f := fun e => hx.2 (e ▸ hfa)
    have hxz : x ≠ z := fun e => hx.2 (e ▸ hza)
    rw [wP_ne hxq, wN_ne hxz, wN_ne hxp, wP_ne hxf]

/-- Cutting a ring after `entry`. -/
theorem cut_ring {h : Heap} {list head entry : Nat} {a b : List Nat}
    (hr : Ring h (head :: (a ++ entry :: b))) (hf : list ∉ head :: (a ++ entry :: b))
    (hv : (h list).isSome = true) : ∃ h', listCutPosition h list head entry = some h' ∧
      Ring h' (list :: (a ++ [entry])) ∧ Ring h' (head :: b) ∧
      SameOutside h h' (list :: head :: (a ++ entry :: b)) := by
  have hlive := hr.live
  have hhv := hlive head (by simp)
  have hev := hlive entry (by simp)
  obtain ⟨hnd, x, r, ee, hl⟩ := hr
  cases ee
  have hnd0 := List.nodup_cons.1 hnd
  have hnd1 := List.nodup_append.1 hnd0.2
  have hnd2 := List.nodup_cons.1 hnd1.2.1
  obtain ⟨f, a', ef⟩ : ∃ f a', a ++ [entry] = f :: a' :=
    List.exists_cons_of_ne_nil (by simp)
  obtain ⟨g, b', eg⟩ : ∃ g b', b ++ [head] = g :: b' :=
    List.exists_cons_of_ne_nil (by simp)
  have hfm : f ∈ a ++ [entry] := by rw [ef]; simp
  have hgm : g ∈ b ++ [head] := by rw [eg]; simp
  have hea : entry ∉ a := fun hc => hnd1.2.2 entry hc entry (by simp) rfl
  have hdisj : ∀ x ∈ a ++ [entry], x ∉ b ++ [head] := by
    intro x hx hx2
    rcases List.mem_append.1 hx with hx | hx
    · rcases List.mem_append.1 hx2 with h2 | h2
      · exact hnd1.2.2 x hx x (by simp [h2]) rfl
      · rw [List.mem_singleton.1 h2] at hx
        exact hnd0.1 (by simp [hx])
    · rw [List.mem_singleton.1 hx] at hx2
      rcases List.mem_append.1 hx2 with h2 | h2
      · exact hnd2.1 h2
      · exact hnd0.1 (by simp [List.mem_singleton.1 h2])
  have hnda : (f :: a').Nodup := by
    rw [← ef, List.nodup_append]
    refine ⟨hnd1.1, by simp, ?_⟩
    intro x hx y hy exy
    rw [List.mem_singleton.1 hy] at exy
    exact hea (exy ▸ hx)
  have hndb : (g :: b').Nodup := by
    rw [← eg, List.nodup_append]
    refine ⟨hnd2.2, by simp, ?_⟩
    intro x hx y hy exy
    rw [List.mem_singleton.1 hy] at exy
    exact hnd0.1 (by rw [← exy]; simp [hx])
  have hla : ∀ x ∈ a ++ [entry], x ≠ list := by
    intro x hx e
    refine hf ?_
    rcases List.mem_append.1 hx with hx | hx
    · simp [← e, hx]
    · rw [List.mem_singleton.1 hx] at e
      simp [e]
  have hlb : ∀ x ∈ b ++ [head], x ≠ list := by
    intro x hx e
    refine hf ?_
    rcases List.mem_append.1 hx with hx | hx
    · simp [← e, hx]
    · rw [List.mem_singleton.1 hx] at e
      simp [e]
  -- the links before the cut
  have hl0 : Linked h ([head] ++ f :: (a' ++ (b ++ [head]))) := by
    have : [head] ++ f :: (a' ++ (b ++ [head])) = head :: (a ++ entry :: b) ++ [head] := by
      rw [show f :: (a' ++ (b ++ [head])) = (f :: a') ++ (b ++ [head]) from rfl, ← ef]
      simp
    rw [this]
    exact hl
  rw [Linked_split] at hl0
  obtain ⟨⟨hhf, _, _⟩, hl1⟩ := hl0
  have hl2 : Linked h (a ++ entry :: (b ++ [head])) := by
    have : a ++ entry :: (b ++ [head]) = f :: (a' ++ (b ++ [head])) := by
      rw [show f :: (a' ++ (b ++ [head])) = (f :: a') ++ (b ++ [head]) from rfl, ← ef]
      simp
    rw [this]
    exact hl1
  rw [Linked_split] at hl2
  obtain ⟨hla1, hlb1⟩ := hl2
  rw [eg] at hlb1
  obtain ⟨heg, _, hlb2⟩ := hlb1
  have hfv := hlive f (by
    rcases List.mem_append.1 hfm with h | h
    · simp [h]
    · rw [List.mem_singleton.1 h]; simp)
  have hgv := hlive g (by
    rcases List.mem_append.1 hgm with h | h
    · simp [h]
    · rw [List.mem_singleton.1 h]; simp)
  have hfl : f ≠ list := hla f hfm
  have hgl : g ≠ list := hlb g hgm
  have hel : entry ≠ list := hla entry (by simp)
  have hhl : head ≠ list := hlb head (by simp)
  have hfg : f ≠ g := fun e => hdisj f hfm (e ▸ hgm)
  have hhe : head ≠ entry := fun e => hdisj entry (by simp) (by simp [e])
  refine ⟨wP (wN (wN (wP (wP (wN h list f) f list) list entry) entry list) head g) g head,
    ?_, ⟨?_, list, a ++ [entry], rfl, ?_⟩, ⟨?_, head, b, rfl, ?_⟩, ?_⟩
  · unfold listCutPosition
    have h1 : next (wN h list f) list = some f := next_wN_self _ hv
    simp only [Option.bind_eq_bind, setPrev_live, setNext_live, isSome_wP, isSome_wN, hfv, hgv, hhv,
      hev, hv, Option.bind_some, heg, hhf, h1]
  · rw [List.nodup_cons, ef]
    exact ⟨fun hc => hla list (ef ▸ hc) rfl, hnda⟩
  · have h6 : Linked (wP (wN (wN (wP (wP (wN h list f) f list) list entry) entry list) head g) g head)
        (a ++ [entry, list]) := by
      rw [Linked_pair]
      refine ⟨Linked_frame hla1 ?_ ?_, ?_, ?_⟩
      · intro x hx
        rw [List.dropLast_concat] at hx
        have hxe : x ≠ entry := fun e => hea (e ▸ hx)
        have hxl : x ≠ list := hla x (by simp [hx])
        have hxh : x ≠ head := fun e => hdisj x (by simp [hx]) (by simp [e])
        rw [next_wP, next_wN_ne hxh, next_wN_ne hxe, next_wP, next_wP, next_wN_ne hxl]
      · intro y hy
        rw [ef, List.tail_cons] at hy
        have hym : y ∈ a ++ [entry] := by rw [ef]; simp [hy]
        have hyf : y ≠ f := fun e => (List.nodup_cons.1 hnda).1 (e ▸ hy)
        have hyl : y ≠ list := hla y hym
        have hyg : y ≠ g := fun e => hdisj y hym (e ▸ hgm)
        rw [prev_wP_ne hyg, prev_wN, prev_wN, prev_wP_ne hyl, prev_wP_ne hyf, prev_wN]
      · rw [next_wP, next_wN_ne hhe.symm]
        exact next_wN_self _ (by simp only [isSome_wN, isSome_wP]; exact hev)
      · rw [prev_wP_ne hgl.symm, prev_wN, prev_wN]
        exact prev_wP_self _ (by simp only [isSome_wN, isSome_wP]; exact hv)
    have h7 : list :: (a ++ [entry]) ++ [list] = list :: f :: (a' ++ [list]) := by
      rw [ef]; rfl
    rw [h7]
    refine ⟨?_, ?_, ?_⟩
    · rw [next_wP, next_wN_ne hhl.symm, next_wN_ne hel.symm, next_wP, next_wP]
      exact next_wN_self _ hv
    · rw [prev_wP_ne hfg, prev_wN, prev_wN, prev_wP_ne hfl]
      exact prev_wP_self _ (by rw [isSome_wN]; exact hfv)
    · have : f :: (a' ++ [list]) = a ++ [entry, list] := by
        rw [show f :: (a' ++ [list]) = (f :: a') ++ [list] from rfl, ← ef]
        simp
      rw [this]
      exact h6
  · rw [List.nodup_cons]
    exact ⟨fun hc => hnd0.1 (by simp [hc]), hnd2.2⟩
  · have h7 : head :: b ++ [head] = head :: g :: b' := by
      rw [List.cons_append, eg]
    rw [h7]
    refine ⟨?_, ?_, ?_⟩
    · rw [next_wP]
      exact next_wN_self _ (by simp only [isSome_wN, isSome_wP]; exact hhv)
    · exact prev_wP_self _ (by simp only [isSome_wN, isSome_wP]; exact hgv)
    · refine Linked_frame hlb2 ?_ ?_
      · intro x hx
        have hxb : x ∈ b := by
          rw [← eg, List.dropLast_concat] at hx
          exact hx
        have hxm : x ∈ b ++ [head] := by simp [hxb]
        have hxl : x ≠ list := hlb x hxm
        have hxe : x ≠ entry := fun e => hdisj entry (by simp) (e ▸ hxm)
        have hxh : x ≠ head := fun e => hnd0.1 (by rw [← e]; simp [hxb])
        rw [next_wP, next_wN_ne hxh, next_wN_ne hxe, next_wP, next_wP, next_wN_ne hxl]
      · intro y hy
        rw [List.tail_cons] at hy
        have hym : y ∈ b ++ [head] := by rw [eg]; simp [hy]
        have hyg : y ≠ g := fun e => (List.nodup_cons.1 hndb).1 (e ▸ hy)
        have hyl : y ≠ list := hlb y hym
        have hyf : y ≠ f := fun e => hdisj f hfm (e ▸ hym)
        rw [prev_wP_ne hyg, prev_wN, prev_wN, prev_wP_ne hyl, prev_wP_ne hyf, prev_wN]
  · intro x hx
    simp only [List.mem_cons, List.mem_append, not_or] at hx
    have hxf : x ≠ f := by
      intro e
      rcases List.mem_append.1 hfm with h | h
      · exact hx.2.2.1 (e ▸ h)
      · exact hx.2.2.2.1 (e.trans (List.mem_singleton.1 h))
    have hxg : x ≠ g := by
      intro e
      rcases List.mem_append.1 hgm with h | h
      · exact hx.2.2.2.2 (e ▸ h)
      · exact hx.2.1 (e.trans (List.mem_singleton.1 h))
    rw [wP_ne hxg, wN_ne hx.2.1, wN_ne hx.2.2.2.1, wP_ne hx.1, wP_ne hxf, wN_ne hx.1]

end Ulp.CList
