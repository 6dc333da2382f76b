import Verif.Proof.CList
namespace Ulp.CList

/-- A singly linked, 0-terminated list starting at `p`. -/
def SL (h : Heap) (p : Nat) : List Nat → Prop
  | [] => p = 0
  | x :: xs => p = x ∧ x ≠ 0 ∧ ∃ n, next h x = some n ∧ SL h n xs

/-- `a` may come before `b`. -/
def leOf (cmp : Nat → Nat → Int) (a b : Nat) : Bool := decide (cmp a b ≤ 0)

theorem SL.congr {h h' : Heap} : ∀ {xs : List Nat} {p : Nat}, SL h p xs →
    (∀ x ∈ xs, next h' x = next h x) → SL h' p xs
  | [], _, hs, _ => hs
  | x :: xs, p, ⟨e, hx, n, hn, hs⟩, hc =>
    ⟨e, hx, n, by rw [hc x (by simp)]; exact hn, hs.congr fun y hy => hc y (by simp [hy])⟩

theorem SL.live {h : Heap} {x p : Nat} {xs : List Nat} (hs : SL h p (x :: xs)) :
    (h x).isSome = true := by
  obtain ⟨_, _, n, hn, _⟩ := hs
  exact live_of_next hn

theorem SL.ne {h : Heap} {x p : Nat} {xs : List Nat} (hs : SL h p (x :: xs)) : p ≠ 0 := by
  obtain ⟨rfl, hx, _⟩ := hs
  exact hx

theorem SL.eq {h : Heap} {x p : Nat} {xs : List Nat} (hs : SL h p (x :: xs)) : p = x := hs.1

/-- The value of the slot `merge` stores to. -/
def tailVal (s : Heap × Nat) : Option Nat → Option Nat
  | none => some s.2
  | some t => next s.1 t

theorem setTail_spec {h : Heap} {hd v : Nat} {tail : Option Nat}
    (ht : ∀ t, tail = some t → (h t).isSome = true) :
    ∃ h' hd', setTail (h, hd) tail v = some (h', hd') ∧ tailVal (h', hd') tail = some v ∧
      (∀ z, prev h' z = prev h z) ∧ (∀ z, tail ≠ some z → h' z = h z) ∧
      (∀ z, (h' z).isSome = (h z).isSome) ∧ (tail ≠ none → hd' = hd) := by
  cases tail with
  | none => exact ⟨h, v, rfl, rfl, fun _ => rfl, fun _ _ => rfl, fun _ => rfl, fun e => absurd rfl e⟩
  | some t =>
    have hv := ht t rfl
    refine ⟨wN h t v, hd, ?_, next_wN_self v hv, prev_wN h t v, ?_, isSome_wN h t v, fun _ => rfl⟩
    · simp only [setTail, setNext_live v hv, Option.map_some]
    · intro z hz
      exact wN_ne fun e => hz (by rw [e])

theorem next_eq {h h' : Heap} {x : Nat} (e : h' x = h x) : next h' x = next h x := by
  unfold next; rw [e]

theorem prev_eq {h h' : Heap} {x : Nat} (e : h' x = h x) : prev h' x = prev h x := by
  unfold prev; rw [e]

theorem heap_ext {h h' : Heap} {x : Nat} (hn : next h' x = next h x) (hp : prev h' x = prev h x) :
    h' x = h x := by
  unfold next at hn
  unfold prev at hp
  cases e : h x with
  | none =>
    rw [e] at hn
    cases e' : h' x with
    | none => rfl
    | some a => rw [e'] at hn; cases hn
  | some a =>
    rw [e] at hn hp
    cases e' : h' x with
    | none => rw [e'] at hn; cases hn
    | some b =>
      rw [e'] at hn hp
      simp only [Option.map_some, Option.some.injEq] at hn hp
      cases a; cases b
      simp only at hn hp
      rw [hn, hp]

/-- What `merge` does, from any point of its loop. -/
theorem mergeLoop_spec (cmp : Nat → Nat → Int) : ∀ (n : Nat) (h : Heap) (hd : Nat)
    (tail : Option Nat) (x y : Nat) (xs ys : List Nat) (a b : Nat),
    xs.length + ys.length = n → SL h a (x :: xs) → SL h b (y :: ys) →
    ((x :: xs) ++ (y :: ys)).Nodup →
    (∀ t, tail = some t → t ∉ (x :: xs) ++ (y :: ys) ∧ (h t).isSome = true) →
    ∃ h' hd' r, mergeLoop cmp (h, hd) tail a b = some (h', hd') ∧
      SL h' r (List.merge (x :: xs) (y :: ys) (leOf cmp)) ∧ tailVal (h', hd') tail = some r ∧
      (∀ z, prev h' z = prev h z) ∧
      (∀ z, z ∉ (x :: xs) ++ (y :: ys) → tail ≠ some z → h' z = h z) ∧
      (tail ≠ none → hd' = hd) := by
  intro n
  induction n with
  | zero =>
    intro h hd tail x y xs ys a b hn ha hb hnd ht
    have hxs : xs = [] := List.length_eq_zero_iff.1 (by omega)
    have hys : ys = [] := List.length_eq_zero_iff.1 (by omega)
    subst hxs
    subst hys
    obtain ⟨rfl, ha0, n1, hna, ha1⟩ := ha
    obtain ⟨rfl, hb0, n2, hnb, hb1⟩ := hb
    have hxy : a ≠ b := by simpa using hnd
    have hva := live_of_next hna
    have hvb := live_of_next hnb
    obtain ⟨va, eva⟩ := Option.isSome_iff_exists.1 hva
    obtain ⟨vb, evb⟩ := Option.isSome_iff_exists.1 hvb
    cases ha1
    cases hb1
    have hcall : call cmp h a b = some (cmp a b) := by simp only [call, eva, evb]
    rw [mergeLoop]
    simp only [hcall, Option.bind_eq_bind, Option.bind_some]
    by_cases hc : cmp a b ≤ 0
    · rw [if_pos hc]
      obtain ⟨h1, hd1, e1, t1, p1, f1, l1, k1⟩ := setTail_spec (h := h) (hd := hd) (v := a)
        (tail := tail) fun t e => (ht t e).2
      rw [e1]
      have hta : tail ≠ some a := fun e => (ht a e).1 (by simp)
      have htb : tail ≠ some b := fun e => (ht b e).1 (by simp)
      have hna1 : next h1 a = some 0 := by rw [next_eq (f1 a hta)]; exact hna
      have hnb1 : next h1 b = some 0 := by rw [next_eq (f1 b htb)]; exact hnb
      obtain ⟨h2, hd2, e2, t2, p2, f2, l2, k2⟩ := setTail_spec (h := h1) (hd := hd1) (v := b)
        (tail := some a) fun t e => by cases e; exact live_of_next hna1
      simp only [Option.bind_some, hna1, if_true]
      refine ⟨h2, hd2, a, e2, ?_, ?_, ?_, ?_, ?_⟩
      · rw [List.cons_merge_cons_pos _ _ _ (by simp [leOf, hc]), List.nil_merge]
        exact ⟨rfl, ha0, b, t2, rfl, hb0, 0, by rw [next_eq (f2 b (by simp [hxy]))]; exact hnb1, rfl⟩
      · cases tail with
        | none => simp only [tailVal] at t1 ⊢; rw [k2 (by simp)]; exact t1
        | some t =>
          simp only [tailVal] at t1 ⊢
          rw [next_eq (f2 t fun e => hta e.symm)]; exact t1
      · intro z; rw [p2, p1]
      · intro z hz hzt
        rw [f2 z (by simp at hz ⊢; exact fun e => hz.1 e.symm), f1 z hzt]
      · intro e; rw [k2 (by simp), k1 e]
    · rw [if_neg hc]
      obtain ⟨h1, hd1, e1, t1, p1, f1, l1, k1⟩ := setTail_spec (h := h) (hd := hd) (v := b)
        (tail := tail) fun t e => (ht t e).2
      rw [e1]
      have hta : tail ≠ some a := fun e => (ht a e).1 (by simp)
      have htb : tail ≠ some b := fun e => (ht b e).1 (by simp)
      have hna1 : next h1 a = some 0 := by rw [next_eq (f1 a hta)]; exact hna
      have hnb1 : next h1 b = some 0 := by rw [next_eq (f1 b htb)]; exact hnb
      obtain ⟨h2, hd2, e2, t2, p2, f2, l2, k2⟩ := setTail_spec (h := h1) (hd := hd1) (v := a)
        (tail := some b) fun t e => by cases e; exact live_of_next hnb1
      simp only [Option.bind_some, hnb1, if_true]
      refine ⟨h2, hd2, b, e2, ?_, ?_, ?_, ?_, ?_⟩
      · rw [List.cons_merge_cons_neg _ _ _ (by simp only [leOf, decide_eq_true_eq]; exact hc),
          List.merge_right]
        exact ⟨rfl, hb0, a, t2, rfl, ha0, 0,
          by rw [next_eq (f2 a (by simpa using hxy.symm))]; exact hna1, rfl⟩
      · cases tail with
        | none => simp only [tailVal] at t1 ⊢; rw [k2 (by simp)]; exact t1
        | some t =>
          simp only [tailVal] at t1 ⊢
          rw [next_eq (f2 t fun e => htb e.symm)]; exact t1
      · intro z; rw [p2, p1]
      · intro z hz hzt
        rw [f2 z (by simp at hz ⊢; exact fun e => hz.2 e.symm), f1 z hzt]
      · intro e; rw [k2 (by simp), k1 e]
  | succ n ih =>
    intro h hd tail x y xs ys a b hn ha hb hnd ht
    obtain ⟨rfl, ha0, n1, hna, ha1⟩ := id ha
    obtain ⟨rfl, hb0, n2, hnb, hb1⟩ := id hb
    have hva := live_of_next hna
    have hvb := live_of_next hnb
    obtain ⟨va, eva⟩ := Option.isSome_iff_exists.1 hva
    obtain ⟨vb, evb⟩ := Option.isSome_iff_exists.1 hvb
    have hcall : call cmp h a b = some (cmp a b) := by simp only [call, eva, evb]
    have hnd2 := hnd
    simp only [List.cons_append, List.nodup_cons, List.nodup_append, List.mem_append,
      List.mem_cons, not_or] at hnd2
    have hta : tail ≠ some a := fun e => (ht a e).1 (by simp)
    have htb : tail ≠ some b := fun e => (ht b e).1 (by simp)
    rw [mergeLoop]
    simp only [hcall, Option.bind_eq_bind, Option.bind_some]
    by_cases hc : cmp a b ≤ 0
    · rw [if_pos hc]
      obtain ⟨h1, hd1, e1, t1, p1, f1, l1, k1⟩ := setTail_spec (h := h) (hd := hd) (v := a)
        (tail := tail) fun t e => (ht t e).2
      rw [e1]
      have hna1 : next h1 a = some n1 := by rw [next_eq (f1 a hta)]; exact hna
      have hb' : SL h1 b (b :: ys) := hb.congr fun z hz => next_eq (f1 z fun e =>
        (ht z e).1 (List.mem_append.2 (Or.inr hz)))
      have hxs' : SL h1 n1 xs := ha1.congr fun z hz => next_eq (f1 z fun e =>
        (ht z e).1 (List.mem_append.2 (Or.inl (by simp [hz]))))
      simp only [Option.bind_some, hna1]
      rw [List.cons_merge_cons_pos _ _ _ (by simp [leOf, hc])]
      cases xs with
      | nil =>
        cases hxs'
        simp only [if_true]
        obtain ⟨h2, hd2, e2, t2, p2, f2, l2, k2⟩ := setTail_spec (h := h1) (hd := hd1) (v := b)
          (tail := some a) fun t e => by cases e; exact live_of_next hna1
        refine ⟨h2, hd2, a, e2, ?_, ?_, ?_, ?_, ?_⟩
        · rw [List.nil_merge]
          refine ⟨rfl, ha0, b, t2, hb'.congr fun z hz => next_eq (f2 z fun e => ?_)⟩
          cases e
          rcases List.mem_cons.1 hz with e | hz
          · exact hnd2.1.2.1 e
          · exact hnd2.1.2.2 hz
        · cases tail with
          | none => simp only [tailVal] at t1 ⊢; rw [k2 (by simp)]; exact t1
          | some t =>
            simp only [tailVal] at t1 ⊢
            rw [next_eq (f2 t fun e => hta e.symm)]; exact t1
        · intro z; rw [p2, p1]
        · intro z hz hzt
          rw [f2 z (fun e => hz (by cases e; simp)), f1 z hzt]
        · intro e; rw [k2 (by simp), k1 e]
      | cons x xs =>
        have hn0 : ¬ n1 = 0 := hxs'.ne
        rw [if_neg hn0]
        obtain ⟨h2, hd2, r, e2, s2, t2, p2, f2, k2⟩ := ih h1 hd1 (some a) x b xs ys n1 b
          (by simp only [List.length_cons] at hn; omega) hxs' hb'
          (by simp only [List.cons_append, List.nodup_cons] at hnd ⊢; exact hnd.2)
          (by
            intro t e
            cases e
            exact ⟨by simp only [List.cons_append, List.nodup_cons] at hnd ⊢; exact hnd.1,
              live_of_next hna1⟩)
        refine ⟨h2, hd2, a, e2, ⟨rfl, ha0, r, t2, s2⟩, ?_, ?_, ?_, ?_⟩
        · cases tail with
          | none => simp only [tailVal] at t1 ⊢; rw [k2 (by simp)]; exact t1
          | some t =>
            simp only [tailVal] at t1 ⊢
            have htm := (ht t rfl).1
            rw [next_eq (f2 t (fun hm => htm (by
              simp only [List.cons_append, List.mem_cons] at hm ⊢
              exact Or.inr hm)) fun e => hta e.symm)]
            exact t1
        · intro z; rw [p2, p1]
        · intro z hz hzt
          have hza : z ≠ a := fun e => hz (by simp [e])
          rw [f2 z (fun hm => hz (by
              simp only [List.cons_append, List.mem_cons] at hm ⊢
              exact Or.inr hm)) (fun e => hza (by cases e; rfl)), f1 z hzt]
        · intro e; rw [k2 (by simp), k1 e]
    · rw [if_neg hc]
      obtain ⟨h1, hd1, e1, t1, p1, f1, l1, k1⟩ := setTail_spec (h := h) (hd := hd) (v := b)
        (tail := tail) fun t e => (ht t e).2
      rw [e1]
      have hnb1 : next h1 b = some n2 := by rw [next_eq (f1 b htb)]; exact hnb
      have ha' : SL h1 a (a :: xs) := ha.congr fun z hz => next_eq (f1 z fun e =>
        (ht z e).1 (List.mem_append.2 (Or.inl hz)))
      have hys' : SL h1 n2 ys := hb1.congr fun z hz => next_eq (f1 z fun e =>
        (ht z e).1 (List.mem_append.2 (Or.inr (by simp [hz]))))
      simp only [Option.bind_some, hnb1]
      rw [List.cons_merge_cons_neg _ _ _ (by simp only [leOf, decide_eq_true_eq]; exact hc)]
      have hbn : b ∉ (a :: xs) ++ ys := by
        simp only [List.cons_append, List.mem_cons, List.mem_append, not_or]
        exact ⟨fun e => hnd2.1.2.1 e.symm, fun hm => hnd2.2.2.2 b hm b (Or.inl rfl) rfl,
          hnd2.2.2.1.1⟩
      cases ys with
      | nil =>
        cases hys'
        simp only [if_true]
        obtain ⟨h2, hd2, e2, t2, p2, f2, l2, k2⟩ := setTail_spec (h := h1) (hd := hd1) (v := a)
          (tail := some b) fun t e => by cases e; exact live_of_next hnb1
        refine ⟨h2, hd2, b, e2, ?_, ?_, ?_, ?_, ?_⟩
        · rw [List.merge_right]
          refine ⟨rfl, hb0, a, t2, ha'.congr fun z hz => next_eq (f2 z fun e => ?_)⟩
          cases e
          exact hbn (by simpa using hz)
        · cases tail with
          | none => simp only [tailVal] at t1 ⊢; rw [k2 (by simp)]; exact t1
          | some t =>
            simp only [tailVal] at t1 ⊢
            rw [next_eq (f2 t fun e => htb e.symm)]; exact t1
        · intro z; rw [p2, p1]
        · intro z hz hzt
          rw [f2 z (fun e => hz (by cases e; simp)), f1 z hzt]
        · intro e; rw [k2 (by simp), k1 e]
      | cons y ys =>
        have hn0 : ¬ n2 = 0 := hys'.ne
        rw [if_neg hn0]
        have hsub : ∀ z, z ∈ (a :: xs) ++ (y :: ys) → z ∈ (a :: xs) ++ (b :: y :: ys) := by
          intro z hz
          rcases List.mem_append.1 hz with h | h
          · exact List.mem_append.2 (Or.inl h)
          · exact List.mem_append.2 (Or.inr (List.mem_cons_of_mem _ h))
        obtain ⟨h2, hd2, r, e2, s2, t2, p2, f2, k2⟩ := ih h1 hd1 (some b) a y xs ys a n2
          (by simp only [List.length_cons] at hn; omega) ha' hys'
          (hnd.sublist (List.Sublist.append_left (List.sublist_cons_self b (y :: ys)) (a :: xs)))
          (by
            intro t e
            cases e
            exact ⟨hbn, live_of_next hnb1⟩)
        refine ⟨h2, hd2, b, e2, ⟨rfl, hb0, r, t2, s2⟩, ?_, ?_, ?_, ?_⟩
        · cases tail with
          | none => simp only [tailVal] at t1 ⊢; rw [k2 (by simp)]; exact t1
          | some t =>
            simp only [tailVal] at t1 ⊢
            have htm := (ht t rfl).1
            rw [next_eq (f2 t (fun hm => htm (hsub t hm)) fun e => htb e.symm)]
            exact t1
        · intro z; rw [p2, p1]
        · intro z hz hzt
          have hzb : z ≠ b := fun e => hz (by simp [e])
          rw [f2 z (fun hm => hz (hsub z hm)) (fun e => hzb (by cases e; rfl)), f1 z hzt]
        · intro e; rw [k2 (by simp), k1 e]

/-- `merge` gives the merged list and touches nothing else; the `prev` links
stay. -/
theorem merge_spec (cmp : Nat → Nat → Int) {h : Heap} {a b : Nat} {l1 l2 : List Nat}
    (h1 : l1 ≠ []) (h2 : l2 ≠ []) (ha : SL h a l1) (hb : SL h b l2) (hnd : (l1 ++ l2).Nodup) :
    ∃ h' r, merge cmp h a b = some (h', r) ∧ SL h' r (List.merge l1 l2 (leOf cmp)) ∧
      (∀ z, prev h' z = prev h z) ∧ (∀ z, z ∉ l1 ++ l2 → h' z = h z) := by
  cases l1 with
  | nil => exact absurd rfl h1
  | cons x xs =>
    cases l2 with
    | nil => exact absurd rfl h2
    | cons y ys =>
      obtain ⟨h', hd', r, e, s, t, p, f, _⟩ := mergeLoop_spec cmp _ h 0 none x y xs ys a b rfl ha hb
        hnd (by intro t e; cases e)
      have : hd' = r := by simpa [tailVal] using t
      subst this
      exact ⟨h', hd', e, s, p, fun z hz => f z hz (by simp)⟩

end Ulp.CList
