import Verif.Proof.Sort
namespace Ulp.CList

/-- The pending lists: each a nonempty singly linked list, chained by the
`prev` link of its first node. -/
def PL (h : Heap) (p : Nat) : List (List Nat) → Prop
  | [] => p = 0
  | l :: ls => l ≠ [] ∧ SL h p l ∧ ∃ q, prev h p = some q ∧ PL h q ls

theorem SL.mem {h : Heap} {p : Nat} {l : List Nat} (hl : l ≠ []) (hs : SL h p l) : p ∈ l := by
  cases l with
  | nil => exact absurd rfl hl
  | cons x xs => rw [hs.eq]; simp

theorem PL.congr {h h' : Heap} : ∀ {ls : List (List Nat)} {p : Nat}, PL h p ls →
    (∀ x ∈ ls.flatten, next h' x = next h x) → (∀ x ∈ ls.flatten, prev h' x = prev h x) →
    PL h' p ls
  | [], _, hs, _, _ => hs
  | l :: ls, p, ⟨hl, hs, q, hq, hp⟩, hn, hv =>
    ⟨hl, hs.congr fun x hx => hn x (by simp [hx]), q,
      by rw [hv p (by simp [hs.mem hl])]; exact hq,
      hp.congr (fun x hx => hn x (by rw [List.flatten_cons]; exact List.mem_append.2 (Or.inr hx)))
        fun x hx => hv x (by rw [List.flatten_cons]; exact List.mem_append.2 (Or.inr hx))⟩

/-- Number of binary digits. -/
def blen (n : Nat) : Nat := if n = 0 then 0 else blen (n / 2) + 1
  termination_by n
  decreasing_by omega

theorem blen_zero : blen 0 = 0 := by rw [blen]; simp
theorem blen_odd (k : Nat) : blen (2 * k + 1) = blen k + 1 := by
  rw [blen, if_neg (by omega)]
  congr 2
  omega
theorem blen_even {k : Nat} (hk : k ≠ 0) : blen (2 * k) = blen k + 1 := by
  rw [blen, if_neg (by omega)]
  congr 2
  omega
theorem blen_pos {k : Nat} (hk : k ≠ 0) : 1 ≤ blen k := by
  rw [blen, if_neg hk]
  omega

/-- Merging the newest list with the one before it. -/
def mergeTop (le : Nat → Nat → Bool) (l : List Nat) : List (List Nat) → List (List Nat)
  | [] => [l]
  | m :: r => List.merge m l le :: r

/-- The merge `list_sort` does before it adds an element. -/
def mergeAt (le : Nat → Nat → Bool) : Nat → List (List Nat) → List (List Nat)
  | _, [] => []
  | bits, l :: r =>
    if bits % 2 = 1 then l :: mergeAt le (bits / 2) r
    else if bits = 0 then l :: r
    else mergeTop le l r

theorem mergeAt_length (le : Nat → Nat → Bool) : ∀ (ls : List (List Nat)) (bits : Nat),
    ls.length = blen bits → (mergeAt le bits ls).length + 1 = blen (bits + 1)
  | [], bits, hl => by
    have : bits = 0 := by
      by_cases h : bits = 0
      · exact h
      · have := blen_pos h; simp at hl; omega
    subst this
    simp [mergeAt, blen, blen_zero]
  | l :: r, bits, hl => by
    rw [mergeAt]
    split
    · rename_i ho
      have e : bits = 2 * (bits / 2) + 1 := by omega
      have hl2 : r.length = blen (bits / 2) := by
        rw [e, blen_odd] at hl
        simpa using hl
      have := mergeAt_length le r (bits / 2) hl2
      have e2 : bits + 1 = 2 * (bits / 2 + 1) := by omega
      rw [e2, blen_even (by omega), List.length_cons, this]
    · rename_i ho
      split
      · rename_i h0
        rw [h0, blen_zero] at hl
        simp at hl
      · rename_i h0
        have e : bits = 2 * (bits / 2) := by omega
        have hk : bits / 2 ≠ 0 := by omega
        have hb : blen bits = blen (bits / 2) + 1 := by
          conv => lhs; rw [e]
          exact blen_even hk
        have hb1 : blen (bits + 1) = blen (bits / 2) + 1 := by
          conv => lhs; rw [e]
          exact blen_odd _
        have := blen_pos hk
        cases r with
        | nil => simp at hl; omega
        | cons m r => simp [mergeTop] at hl ⊢; omega

theorem mergeAt_flatten (le : Nat → Nat → Bool) : ∀ (ls : List (List Nat)) (bits : Nat),
    (mergeAt le bits ls).flatten.Perm ls.flatten
  | [], _ => by rw [mergeAt]
  | l :: r, bits => by
    rw [mergeAt]
    split
    · rw [List.flatten_cons, List.flatten_cons]
      exact (mergeAt_flatten le r _).append_left l
    · split
      · exact .refl _
      · cases r with
        | nil => exact .refl _
        | cons m r =>
          simp only [mergeTop, List.flatten_cons]
          rw [← List.append_assoc]
          exact ((List.merge_perm_append le).trans List.perm_append_comm).append_right _

/-- The state after the merge, for the rest of the pending lists behind a slot. -/
def stepFrom (cmp : Nat → Nat → Int) (h : Heap) (pending bits : Nat) (tail : Option Nat) :
    Option (Heap × Nat) := do
  let bt ← findSlot h pending bits tail
  if bt.1 ≠ 0 then
    let a ← getSlot h pending bt.2
    let b ← prev h a
    let r ← merge cmp h b a
    let p ← prev r.1 b
    let h ← setPrev r.1 r.2 p
    putSlot h pending bt.2 r.2
  else return (h, pending)

theorem SL.ne_nil_head {h : Heap} {p : Nat} {l : List Nat} (hl : l ≠ []) (hs : SL h p l) : p ≠ 0 := by
  cases l with
  | nil => exact absurd rfl hl
  | cons x xs => exact hs.ne

theorem SL.isSome {h : Heap} {p : Nat} {l : List Nat} (hl : l ≠ []) (hs : SL h p l) :
    (h p).isSome = true := by
  cases l with
  | nil => exact absurd rfl hl
  | cons x xs => rw [hs.eq]; exact hs.live

theorem getSlot_congr {h h' : Heap} {pending pending' : Nat} {tail : Option Nat}
    (h1 : tail = none → pending' = pending) (h2 : ∀ t, tail = some t → prev h' t = prev h t) :
    getSlot h' pending' tail = getSlot h pending tail := by
  cases tail with
  | none => simp only [getSlot]; rw [h1 rfl]
  | some t => simp only [getSlot]; rw [h2 t rfl]

theorem stepFrom_spec (cmp : Nat → Nat → Int) : ∀ (ls : List (List Nat)) (bits : Nat) (h : Heap)
    (pending : Nat) (tail : Option Nat) (p : Nat), getSlot h pending tail = some p → PL h p ls →
    ls.length = blen bits → ls.flatten.Nodup →
    (∀ t, tail = some t → t ∉ ls.flatten) →
    ∃ h' pending' p', stepFrom cmp h pending bits tail = some (h', pending') ∧
      getSlot h' pending' tail = some p' ∧ PL h' p' (mergeAt (leOf cmp) bits ls) ∧
      (∀ z, z ∉ ls.flatten → next h' z = next h z) ∧
      (∀ z, z ∉ ls.flatten → tail ≠ some z → prev h' z = prev h z) ∧
      (tail ≠ none → pending' = pending)
  | [], bits, h, pending, tail, p, hg, hp, hlen, _, _ => by
    have : bits = 0 := by
      by_cases h : bits = 0
      · exact h
      · have := blen_pos h; simp at hlen; omega
    subst this
    refine ⟨h, pending, p, ?_, hg, by rw [mergeAt]; exact hp, fun _ _ => rfl, fun _ _ _ => rfl,
      fun _ => rfl⟩
    unfold stepFrom
    rw [findSlot]
    simp
  | l :: r, bits, h, pending, tail, p, hg, hp, hlen, hnd, ht => by
    obtain ⟨hl, hs, q, hq, hr⟩ := hp
    have hp0 : ¬ p = 0 := hs.ne_nil_head hl
    have hmemr : ∀ z, z ∈ r.flatten → z ∈ (l :: r).flatten := fun z hz => by
      rw [List.flatten_cons]; exact List.mem_append.2 (Or.inr hz)
    have hmeml : ∀ z, z ∈ l → z ∈ (l :: r).flatten := fun z hz => by
      rw [List.flatten_cons]; exact List.mem_append.2 (Or.inl hz)
    have hndl := hnd
    rw [List.flatten_cons, List.nodup_append] at hndl
    rw [mergeAt]
    by_cases ho : bits % 2 = 1
    · have hlen2 : r.length = blen (bits / 2) := by
        have e : bits = 2 * (bits / 2) + 1 := by omega
        rw [e, blen_odd] at hlen
        simpa using hlen
      have hpr : p ∉ r.flatten := fun hm => hndl.2.2 p (hs.mem hl) p hm rfl
      obtain ⟨h', pend', p', he, hg', hp', hn', hv', hk'⟩ := stepFrom_spec cmp r (bits / 2) h pending
        (some p) q hq hr hlen2 hndl.2.1 (by intro t e; cases e; exact hpr)
      have hk := hk' (by simp)
      refine ⟨h', pend', p, ?_, ?_, ?_, ?_, ?_, fun _ => hk⟩
      · rw [← he]
        unfold stepFrom
        rw [findSlot]
        simp only [ho, if_true, hg, Option.bind_eq_bind, Option.bind_some, if_neg hp0]
      · rw [getSlot_congr (fun _ => hk) ?_]
        · exact hg
        · intro t e
          have htm := ht t e
          refine hv' t (fun hm => htm (hmemr t hm)) ?_
          intro e2
          cases e2
          exact htm (hmeml _ (hs.mem hl))
      · rw [if_pos ho]
        refine ⟨hl, hs.congr fun x hx => hn' x fun hm => hndl.2.2 x hx x hm rfl, p', hg', hp'⟩
      · intro z hz
        exact hn' z fun hm => hz (hmemr z hm)
      · intro z hz _
        refine hv' z (fun hm => hz (hmemr z hm)) ?_
        intro e
        cases e
        exact hz (hmeml _ (hs.mem hl))
    · rw [if_neg ho]
      have hfs : findSlot h pending bits tail = some (bits, tail) := by
        rw [findSlot, if_neg ho]
        rfl
      by_cases h0 : bits = 0
      · subst h0
        rw [blen_zero] at hlen
        simp at hlen
      · rw [if_neg h0]
        have hk : bits / 2 ≠ 0 := by omega
        have e : bits = 2 * (bits / 2) := by omega
        have hb : blen bits = blen (bits / 2) + 1 := by
          conv => lhs; rw [e]
          exact blen_even hk
        have hbp := blen_pos hk
        cases r with
        | nil => simp at hlen; omega
        | cons m r =>
          obtain ⟨hm, hms, s, hqs, hrr⟩ := hr
          have hndml : (m ++ l).Nodup := by
            refine List.Perm.nodup List.perm_append_comm (?_ : (l ++ m).Nodup)
            rw [List.flatten_cons, List.flatten_cons, ← List.append_assoc] at hnd
            exact (List.nodup_append.1 hnd).1
          obtain ⟨h1, mm, e1, s1, p1, f1⟩ := merge_spec cmp hm hl hms hs hndml
          have hne : List.merge m l (leOf cmp) ≠ [] := by
            intro hc
            have hlm := List.length_merge (leOf cmp) m l
            rw [hc] at hlm
            simp only [List.length_nil] at hlm
            exact hl (List.length_eq_zero_iff.1 (by omega))
          have hmm : mm ∈ m ++ l := by
            have := s1.mem hne
            rw [List.mem_merge] at this
            exact List.mem_append.2 this
          have hlm1 : (h1 mm).isSome = true := s1.isSome hne
          have hmlf : ∀ z, z ∈ m ++ l → z ∈ (l :: m :: r).flatten := by
            intro z hz
            simp only [List.flatten_cons, List.mem_append] at hz ⊢
            rcases hz with h | h <;> simp [h]
          have hrdis : ∀ x ∈ r.flatten, x ∉ m ++ l := by
            intro x hx hc
            rw [List.flatten_cons, List.flatten_cons, ← List.append_assoc] at hnd
            refine (List.nodup_append.1 hnd).2.2 x ?_ x hx rfl
            simp only [List.mem_append] at hc ⊢
            exact hc.symm
          have hstep : stepFrom cmp h pending bits tail = putSlot (wP h1 mm s) pending tail mm := by
            unfold stepFrom
            simp only [hfs, Option.bind_eq_bind, Option.bind_some, ne_eq, h0, not_false_eq_true,
              if_true, hg, hq, e1, p1 q, hqs, setPrev_live s hlm1]
          have hPL : ∀ h3 : Heap, (∀ z, next h3 z = next (wP h1 mm s) z) →
              (∀ z, tail ≠ some z → prev h3 z = prev (wP h1 mm s) z) →
              PL h3 mm (List.merge m l (leOf cmp) :: r) := by
            intro h3 hn3 hv3
            have htmm : ∀ z, z ∈ (l :: m :: r).flatten → tail ≠ some z := fun z hz e => ht z e hz
            refine ⟨hne, s1.congr ?_, s, ?_, hrr.congr ?_ ?_⟩
            · intro x _
              rw [hn3, next_wP]
            · rw [hv3 mm (htmm _ (hmlf _ hmm))]
              exact prev_wP_self s hlm1
            · intro x hx
              rw [hn3, next_wP, next_eq (f1 x (hrdis x hx))]
            · intro x hx
              have hxr : x ∈ (l :: m :: r).flatten := by
                simp only [List.flatten_cons, List.mem_append]
                exact Or.inr (Or.inr hx)
              rw [hv3 x (htmm x hxr), prev_wP_ne (fun e => hrdis x hx (by rw [e]; exact hmm)), p1]
          have hfr : ∀ z, z ∉ (l :: m :: r).flatten → wP h1 mm s z = h z := by
            intro z hz
            rw [wP_ne fun e => hz (hmlf _ (by rw [e]; exact hmm)), f1 z fun hc => hz (hmlf z hc)]
          cases tail with
          | none =>
            refine ⟨wP h1 mm s, mm, mm, hstep, rfl, hPL _ (fun _ => rfl) (fun _ _ => rfl), ?_, ?_,
              fun e => absurd rfl e⟩
            · intro z hz
              exact next_eq (hfr z hz)
            · intro z hz _
              exact prev_eq (hfr z hz)
          | some t =>
            have hth := ht t rfl
            have hlt : (wP h1 mm s t).isSome = true := by
              rw [hfr t hth]
              exact live_of_prev (show prev h t = some p from hg)
            refine ⟨wP (wP h1 mm s) t mm, pending, mm, ?_, ?_, hPL _ ?_ ?_, ?_, ?_, fun _ => rfl⟩
            · rw [hstep]
              simp only [putSlot, setPrev_live mm hlt, Option.map_some]
            · exact prev_wP_self mm hlt
            · intro z
              rw [next_wP]
            · intro z hz
              exact prev_wP_ne fun e => hz (by rw [e])
            · intro z hz
              rw [next_wP, next_eq (hfr z hz)]
            · intro z hz hzt
              rw [prev_wP_ne (fun e => hzt (by rw [e])), prev_eq (hfr z hz)]

/-- `list_sort` as a function on the pending lists. -/
def sortF (le : Nat → Nat → Bool) : List Nat → Nat → List (List Nat) → List (List Nat)
  | [], _, ls => ls
  | x :: xs, count, ls => sortF le xs (count + 1) ([x] :: mergeAt le count ls)

theorem sortLoop_spec (cmp : Nat → Nat → Int) : ∀ (xs : List Nat) (x : Nat) (h : Heap)
    (list pending count : Nat) (ls : List (List Nat)), SL h list (x :: xs) → PL h pending ls →
    ls.length = blen count → (ls.flatten ++ x :: xs).Nodup →
    ∃ h' p, sortLoop cmp h list pending count = some (h', p) ∧
      PL h' p (sortF (leOf cmp) (x :: xs) count ls) ∧
      (sortF (leOf cmp) (x :: xs) count ls).length = blen (count + (x :: xs).length) ∧
      (∀ z, z ∉ ls.flatten ++ x :: xs → h' z = h z) := by
  intro xs
  induction xs with
  | nil =>
    intro x h list pending count ls hs hp hlen hnd
    obtain ⟨h1, pend1, p1, e1, g1, P1, n1, v1, _⟩ := stepFrom_spec cmp ls count h pending none
      pending rfl hp hlen (List.nodup_append.1 hnd).1 (by intro t e; cases e)
    cases g1
    obtain ⟨rfl, hx0, n, hn, hsn⟩ := hs
    cases hsn
    have hnl : list ∉ ls.flatten := fun hm => (List.nodup_append.1 hnd).2.2 list hm list (by simp) rfl
    have hn1 : next h1 list = some 0 := by rw [n1 list hnl]; exact hn
    have hlv := live_of_next hn1
    have hst : mergeStep cmp h pending count = some (h1, pend1) := e1
    refine ⟨wN (wP h1 list pend1) list 0, list, ?_, ?_, ?_, ?_⟩
    · rw [sortLoop]
      simp only [hst, Option.bind_eq_bind, Option.bind_some, setPrev_live pend1 hlv, next_wP, hn1,
        setNext_live 0 ((isSome_wP h1 list pend1 list).trans hlv), if_true]
      rfl
    · rw [sortF, sortF]
      refine ⟨by simp, ⟨rfl, hx0, 0, ?_, rfl⟩, pend1, ?_, P1.congr ?_ ?_⟩
      · exact next_wN_self 0 ((isSome_wP h1 list pend1 list).trans hlv)
      · rw [prev_wN]
        exact prev_wP_self pend1 hlv
      · intro z hz
        have hzl : z ≠ list := fun e => hnl ((mergeAt_flatten _ ls count).mem_iff.1 (e ▸ hz))
        rw [next_wN_ne hzl, next_wP]
      · intro z hz
        have hzl : z ≠ list := fun e => hnl ((mergeAt_flatten _ ls count).mem_iff.1 (e ▸ hz))
        rw [prev_wN, prev_wP_ne hzl]
    · rw [sortF, sortF]
      have := mergeAt_length (leOf cmp) ls count hlen
      simpa using this
    · intro z hz
      have hz1 : z ∉ ls.flatten := fun hm => hz (List.mem_append.2 (Or.inl hm))
      have hz2 : z ≠ list := fun e => hz (by simp [e])
      rw [wN_ne hz2, wP_ne hz2]
      exact heap_ext (n1 z hz1) (v1 z hz1 (by simp))
  | cons y ys ih =>
    intro x h list pending count ls hs hp hlen hnd
    obtain ⟨h1, pend1, p1, e1, g1, P1, n1, v1, _⟩ := stepFrom_spec cmp ls count h pending none
      pending rfl hp hlen (List.nodup_append.1 hnd).1 (by intro t e; cases e)
    cases g1
    obtain ⟨rfl, hx0, n, hn, hsn⟩ := hs
    have hndd := List.nodup_append.1 hnd
    have hnl : list ∉ ls.flatten := fun hm => hndd.2.2 list hm list (by simp) rfl
    have hnyl : list ∉ y :: ys := (List.nodup_cons.1 hndd.2.1).1
    have hn1 : next h1 list = some n := by rw [n1 list hnl]; exact hn
    have hlv := live_of_next hn1
    have hst : mergeStep cmp h pending count = some (h1, pend1) := e1
    have hn0 : ¬ n = 0 := hsn.ne
    have hS : SL (wN (wP h1 list pend1) list 0) n (y :: ys) := by
      refine hsn.congr fun z hz => ?_
      have hzl : z ≠ list := fun e => hnyl (e ▸ hz)
      rw [next_wN_ne hzl, next_wP, n1 z fun hm => hndd.2.2 z hm z (by simp [List.mem_cons.1 hz]) rfl]
    have hP : PL (wN (wP h1 list pend1) list 0) list ([list] :: mergeAt (leOf cmp) count ls) := by
      refine ⟨by simp, ⟨rfl, hx0, 0, ?_, rfl⟩, pend1, ?_, P1.congr ?_ ?_⟩
      · exact next_wN_self 0 ((isSome_wP h1 list pend1 list).trans hlv)
      · rw [prev_wN]
        exact prev_wP_self pend1 hlv
      · intro z hz
        have hzl : z ≠ list := fun e => hnl ((mergeAt_flatten _ ls count).mem_iff.1 (e ▸ hz))
        rw [next_wN_ne hzl, next_wP]
      · intro z hz
        have hzl : z ≠ list := fun e => hnl ((mergeAt_flatten _ ls count).mem_iff.1 (e ▸ hz))
        rw [prev_wN, prev_wP_ne hzl]
    have hperm : (([list] :: mergeAt (leOf cmp) count ls).flatten ++ y :: ys).Perm
        (ls.flatten ++ list :: y :: ys) := by
      rw [List.flatten_cons, List.singleton_append, List.cons_append]
      exact (((mergeAt_flatten (leOf cmp) ls count).append_right (y :: ys)).cons list).trans
        List.perm_middle.symm
    have hlen2 : ([list] :: mergeAt (leOf cmp) count ls).length = blen (count + 1) := by
      have := mergeAt_length (leOf cmp) ls count hlen
      simpa using this
    obtain ⟨h2, p2, e2, P2, L2, f2⟩ := ih y (wN (wP h1 list pend1) list 0) n list (count + 1)
      ([list] :: mergeAt (leOf cmp) count ls) hS hP hlen2 (hperm.symm.nodup hnd)
    refine ⟨h2, p2, ?_, ?_, ?_, ?_⟩
    · rw [sortLoop]
      simp only [hst, Option.bind_eq_bind, Option.bind_some, setPrev_live pend1 hlv, next_wP, hn1,
        setNext_live 0 ((isSome_wP h1 list pend1 list).trans hlv), if_neg hn0]
      exact e2
    · rw [sortF]
      exact P2
    · rw [sortF, L2]
      congr 1
      simp only [List.length_cons]
      omega
    · intro z hz
      have hz0 : z ∉ ([list] :: mergeAt (leOf cmp) count ls).flatten ++ y :: ys :=
        fun hm => hz (hperm.mem_iff.1 hm)
      have hz1 : z ∉ ls.flatten := fun hm => hz (List.mem_append.2 (Or.inl hm))
      have hz2 : z ≠ list := fun e => hz (by simp [e])
      rw [f2 z hz0, wN_ne hz2, wP_ne hz2]
      exact heap_ext (n1 z hz1) (v1 z hz1 (by simp))

/-- Merging all pending lists but the last into the accumulator. -/
def collapseF (le : Nat → Nat → Bool) : List (List Nat) → List Nat → List Nat × List Nat
  | [], acc => ([], acc)
  | [l], acc => (l, acc)
  | l :: m :: r, acc => collapseF le (m :: r) (List.merge l acc le)

theorem collapse_spec (cmp : Nat → Nat → Int) : ∀ (ls : List (List Nat)) (h : Heap)
    (pending list : Nat) (acc : List Nat), ls ≠ [] → acc ≠ [] → PL h pending ls → SL h list acc →
    (ls.flatten ++ acc).Nodup →
    ∃ h' p l, collapse cmp h pending list = some (h', p, l) ∧
      (collapseF (leOf cmp) ls acc).1 ≠ [] ∧ (collapseF (leOf cmp) ls acc).2 ≠ [] ∧
      SL h' p (collapseF (leOf cmp) ls acc).1 ∧ SL h' l (collapseF (leOf cmp) ls acc).2 ∧
      ((collapseF (leOf cmp) ls acc).1 ++ (collapseF (leOf cmp) ls acc).2).Perm
        (ls.flatten ++ acc) ∧
      (∀ z, z ∉ ls.flatten ++ acc → h' z = h z) := by
  intro ls
  induction ls with
  | nil => intro _ _ _ _ h; exact absurd rfl h
  | cons l r ih =>
    intro h pending list acc _ hacc hp hs hnd
    obtain ⟨hl, hsl, q, hq, hr⟩ := hp
    cases r with
    | nil =>
      cases hr
      refine ⟨h, pending, list, ?_, hl, hacc, hsl, hs, by simp [collapseF], fun _ _ => rfl⟩
      rw [collapse]
      simp only [hq, Option.bind_eq_bind, Option.bind_some, if_true]
      rfl
    | cons m r =>
      have hq0 : ¬ q = 0 := hr.2.1.ne_nil_head hr.1
      have hndd : (l ++ acc).Nodup := by
        refine hnd.sublist ?_
        rw [List.flatten_cons, List.append_assoc]
        exact List.Sublist.append_left (List.sublist_append_right _ _) l
      obtain ⟨h1, mm, e1, s1, p1, f1⟩ := merge_spec cmp hl hacc hsl hs hndd
      have hne : List.merge l acc (leOf cmp) ≠ [] := by
        intro hc
        have hlm := List.length_merge (leOf cmp) l acc
        rw [hc] at hlm
        simp only [List.length_nil] at hlm
        exact hl (List.length_eq_zero_iff.1 (by omega))
      have hperm : ((m :: r).flatten ++ List.merge l acc (leOf cmp)).Perm
          ((l :: m :: r).flatten ++ acc) := by
        rw [List.flatten_cons (l := l), List.append_assoc]
        refine ((List.merge_perm_append (leOf cmp)).append_left _).trans ?_
        rw [← List.append_assoc, ← List.append_assoc]
        exact List.perm_append_comm.append_right acc
      have hdis : ∀ z ∈ (m :: r).flatten, z ∉ l ++ acc := by
        intro z hz hc
        have := (List.nodup_append.1 (hperm.symm.nodup hnd)).2.2 z hz z
        exact this ((List.merge_perm_append (leOf cmp)).mem_iff.2 hc) rfl
      have hP : PL h1 q (m :: r) := hr.congr (fun z hz => next_eq (f1 z (hdis z hz)))
        fun z hz => prev_eq (f1 z (hdis z hz))
      obtain ⟨h2, p2, l2, e2, a2, b2, s2, t2, pm2, f2⟩ := ih h1 q mm
        (List.merge l acc (leOf cmp)) (by simp) hne hP s1 (hperm.symm.nodup hnd)
      refine ⟨h2, p2, l2, ?_, a2, b2, s2, t2, pm2.trans hperm, ?_⟩
      · rw [collapse]
        simp only [hq, Option.bind_eq_bind, Option.bind_some, if_neg hq0, e1]
        exact e2
      · intro z hz
        rw [f2 z fun hm => hz (hperm.mem_iff.1 hm), f1 z ?_]
        intro hc
        refine hz ?_
        simp only [List.flatten_cons, List.mem_append] at hc ⊢
        rcases hc with h | h <;> simp [h]

/-- Relinking the rest of the list and closing the ring. -/
def relinkF (h : Heap) (head tail b : Nat) : Option Heap := do
  let s ← relink h tail b
  let h ← setNext s.1 s.2 head
  setPrev h head s.2

theorem relinkF_spec : ∀ (ys : List Nat) (y : Nat) (h : Heap) (head tail b : Nat),
    SL h b (y :: ys) → (head :: y :: ys).Nodup → (h head).isSome = true →
    ∃ h', relinkF h head tail b = some h' ∧ Linked h' (y :: ys ++ [head]) ∧
      prev h' y = some tail ∧
      (∀ z, z ∉ y :: ys → next h' z = next h z) ∧
      (∀ z, z ∉ y :: ys → z ≠ head → prev h' z = prev h z) := by
  intro ys
  induction ys with
  | nil =>
    intro y h head tail b hs hnd hh
    obtain ⟨rfl, hy0, n, hn, hsn⟩ := hs
    cases hsn
    have hb := live_of_next hn
    have hbh : head ≠ b := by simpa using hnd
    have l1 : (wP h b tail b).isSome = true := (isSome_wP h b tail b).trans hb
    have l2 : (wN (wP h b tail) b head head).isSome = true := by
      rw [isSome_wN, isSome_wP]; exact hh
    refine ⟨wP (wN (wP h b tail) b head) head b, ?_, ⟨?_, ?_, trivial⟩, ?_, ?_, ?_⟩
    · unfold relinkF
      rw [relink]
      simp only [setPrev_live tail hb, Option.bind_eq_bind, Option.bind_some, next_wP, hn, if_true,
        Option.pure_def, setNext_live head l1, setPrev_live b l2]
    · rw [next_wP]
      exact next_wN_self head l1
    · exact prev_wP_self b l2
    · rw [prev_wP_ne (Ne.symm hbh), prev_wN]
      exact prev_wP_self tail hb
    · intro z hz
      have : z ≠ b := by simpa using hz
      rw [next_wP, next_wN_ne this, next_wP]
    · intro z hz hzh
      have : z ≠ b := by simpa using hz
      rw [prev_wP_ne hzh, prev_wN, prev_wP_ne this]
  | cons x xs ih =>
    intro y h head tail b hs hnd hh
    obtain ⟨rfl, hy0, n, hn, hsn⟩ := hs
    have hb := live_of_next hn
    have hn0 : ¬ n = 0 := hsn.ne
    have hnd2 := hnd
    simp only [List.nodup_cons, List.mem_cons, not_or] at hnd2
    have hS : SL (wP h b tail) n (x :: xs) := hsn.congr fun z _ => next_wP h b tail z
    obtain ⟨h', e, hl, hp, hn', hv'⟩ := ih x (wP h b tail) head b n hS
      (by
        refine hnd.sublist ?_
        exact (List.sublist_cons_self b (x :: xs)).cons_cons head) (by rw [isSome_wP]; exact hh)
    have hbx : b ∉ x :: xs := by
      simp only [List.mem_cons, not_or]
      exact hnd2.2.1
    refine ⟨h', ?_, ⟨?_, hp, hl⟩, ?_, ?_, ?_⟩
    · rw [← e]
      unfold relinkF
      conv => lhs; rw [relink]
      simp only [setPrev_live tail hb, Option.bind_eq_bind, Option.bind_some, next_wP, hn, if_neg hn0]
    · rw [hn' b hbx, next_wP, hn, hsn.eq]
    · rw [hv' b hbx (Ne.symm hnd2.1.1)]
      exact prev_wP_self tail hb
    · intro z hz
      rw [hn' z (fun hm => hz (List.mem_cons_of_mem _ hm)), next_wP]
    · intro z hz hzh
      rw [hv' z (fun hm => hz (List.mem_cons_of_mem _ hm)) hzh,
        prev_wP_ne fun e => hz (by simp [e])]

/-- The rest of `merge_final`, from any point of its first loop. -/
def finalFrom (cmp : Nat → Nat → Int) (h : Heap) (head tail a b : Nat) : Option Heap := do
  let r ← mergeFinalLoop cmp h tail a b
  let h ← setNext r.1 r.2.1 r.2.2
  relinkF h head r.2.1 r.2.2

theorem mergeFinal_eq (cmp : Nat → Nat → Int) (h : Heap) (head a b : Nat) :
    mergeFinal cmp h head a b = finalFrom cmp h head head a b := by
  unfold mergeFinal finalFrom relinkF
  rfl

theorem finalFrom_spec (cmp : Nat → Nat → Int) : ∀ (n : Nat) (h : Heap) (head tail : Nat)
    (x y : Nat) (xs ys : List Nat) (a b : Nat), xs.length + ys.length = n →
    SL h a (x :: xs) → SL h b (y :: ys) → (head :: ((x :: xs) ++ (y :: ys))).Nodup →
    (h head).isSome = true → tail ∉ (x :: xs) ++ (y :: ys) → (h tail).isSome = true →
    ∃ h', finalFrom cmp h head tail a b = some h' ∧
      Linked h' (tail :: List.merge (x :: xs) (y :: ys) (leOf cmp) ++ [head]) ∧
      (∀ z, z ∉ (x :: xs) ++ (y :: ys) → z ≠ tail → next h' z = next h z) ∧
      (∀ z, z ∉ (x :: xs) ++ (y :: ys) → z ≠ head → prev h' z = prev h z) := by
  intro n
  induction n using Nat.strongRecOn with
  | _ n ih =>
    intro h head tail x y xs ys a b hn ha hb hnd hh htm ht
    obtain ⟨rfl, ha0, n1, hna, ha1⟩ := id ha
    obtain ⟨rfl, hb0, n2, hnb, hb1⟩ := id hb
    have hva := live_of_next hna
    have hvb := live_of_next hnb
    obtain ⟨va, eva⟩ := Option.isSome_iff_exists.1 hva
    obtain ⟨vb, evb⟩ := Option.isSome_iff_exists.1 hvb
    have hcall : call cmp h a b = some (cmp a b) := by simp only [call, eva, evb]
    have hnd2 := (List.nodup_cons.1 hnd).2
    have hhn := (List.nodup_cons.1 hnd).1
    have hnd3 := hnd2
    simp only [List.cons_append, List.nodup_cons, List.nodup_append, List.mem_append,
      List.mem_cons, not_or] at hnd3
    have hta : tail ≠ a := fun e => htm (by simp [e])
    have htb : tail ≠ b := fun e => htm (by simp [e])
    have hha : head ≠ a := fun e => hhn (by simp [e])
    have hhb : head ≠ b := fun e => hhn (by simp [e])
    by_cases hc : cmp a b ≤ 0
    · have l1 : (wN h tail a a).isSome = true := (isSome_wN h tail a a).trans hva
      have hna2 : next (wP (wN h tail a) a tail) a = some n1 := by
        rw [next_wP, next_wN_ne (Ne.symm hta)]; exact hna
      have hb' : SL (wP (wN h tail a) a tail) b (b :: ys) := hb.congr fun z hz => by
        rw [next_wP, next_wN_ne]
        intro e
        exact htm (List.mem_append.2 (Or.inr (e ▸ hz)))
      have hxs' : SL (wP (wN h tail a) a tail) n1 xs := ha1.congr fun z hz => by
        rw [next_wP, next_wN_ne]
        intro e
        exact htm (List.mem_append.2 (Or.inl (by simp [← e, hz])))
      have hlh : (wP (wN h tail a) a tail head).isSome = true := by
        rw [isSome_wP, isSome_wN]; exact hh
      rw [List.cons_merge_cons_pos _ _ _ (by simp [leOf, hc])]
      cases xs with
      | nil =>
        cases hxs'
        have l2 : (wP (wN h tail a) a tail a).isSome = true := live_of_next hna2
        have hab : a ∉ b :: ys := by
          simp only [List.mem_cons, not_or]
          exact hnd3.1.2
        have hS : SL (wN (wP (wN h tail a) a tail) a b) b (b :: ys) := hb'.congr fun z hz =>
          next_wN_ne fun e => hab (e ▸ hz)
        obtain ⟨h', e, hl, hp, hn', hv'⟩ := relinkF_spec ys b _ head a b hS
          (by
            refine List.nodup_cons.2 ⟨fun hm => hhn (List.mem_append.2 (Or.inr hm)), ?_⟩
            exact (List.nodup_append.1 hnd2).2.1) (by rw [isSome_wN]; exact hlh)
        have htl : tail ∉ b :: ys := fun hm => htm (List.mem_append.2 (Or.inr hm))
        refine ⟨h', ?_, ⟨?_, ?_, ?_⟩, ?_, ?_⟩
        · rw [← e]
          unfold finalFrom
          rw [mergeFinalLoop]
          simp only [hcall, Option.bind_eq_bind, Option.bind_some, if_pos hc, setNext_live a ht,
            setPrev_live tail l1, hna2, if_true, Option.pure_def, setNext_live b l2]
        · rw [hn' tail htl, next_wN_ne hta, next_wP]
          exact next_wN_self a ht
        · rw [hv' a hab (Ne.symm hha), prev_wN]
          exact prev_wP_self tail l1
        · rw [List.nil_merge]
          exact ⟨(by rw [hn' a hab]; exact next_wN_self b l2), hp, hl⟩
        · intro z hz hzt
          have hza : z ≠ a := fun e => hz (by simp [e])
          rw [hn' z (fun hm => hz (List.mem_append.2 (Or.inr hm))), next_wN_ne hza, next_wP,
            next_wN_ne hzt]
        · intro z hz hzh
          have hza : z ≠ a := fun e => hz (by simp [e])
          rw [hv' z (fun hm => hz (List.mem_append.2 (Or.inr hm))) hzh, prev_wN, prev_wP_ne hza,
            prev_wN]
      | cons x xs =>
        have hn0 : ¬ n1 = 0 := hxs'.ne
        have hax : a ∉ (x :: xs) ++ (b :: ys) := by
          simp only [List.cons_append, List.nodup_cons] at hnd2 ⊢
          exact hnd2.1
        obtain ⟨h', e, hl, hn', hv'⟩ := ih (xs.length + ys.length)
          (by simp only [List.length_cons] at hn; omega) _ head a x b xs ys n1 b rfl hxs' hb'
          (hnd.sublist (((List.sublist_cons_self a ((x :: xs) ++ (b :: ys)))).cons_cons head))
          hlh hax (live_of_next hna2)
        have htl : tail ∉ (x :: xs) ++ (b :: ys) := fun hm => htm (List.mem_cons_of_mem _ hm)
        refine ⟨h', ?_, ⟨?_, ?_, hl⟩, ?_, ?_⟩
        · rw [← e]
          unfold finalFrom
          conv => lhs; rw [mergeFinalLoop]
          simp only [hcall, Option.bind_eq_bind, Option.bind_some, if_pos hc, setNext_live a ht,
            setPrev_live tail l1, hna2, if_neg hn0]
        · rw [hn' tail htl hta, next_wP]
          exact next_wN_self a ht
        · rw [hv' a hax (Ne.symm hha)]
          exact prev_wP_self tail l1
        · intro z hz hzt
          have hza : z ≠ a := fun e => hz (by simp [e])
          rw [hn' z (fun hm => hz (List.mem_cons_of_mem _ hm)) hza, next_wP, next_wN_ne hzt]
        · intro z hz hzh
          have hza : z ≠ a := fun e => hz (by simp [e])
          rw [hv' z (fun hm => hz (List.mem_cons_of_mem _ hm)) hzh, prev_wP_ne hza, prev_wN]
    · have l1 : (wN h tail b b).isSome = true := (isSome_wN h tail b b).trans hvb
      have hnb2 : next (wP (wN h tail b) b tail) b = some n2 := by
        rw [next_wP, next_wN_ne (Ne.symm htb)]; exact hnb
      have ha' : SL (wP (wN h tail b) b tail) a (a :: xs) := ha.congr fun z hz => by
        rw [next_wP, next_wN_ne]
        intro e
        exact htm (List.mem_append.2 (Or.inl (e ▸ hz)))
      have hys' : SL (wP (wN h tail b) b tail) n2 ys := hb1.congr fun z hz => by
        rw [next_wP, next_wN_ne]
        intro e
        exact htm (List.mem_append.2 (Or.inr (by simp [← e, hz])))
      have hlh : (wP (wN h tail b) b tail head).isSome = true := by
        rw [isSome_wP, isSome_wN]; exact hh
      rw [List.cons_merge_cons_neg _ _ _ (by simp only [leOf, decide_eq_true_eq]; exact hc)]
      have hbn : b ∉ (a :: xs) ++ ys := by
        simp only [List.cons_append, List.mem_cons, List.mem_append, not_or]
        exact ⟨fun e => hnd3.1.2.1 e.symm, fun hm => hnd3.2.2.2 b hm b (Or.inl rfl) rfl,
          hnd3.2.2.1.1⟩
      cases ys with
      | nil =>
        cases hys'
        have l2 : (wP (wN h tail b) b tail b).isSome = true := live_of_next hnb2
        have hba : b ∉ a :: xs := by simpa using hbn
        have hS : SL (wN (wP (wN h tail b) b tail) b a) a (a :: xs) := ha'.congr fun z hz =>
          next_wN_ne fun e => hba (e ▸ hz)
        obtain ⟨h', e, hl, hp, hn', hv'⟩ := relinkF_spec xs a _ head b a hS
          (by
            refine List.nodup_cons.2 ⟨fun hm => hhn (List.mem_append.2 (Or.inl hm)), ?_⟩
            exact (List.nodup_append.1 hnd2).1) (by rw [isSome_wN]; exact hlh)
        have htl : tail ∉ a :: xs := fun hm => htm (List.mem_append.2 (Or.inl hm))
        refine ⟨h', ?_, ⟨?_, ?_, ?_⟩, ?_, ?_⟩
        · rw [← e]
          unfold finalFrom
          rw [mergeFinalLoop]
          simp only [hcall, Option.bind_eq_bind, Option.bind_some, if_neg hc, setNext_live b ht,
            setPrev_live tail l1, hnb2, if_true, Option.pure_def, setNext_live a l2]
        · rw [hn' tail htl, next_wN_ne htb, next_wP]
          exact next_wN_self b ht
        · rw [hv' b hba (Ne.symm hhb), prev_wN]
          exact prev_wP_self tail l1
        · rw [List.merge_right]
          exact ⟨(by rw [hn' b hba]; exact next_wN_self a l2), hp, hl⟩
        · intro z hz hzt
          have hzb : z ≠ b := fun e => hz (by simp [e])
          rw [hn' z (fun hm => hz (List.mem_append.2 (Or.inl hm))), next_wN_ne hzb, next_wP,
            next_wN_ne hzt]
        · intro z hz hzh
          have hzb : z ≠ b := fun e => hz (by simp [e])
          rw [hv' z (fun hm => hz (List.mem_append.2 (Or.inl hm))) hzh, prev_wN, prev_wP_ne hzb,
            prev_wN]
      | cons y ys =>
        have hn0 : ¬ n2 = 0 := hys'.ne
        have hsubl : ((a :: xs) ++ (y :: ys)).Sublist ((a :: xs) ++ (b :: y :: ys)) :=
          List.Sublist.append_left (List.sublist_cons_self b (y :: ys)) (a :: xs)
        have hsub : ∀ z, z ∈ (a :: xs) ++ (y :: ys) → z ∈ (a :: xs) ++ (b :: y :: ys) :=
          fun z hz => hsubl.subset hz
        obtain ⟨h', e, hl, hn', hv'⟩ := ih (xs.length + ys.length)
          (by simp only [List.length_cons] at hn; omega) _ head b a y xs ys a n2 rfl ha' hys'
          (hnd.sublist (hsubl.cons_cons head)) hlh hbn (live_of_next hnb2)
        have htl : tail ∉ (a :: xs) ++ (y :: ys) := fun hm => htm (hsub _ hm)
        refine ⟨h', ?_, ⟨?_, ?_, hl⟩, ?_, ?_⟩
        · rw [← e]
          unfold finalFrom
          conv => lhs; rw [mergeFinalLoop]
          simp only [hcall, Option.bind_eq_bind, Option.bind_some, if_neg hc, setNext_live b ht,
            setPrev_live tail l1, hnb2, if_neg hn0]
        · rw [hn' tail htl htb, next_wP]
          exact next_wN_self b ht
        · rw [hv' b hbn (Ne.symm hhb)]
          exact prev_wP_self tail l1
        · intro z hz hzt
          have hzb : z ≠ b := fun e => hz (by simp [e])
          rw [hn' z (fun hm => hz (hsub z hm)) hzb, next_wP, next_wN_ne hzt]
        · intro z hz hzh
          have hzb : z ≠ b := fun e => hz (by simp [e])
          rw [hv' z (fun hm => hz (hsub z hm)) hzh, prev_wP_ne hzb, prev_wN]

end Ulp.CList
