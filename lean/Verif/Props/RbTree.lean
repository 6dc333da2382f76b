/-
C24, C25, C26, C27: red-black trees (src/utils/rbtree.h, src/utils/rbtree.c).
-/
import Verif.Proof.RbIter
import Verif.Proof.RbReplace
import Verif.Spec.Dict
namespace Ulp.Rb
open Tree Dict

/-! ## A user of the tree -/

/-- The nodes in memory, the root, and the key stored beside each node. -/
structure World (κ : Type) where
  s : St
  key : Nat → κ

/-- Each operation through the functions of rbtree.h.  `w0` is what `malloc`
leaves in a node.  Who puts a node in the place of another gives it the key of
that. -/
def step {κ : Type} (cmp : κ → κ → Int) (w0 : RbNode) (w : World κ) : Op κ → Option (World κ × Nat)
  | .alloc n => some ({ w with s := upd w.s n w0 }, 0)
  | .free n => some ({ w with s := { w.s with m := fun x => if x = n then none else w.s.m x } }, 0)
  | .insert n k =>
    let key := fun x => if x = n then k else w.key x
    (rbInsertNode w.s n fun m => cmp (key m) k).bind fun r => some (⟨r.1, key⟩, r.2)
  | .remove n => (rbErase w.s n).bind fun s => some ({ w with s := s }, 0)
  | .replace n m => (rbReplaceNode w.s n m).bind fun s => some (⟨s, fun x => if x = m then w.key n else w.key x⟩, 0)
  | .find k => (rbSearchNode w.s fun m => cmp (w.key m) k).bind fun r => some (w, r)

def run {κ : Type} (cmp : κ → κ → Int) (w0 : RbNode) : World κ → List (Op κ) → Option (World κ × List Nat)
  | w, [] => some (w, [])
  | w, o :: os => (step cmp w0 w o).bind fun r => (run cmp w0 r.1 os).bind fun q => some (q.1, r.2 :: q.2)

/-- `struct rb_root root = RB_ROOT`, with nothing allocated. -/
def start {κ : Type} (key : Nat → κ) : World κ := ⟨⟨fun _ => none, 0⟩, key⟩

/-- What holds between the operations. -/
structure Inv {κ : Type} (cmp : κ → κ → Int) (w : World κ) (a : Abs κ) (t : Tree) : Prop where
  tree : IsTree w.s t
  rb : RB t
  sorted : (ids t).Pairwise fun x y => cmp (w.key x) (w.key y) > 0
  dict : ∀ k n, n ≠ 0 → (a.dict k = n ↔ n ∈ ids t ∧ w.key n = k)
  live : ∀ n, n ≠ 0 → (a.live n = true ↔ w.s.m n ≠ none)
  zero : a.live 0 = false

theorem Ordered.mono {κ : Type} {cmp : κ → κ → Int} (hc : Ordered cmp) {key : Nat → κ} {l : List Nat}
    (h : l.Pairwise fun x y => cmp (key x) (key y) > 0) (k : κ) : Mono (fun m => cmp (key m) k) l := by
  refine h.imp ?_
  intro x y hxy
  have hyx := (hc.swap _ _).2 hxy
  refine ⟨fun h => hc.trans _ _ _ hyx h, fun h => ?_⟩
  have h1 := (hc.swap _ _).2 h
  exact (hc.swap _ _).1 (hc.trans _ _ _ h1 hyx)

theorem Rep.alive {m : Nat → Option RbNode} : ∀ {t : Tree} {par : Nat}, Rep m par t → ∀ n ∈ ids t, m n ≠ none
  | leaf, _, _, _, hn => by simp [ids] at hn
  | node c l i r, _, h, n, hn => by
    simp only [ids, List.mem_append, List.mem_cons] at hn
    rcases hn with hn | rfl | hn
    · exact Rep.alive h.2.2.1 n hn
    · rw [h.2.1]; simp
    · exact Rep.alive h.2.2.2 n hn

theorem Inv.mem {κ : Type} {cmp : κ → κ → Int} {w : World κ} {a : Abs κ} {t : Tree} (h : Inv cmp w a t) {n : Nat}
    (hn : n ∈ ids t) : a.dict (w.key n) = n := (h.dict _ n (h.tree.rep.ne_zero n hn)).2 ⟨hn, rfl⟩

theorem Inv.find {κ : Type} {cmp : κ → κ → Int} (hc : Ordered cmp) {w : World κ} {a : Abs κ} {t : Tree}
    (h : Inv cmp w a t) (k : κ) : rbSearchNode w.s (fun m => cmp (w.key m) k) = some (a.dict k) := by
  rw [rbSearchNode, h.tree.root]
  obtain ⟨r, e, hr⟩ := searchLoop_ok h.tree.rep (Ordered.mono hc h.sorted k)
  rw [e]
  rcases hr with ⟨rfl, hr⟩ | ⟨hr, h0⟩
  · by_cases hd : a.dict k = 0
    · rw [hd]
    · obtain ⟨h1, h2⟩ := (h.dict k _ hd).1 rfl
      exact absurd ((hc.eq _ _).2 h2) (hr _ h1)
  · have := (hc.eq _ _).1 h0
    rw [← this, h.mem hr]

/-- Inserting: the case of a key that is there, and of one that is not. -/
theorem Inv.insert {κ : Type} [DecidableEq κ] {cmp : κ → κ → Int} (hc : Ordered cmp) {w : World κ} {a : Abs κ}
    {t : Tree} (h : Inv cmp w a t) {n : Nat} {k : κ} (hl : a.live n = true) (hn : ∀ k, a.dict k ≠ n) :
    ∃ s' t', rbInsertNode w.s n (fun m => cmp (if m = n then k else w.key m) k) = some (s', a.dict k) ∧
      Inv cmp ⟨s', fun x => if x = n then k else w.key x⟩ (specStep a (.insert n k)).1 t' ∧
      (a.dict k ≠ 0 → s' = w.s) := by
  have hn0 : n ≠ 0 := by
    intro e
    rw [e, h.zero] at hl
    cases hl
  have hnt : n ∉ ids t := fun hm => hn _ (h.mem hm)
  have hkey : ∀ x ∈ ids t, (if x = n then k else w.key x) = w.key x := by
    intro x hx
    rw [if_neg]
    exact fun e => hnt (by rw [← e]; exact hx)
  have hs : (ids t).Pairwise fun x y =>
      cmp (if x = n then k else w.key x) (if y = n then k else w.key y) > 0 := by
    refine h.sorted.imp_of_mem ?_
    intro x y hx hy hxy
    rw [hkey x hx, hkey y hy]
    exact hxy
  rcases rbInsertNode_ok h.tree h.rb (Ordered.mono hc (key := fun x => if x = n then k else w.key x) hs k) hn0 hnt
    ((h.live n hn0).1 hl) with ⟨x, hx, h0, e⟩ | ⟨hne, s', t', p, q, e, ht', hrb', e1, e2, hp, hq, ho⟩
  · have hk : w.key x = k := by
      rw [hkey x hx] at h0
      exact (hc.eq _ _).1 h0
    have hdk : a.dict k = x := by rw [← hk]; exact h.mem hx
    have hx0 := h.tree.rep.ne_zero x hx
    refine ⟨w.s, t, by rw [e, hdk], ?_, fun _ => rfl⟩
    rw [specStep, if_neg (by rw [hdk]; exact hx0)]
    refine ⟨h.tree, h.rb, hs, ?_, h.live, h.zero⟩
    intro k' m hm
    rw [h.dict k' m hm]
    constructor
    · rintro ⟨h1, h2⟩
      exact ⟨h1, by rw [← h2]; exact hkey m h1⟩
    · rintro ⟨h1, h2⟩
      exact ⟨h1, by rw [← h2]; exact (hkey m h1).symm⟩
  · have hdk : a.dict k = 0 := by
      apply Decidable.byContradiction
      intro hd
      obtain ⟨h1, h2⟩ := (h.dict k _ hd).1 rfl
      have := hne _ h1
      rw [hkey _ h1] at this
      exact this ((hc.eq _ _).2 h2)
    refine ⟨s', t', by rw [e, hdk], ?_, fun hd => absurd hdk hd⟩
    rw [specStep, if_pos hdk]
    have hmem : ∀ m, m ∈ ids t' ↔ m = n ∨ m ∈ ids t := by
      intro m
      rw [e1, e2]
      simp only [List.mem_append, List.mem_cons]
      constructor
      · rintro (h | h | h) <;> simp [h]
      · rintro (h | h | h) <;> simp [h]
    refine ⟨ht', hrb', ?_, ?_, ?_, h.zero⟩
    · rw [e1] at hs
      rw [e2]
      obtain ⟨s1, s2, s3⟩ := List.pairwise_append.1 hs
      refine List.pairwise_append.2 ⟨s1, List.pairwise_cons.2 ⟨?_, s2⟩, ?_⟩
      · intro y hy
        have := hq y hy
        simp only [if_pos]
        exact (hc.swap _ _).1 this
      · intro x hx y hy
        rcases List.mem_cons.1 hy with rfl | hy
        · simp only [if_pos]
          exact hp x hx
        · exact s3 x hx y hy
    · intro k' m hm
      rw [hmem]
      simp only
      by_cases hk' : k' = k
      · subst hk'
        simp only [if_true]
        constructor
        · rintro rfl
          simp
        · rintro ⟨h1, h2⟩
          by_cases hmn : m = n
          · exact hmn.symm
          · rw [if_neg hmn] at h2
            have := (h.dict k' m hm).2 ⟨h1.resolve_left hmn, h2⟩
            rw [hdk] at this
            exact absurd this.symm hm
      · rw [if_neg hk', h.dict k' m hm]
        by_cases hmn : m = n
        · subst hmn
          simp [hnt, Ne.symm hk']
        · simp [hmn]
    · intro m hm
      rw [h.live m hm]
      by_cases hmt : m ∈ ids t'
      · have h1 := Rep.alive ht'.rep m hmt
        have h2 : w.s.m m ≠ none := by
          rcases (hmem m).1 hmt with rfl | h2
          · exact (h.live m hm).1 hl
          · exact Rep.alive h.tree.rep m h2
        exact ⟨fun _ => h1, fun _ => h2⟩
      · simp only [ho m hm hmt]

theorem Inv.remove {κ : Type} [DecidableEq κ] {cmp : κ → κ → Int} {w : World κ} {a : Abs κ} {t : Tree}
    (h : Inv cmp w a t) {n : Nat} (hn0 : n ≠ 0) {k : κ} (hn : a.dict k = n) :
    ∃ s' t', rbErase w.s n = some s' ∧ Inv cmp ⟨s', w.key⟩ (specStep a (.remove n)).1 t' := by
  have hnt := ((h.dict k n hn0).1 hn).1
  obtain ⟨s', t', p, q, e, ht', hrb', e1, e2, hsn, ho⟩ := rbErase_tree h.tree h.rb hnt
  have hnd := h.tree.nodup
  have hmem : ∀ m, m ∈ ids t' ↔ m ≠ n ∧ m ∈ ids t := by
    intro m
    rw [e1, List.nodup_append, List.nodup_cons] at hnd
    rw [e1, e2]
    simp only [List.mem_append, List.mem_cons]
    constructor
    · rintro (hm | hm)
      · exact ⟨fun e => hnd.2.2 m hm n (by simp) e, Or.inl hm⟩
      · exact ⟨fun e => hnd.2.1.1 (by rw [← e]; exact hm), Or.inr (Or.inr hm)⟩
    · rintro ⟨h1, hm | hm | hm⟩
      · exact Or.inl hm
      · exact absurd hm h1
      · exact Or.inr hm
  refine ⟨s', t', e, ht', hrb', ?_, ?_, ?_, h.zero⟩
  · have := h.sorted
    rw [e1] at this
    rw [e2]
    exact this.sublist (List.sublist_append_left p [n] |>.append (List.Sublist.refl q) |> (by simpa using ·))
  · intro k' m hm
    rw [hmem]
    simp only [specStep]
    by_cases hk : a.dict k' = n
    · rw [if_pos hk]
      constructor
      · intro h1
        exact absurd h1.symm hm
      · rintro ⟨⟨h1, h2⟩, h3⟩
        have := (h.dict k' m hm).2 ⟨h2, h3⟩
        exact absurd (this.symm.trans hk) h1
    · rw [if_neg hk, h.dict k' m hm]
      constructor
      · rintro ⟨h1, h2⟩
        refine ⟨⟨fun e => hk ?_, h1⟩, h2⟩
        rw [← e]
        exact (h.dict k' m hm).2 ⟨h1, h2⟩
      · rintro ⟨⟨h1, h2⟩, h3⟩
        exact ⟨h2, h3⟩
  · intro m hm
    show a.live m = true ↔ _
    rw [h.live m hm]
    by_cases hmt : m ∈ ids t
    · by_cases hmn : m = n
      · rw [hmn, hsn]
      · have h1 := Rep.alive ht'.rep m ((hmem m).2 ⟨hmn, hmt⟩)
        have h2 := Rep.alive h.tree.rep m hmt
        exact ⟨fun _ => h1, fun _ => h2⟩
    · simp only [ho m hm hmt]

theorem Inv.replace {κ : Type} [DecidableEq κ] {cmp : κ → κ → Int} {w : World κ} {a : Abs κ} {t : Tree}
    (h : Inv cmp w a t) {n m : Nat} (hn0 : n ≠ 0) {k : κ} (hn : a.dict k = n) (hl : a.live m = true)
    (hm : ∀ k, a.dict k ≠ m) :
    ∃ s' t', rbReplaceNode w.s n m = some s' ∧
      Inv cmp ⟨s', fun x => if x = m then w.key n else w.key x⟩ (specStep a (.replace n m)).1 t' := by
  have hnt := ((h.dict k n hn0).1 hn).1
  have hm0 : m ≠ 0 := by
    intro e
    rw [e, h.zero] at hl
    cases hl
  have hmt : m ∉ ids t := fun hx => hm _ (h.mem hx)
  have hmn : m ≠ n := fun e => hmt (by rw [e]; exact hnt)
  obtain ⟨s', t', p, q, e, ht', hrb', e1, e2, hsn, ho⟩ :=
    rbReplaceNode_tree h.tree h.rb hnt hm0 hmt ((h.live m hm0).1 hl)
  have hnd := h.tree.nodup
  rw [e1, List.nodup_append, List.nodup_cons] at hnd
  have hp : ∀ x ∈ p, x ≠ n := fun x hx e => hnd.2.2 x hx n (by simp) e
  have hq : ∀ x ∈ q, x ≠ n := fun x hx e => hnd.2.1.1 (by rw [← e]; exact hx)
  have hpm : ∀ x ∈ p, x ≠ m := fun x hx e => hmt (by rw [e1, ← e]; simp [hx])
  have hqm : ∀ x ∈ q, x ≠ m := fun x hx e => hmt (by rw [e1, ← e]; simp [hx])
  refine ⟨s', t', e, ht', hrb', ?_, ?_, ?_, h.zero⟩
  · have hs := h.sorted
    rw [e1] at hs
    rw [e2]
    obtain ⟨s1, s2, s3⟩ := List.pairwise_append.1 hs
    obtain ⟨s4, s5⟩ := List.pairwise_cons.1 s2
    refine List.pairwise_append.2 ⟨?_, List.pairwise_cons.2 ⟨?_, ?_⟩, ?_⟩
    · refine s1.imp_of_mem ?_
      intro x y hx hy hxy
      simp only [if_neg (hpm x hx), if_neg (hpm y hy)]
      exact hxy
    · intro y hy
      simp only [if_true, if_neg (hqm y hy)]
      exact s4 y hy
    · refine s5.imp_of_mem ?_
      intro x y hx hy hxy
      simp only [if_neg (hqm x hx), if_neg (hqm y hy)]
      exact hxy
    · intro x hx y hy
      rcases List.mem_cons.1 hy with rfl | hy
      · simp only [if_true, if_neg (hpm x hx)]
        exact s3 x hx n (by simp)
      · simp only [if_neg (hpm x hx), if_neg (hqm y hy)]
        exact s3 x hx y (by simp [hy])
  · intro k' x hx
    simp only [specStep]
    by_cases hk : a.dict k' = n
    · rw [if_pos hk]
      have hkn : w.key n = k' := ((h.dict k' n hn0).1 hk).2
      constructor
      · rintro rfl
        exact ⟨by rw [e2]; simp, by simp [hkn]⟩
      · rintro ⟨h1, h2⟩
        by_cases hxm : x = m
        · exact hxm.symm
        · simp only [if_neg hxm] at h2
          rw [e2] at h1
          have hxt : x ∈ ids t := by
            rw [e1]
            simp only [List.mem_append, List.mem_cons] at h1 ⊢
            rcases h1 with h1 | h1 | h1
            · exact .inl h1
            · exact absurd h1 hxm
            · exact .inr (.inr h1)
          have hxn : x = n := ((h.dict k' x hx).2 ⟨hxt, h2⟩).symm.trans hk
          simp only [List.mem_append, List.mem_cons] at h1
          rcases h1 with h1 | h1 | h1
          · exact absurd hxn (hp x h1)
          · exact absurd h1 hxm
          · exact absurd hxn (hq x h1)
    · rw [if_neg hk]
      constructor
      · intro hd
        obtain ⟨h1, h2⟩ := (h.dict k' x hx).1 hd
        have hxn : x ≠ n := fun e => hk (hd.trans e)
        have hxm : x ≠ m := fun e => hmt (by rw [← e]; exact h1)
        refine ⟨?_, by simp only [if_neg hxm]; exact h2⟩
        rw [e1] at h1
        rw [e2]
        simp only [List.mem_append, List.mem_cons] at h1 ⊢
        rcases h1 with h1 | h1 | h1
        · exact .inl h1
        · exact absurd h1 hxn
        · exact .inr (.inr h1)
      · rintro ⟨h1, h2⟩
        by_cases hxm : x = m
        · rw [if_pos hxm] at h2
          exact absurd ((h.dict k' n hn0).2 ⟨hnt, h2⟩) hk
        · rw [if_neg hxm] at h2
          refine (h.dict k' x hx).2 ⟨?_, h2⟩
          rw [e2] at h1
          rw [e1]
          simp only [List.mem_append, List.mem_cons] at h1 ⊢
          rcases h1 with h1 | h1 | h1
          · exact .inl h1
          · exact absurd h1 hxm
          · exact .inr (.inr h1)
  · intro x hx
    show a.live x = true ↔ _
    rw [h.live x hx]
    by_cases hxn : x = n
    · rw [hxn, hsn]
    · by_cases hxt' : x ∈ ids t'
      · have h1 := Rep.alive ht'.rep x hxt'
        refine ⟨fun _ => h1, fun _ => ?_⟩
        by_cases hxm : x = m
        · rw [hxm]
          exact (h.live m hm0).1 hl
        · refine Rep.alive h.tree.rep x ?_
          rw [e2] at hxt'
          rw [e1]
          simp only [List.mem_append, List.mem_cons] at hxt' ⊢
          rcases hxt' with h1 | h1 | h1
          · exact .inl h1
          · exact absurd h1 hxm
          · exact .inr (.inr h1)
      · have hxt : x ∉ ids t := by
          intro hc
          apply hxt'
          rw [e1] at hc
          rw [e2]
          simp only [List.mem_append, List.mem_cons] at hc ⊢
          rcases hc with h1 | h1 | h1
          · exact .inl h1
          · exact absurd h1 hxn
          · exact .inr (.inr h1)
        have hxm : x ≠ m := fun e => hxt' (by rw [e2, e]; simp)
        simp only [ho x hx hxt hxm]

theorem Inv.step {κ : Type} [DecidableEq κ] {cmp : κ → κ → Int} (hc : Ordered cmp) (w0 : RbNode) {w : World κ}
    {a : Abs κ} {t : Tree} (h : Inv cmp w a t) (o : Op κ) (ho : OK a o) :
    ∃ w' t', step cmp w0 w o = some (w', (specStep a o).2) ∧ Inv cmp w' (specStep a o).1 t' := by
  cases o with
  | alloc n =>
    obtain ⟨hn0, hl⟩ := ho
    have hnt : n ∉ ids t := by
      intro hm
      have := (h.live n hn0).2 (Rep.alive h.tree.rep n hm)
      rw [hl] at this
      cases this
    refine ⟨_, t, rfl, ⟨h.tree.root, h.tree.rep.frame ?_, h.tree.nodup⟩, h.rb, h.sorted, h.dict, ?_, ?_⟩
    · intro x hx
      have : x ≠ n := fun e => hnt (by rw [← e]; exact hx)
      simp [upd, this]
    · intro m hm
      by_cases hmn : m = n
      · simp [specStep, upd, hmn]
      · simp only [specStep, upd, hmn, if_false]
        exact h.live m hm
    · simp only [specStep, if_neg (Ne.symm hn0)]
      exact h.zero
  | free n =>
    obtain ⟨hl, hn⟩ := ho
    have hnt : n ∉ ids t := fun hm => hn _ (h.mem hm)
    refine ⟨_, t, rfl, ⟨h.tree.root, h.tree.rep.frame ?_, h.tree.nodup⟩, h.rb, h.sorted, h.dict, ?_, ?_⟩
    · intro x hx
      have : x ≠ n := fun e => hnt (by rw [← e]; exact hx)
      simp [this]
    · intro m hm
      by_cases hmn : m = n
      · simp [specStep, hmn]
      · simp only [specStep, hmn, if_false]
        exact h.live m hm
    · simp only [specStep]
      split
      · rfl
      · exact h.zero
  | insert n k =>
    obtain ⟨s', t', e, hi, _⟩ := h.insert hc (k := k) ho.1 ho.2
    refine ⟨_, t', ?_, hi⟩
    simp only [Rb.step, e, Option.bind_some, specStep]
    by_cases hd : a.dict k = 0
    · rw [if_pos hd, hd]
    · rw [if_neg hd]
  | remove n =>
    obtain ⟨hn0, k, hk⟩ := ho
    obtain ⟨s', t', e, hi⟩ := h.remove hn0 hk
    exact ⟨_, t', by simp only [Rb.step, e, Option.bind_some]; rfl, hi⟩
  | replace n m =>
    obtain ⟨⟨hn0, k, hk⟩, hl, hm⟩ := ho
    obtain ⟨s', t', e, hi⟩ := h.replace hn0 hk hl hm
    exact ⟨_, t', by simp only [Rb.step, e, Option.bind_some]; rfl, hi⟩
  | find k =>
    exact ⟨w, t, by simp only [Rb.step, h.find hc, Option.bind_some]; rfl, h⟩

theorem Inv.run {κ : Type} [DecidableEq κ] {cmp : κ → κ → Int} (hc : Ordered cmp) (w0 : RbNode) :
    ∀ (os : List (Op κ)) {w : World κ} {a : Abs κ} {t : Tree}, Inv cmp w a t → AllOK a os →
    ∃ w' t', run cmp w0 w os = some (w', (specRun a os).2) ∧ Inv cmp w' (specRun a os).1 t'
  | [], w, a, t, h, _ => ⟨w, t, rfl, h⟩
  | o :: os, w, a, t, h, ho => by
    obtain ⟨w1, t1, e1, h1⟩ := h.step hc w0 o ho.1
    obtain ⟨w2, t2, e2, h2⟩ := Inv.run hc w0 os h1 ho.2
    exact ⟨w2, t2, by simp [Rb.run, e1, e2, specRun], h2⟩

theorem Inv.start {κ : Type} (cmp : κ → κ → Int) (key : Nat → κ) : Inv cmp (start key) (Abs.empty κ) leaf := by
  refine ⟨⟨rfl, trivial, by simp [ids]⟩, ⟨rfl, trivial, 0, rfl⟩, by simp [ids], ?_, ?_, rfl⟩
  · intro k n hn
    simp [Abs.empty, ids, Ne.symm hn]
  · intro n _
    simp [Abs.empty, Rb.start]

/-! ## C24 -/

/-- **C24.** After any sequence of insertions and removals (with nodes allocated
and freed in between) the code is never at a bad pointer and ends; every
insertion and lookup returned what a dictionary returns; and looking up any key
returns exactly the node it leads to, NULL if there is none. -/
theorem C24_dictionary {κ : Type} [DecidableEq κ] {cmp : κ → κ → Int} (hc : Ordered cmp) (w0 : RbNode)
    (key : Nat → κ) (os : List (Op κ)) (ho : AllOK (Abs.empty κ) os) :
    ∃ w, run cmp w0 (start key) os = some (w, (specRun (Abs.empty κ) os).2) ∧
      ∀ k, rbSearchNode w.s (fun n => cmp (w.key n) k) = some ((specRun (Abs.empty κ) os).1.dict k) := by
  obtain ⟨w, t, e, h⟩ := Inv.run hc w0 os (Inv.start cmp key) ho
  exact ⟨w, e, h.find hc⟩

/-- **C24.** Inserting a node whose key is already there returns the node that has
it and changes nothing at all: no node, and not the root. -/
theorem C24_insert_existing {κ : Type} [DecidableEq κ] {cmp : κ → κ → Int} (hc : Ordered cmp) (w0 : RbNode)
    (key : Nat → κ) (os : List (Op κ)) (ho : AllOK (Abs.empty κ) os) {w : World κ} {rs : List Nat}
    (hw : run cmp w0 (start key) os = some (w, rs)) {n : Nat} {k : κ}
    (hn : OK (specRun (Abs.empty κ) os).1 (.insert n k)) (hk : (specRun (Abs.empty κ) os).1.dict k ≠ 0) :
    rbInsertNode w.s n (fun m => cmp (if m = n then k else w.key m) k) =
      some (w.s, (specRun (Abs.empty κ) os).1.dict k) := by
  obtain ⟨w', t, e, h⟩ := Inv.run hc w0 os (Inv.start cmp key) ho
  rw [hw] at e
  cases e
  obtain ⟨s', t', e, _, hs⟩ := h.insert hc (k := k) hn.1 hn.2
  rw [e, hs hk]

/-! ## C25 -/

theorem size_ge {t : Tree} : ∀ {n : Nat}, BH t n → 2 ^ n ≤ (ids t).length + 1 := by
  induction t with
  | leaf => intro n h; rw [show n = 0 from h]; simp [ids]
  | node c l i r ihl ihr =>
    intro n h
    cases c with
    | true =>
      obtain ⟨m, rfl, h1, h2⟩ := h
      have := ihl h1
      have := ihr h2
      simp only [ids, List.length_append, List.length_cons]
      omega
    | false =>
      have := ihl h.1
      simp only [ids, List.length_append, List.length_cons]
      omega

theorem height_le {t : Tree} : ∀ {n : Nat}, BH t n → NRR t → height t ≤ 2 * n + if t.isRed then 1 else 0 := by
  induction t with
  | leaf => intro n _ _; simp [height]
  | node c l i r ihl ihr =>
    intro n h hn
    obtain ⟨n1, n2, n3⟩ := hn
    cases c with
    | true =>
      obtain ⟨m, rfl, h1, h2⟩ := h
      have a := ihl h1 n1
      have b := ihr h2 n2
      have a' : height l ≤ 2 * m + 1 := by revert a; split <;> omega
      have b' : height r ≤ 2 * m + 1 := by revert b; split <;> omega
      simp only [height, isRed]
      omega
    | false =>
      have a := ihl h.1 n1
      have b := ihr h.2 n2
      rw [(n3 rfl).1] at a
      rw [(n3 rfl).2] at b
      simp only [height, isRed, Bool.not_false, if_true]
      simp only [Bool.false_eq_true, if_false] at a b
      omega

/-- **C25.** After any sequence of operations the memory holds one tree, reached
from the root pointer, in which every parent pointer points to the node whose
child pointer leads there; the red-black rules hold; the nodes in it are those of
the dictionary; and its height is at most `2 log2 (n + 1)`. -/
theorem C25_balanced {κ : Type} [DecidableEq κ] {cmp : κ → κ → Int} (hc : Ordered cmp) (w0 : RbNode)
    (key : Nat → κ) (os : List (Op κ)) (ho : AllOK (Abs.empty κ) os) :
    ∃ w t, run cmp w0 (start key) os = some (w, (specRun (Abs.empty κ) os).2) ∧ IsTree w.s t ∧ RB t ∧
      (∀ n, n ∈ ids t ↔ n ≠ 0 ∧ ∃ k, (specRun (Abs.empty κ) os).1.dict k = n) ∧
      height t ≤ 2 * Nat.log2 ((ids t).length + 1) := by
  obtain ⟨w, t, e, h⟩ := Inv.run hc w0 os (Inv.start cmp key) ho
  refine ⟨w, t, e, h.tree, h.rb, ?_, ?_⟩
  · intro n
    constructor
    · intro hn
      exact ⟨h.tree.rep.ne_zero n hn, _, h.mem hn⟩
    · rintro ⟨hn0, k, hk⟩
      exact ((h.dict k n hn0).1 hk).1
  · obtain ⟨h1, h2, n, h3⟩ := h.rb
    have a := size_ge h3
    have b := height_le h3 h2
    rw [h1] at b
    have c := (Nat.le_log2 (by omega)).2 a
    simp only [Bool.false_eq_true, if_false] at b
    omega

/-- `p | color` -/
def packWord (p : BitVec 64) (black : Bool) : BitVec 64 := p ||| (if black then 1 else 0)

/-- `rb_parent`, `__rb_parent` (src/utils/rbtree.h:50, 126) -/
def wordParent (pc : BitVec 64) : BitVec 64 := pc &&& ~~~3

/-- `rb_color` (src/utils/rbtree.h:128, 131) -/
def wordColor (pc : BitVec 64) : BitVec 64 := pc &&& 1

/-- **C25.** `__rb_parent_color` is the pair of parent and colour of the model:
for nodes at multiples of 4 every read gives back what was written, and every
update of one part keeps the other. -/
theorem C25_packed_word (p q : BitVec 64) (c : Bool) (hp : p &&& 3 = 0) (_hq : q &&& 3 = 0) :
    wordParent (packWord p c) = p ∧ (wordColor (packWord p c) = 1 ↔ c = true) ∧
    (wordColor (packWord p c) = 0 ↔ c = false) ∧
    wordColor (packWord p c) ||| q = packWord q c ∧
    packWord p c ||| 1 = packWord p true ∧
    (c = false → packWord p c = p) := by
  have hbit : ∀ i : Nat, i < 2 → p.getLsbD i = false := by
    intro i hi
    have := congrArg (fun x => BitVec.getLsbD x i) hp
    have h3 : BitVec.getLsbD (3 : BitVec 64) i = true := by
      rcases i with _ | _ | i
      · decide
      · decide
      · omega
    simp only [BitVec.getLsbD_and, h3, Bool.and_true] at this
    rw [this]
    simp
  have h1b : ∀ i, BitVec.getLsbD (1 : BitVec 64) i = decide (i = 0) := by
    intro i
    simp [BitVec.getLsbD_one]
  have h3b : ∀ i, BitVec.getLsbD (3 : BitVec 64) i = decide (i < 2) := by
    intro i
    show Nat.testBit 3 i = decide (i < 2)
    have := Nat.testBit_two_pow_sub_one 2 i
    simpa using this
  have e1 : p &&& 1 = 0 := by
    apply BitVec.eq_of_getLsbD_eq
    intro i hi
    rw [BitVec.getLsbD_and, h1b]
    by_cases h0 : i = 0
    · rw [h0, hbit 0 (by omega)]; simp
    · simp [h0]
  have ecol : wordColor (packWord p c) = if c then 1 else 0 := by
    rw [wordColor, packWord]
    apply BitVec.eq_of_getLsbD_eq
    intro i hi
    have := congrArg (fun x => BitVec.getLsbD x i) e1
    rw [BitVec.getLsbD_and] at this
    cases c
    · simpa using this
    · rw [BitVec.getLsbD_and, BitVec.getLsbD_or]
      simp only [if_true]
      have h0 : BitVec.getLsbD (0 : BitVec 64) i = false := by simp
      rw [h0] at this
      revert this
      cases p.getLsbD i <;> cases BitVec.getLsbD (1 : BitVec 64) i <;> simp
  refine ⟨?_, ?_, ?_, ?_, ?_, ?_⟩
  · rw [wordParent, packWord]
    apply BitVec.eq_of_getLsbD_eq
    intro i hi
    rw [BitVec.getLsbD_and, BitVec.getLsbD_or, BitVec.getLsbD_not, h3b]
    by_cases h2 : i < 2
    · rw [hbit i h2]; simp [h2]
    · have : BitVec.getLsbD (if c then (1 : BitVec 64) else 0) i = false := by
        cases c
        · simp
        · rw [if_pos rfl, h1b]; simp; omega
      rw [this]
      simp [h2, hi]
  · rw [ecol]; cases c <;> simp
  · rw [ecol]; cases c <;> simp
  · rw [ecol, packWord, BitVec.or_comm]
  · rw [packWord, packWord]
    cases c
    · simp
    · rw [BitVec.or_assoc]; simp
  · intro h
    subst h
    simp [packWord]

/-! ## C26 -/

/-- `for (n = first; n; n = next(n)) visit(n)` -/
def walk (next : Nat → Option Nat) (n : Nat) (log : List Nat) : Option (List Nat) :=
  if n = 0 then some log else do
    let n' ← next n
    walk next n' (log ++ [n])
  partial_fixpoint

theorem walk_ok {next : Nat → Option Nat} : ∀ (l a : List Nat) {log : List Nat}, (∀ x ∈ l, x ≠ 0) →
    (∀ p n q, a ++ l = p ++ n :: q → next n = some (hd q)) → walk next (hd l) log = some (log ++ l)
  | [], _, log, _, _ => by rw [walk, hd]; simp
  | x :: l, a, log, h0, hn => by
    have hx : hd (x :: l) = x := rfl
    rw [walk, hx, if_neg (h0 x (by simp)), hn a x l rfl, Option.bind_eq_bind, Option.bind_some,
      walk_ok l (a ++ [x]) (fun y hy => h0 y (by simp [hy])) (fun p n q e => hn p n q (by rw [← e]; simp))]
    simp

/-- **C26.** After any sequence of operations, starting at `rb_first` and
following `rb_next` visits every node of the dictionary exactly once, in the
order of the keys, and ends; starting at `rb_last` and following `rb_prev` visits
the same nodes in the reverse order. -/
theorem C26_walk {κ : Type} [DecidableEq κ] {cmp : κ → κ → Int} (hc : Ordered cmp) (w0 : RbNode)
    (key : Nat → κ) (os : List (Op κ)) (ho : AllOK (Abs.empty κ) os) :
    ∃ w l, run cmp w0 (start key) os = some (w, (specRun (Abs.empty κ) os).2) ∧
      ((rbFirst w.s).bind fun n => walk (rbNext w.s) n []) = some l ∧
      ((rbLast w.s).bind fun n => walk (rbPrev w.s) n []) = some l.reverse ∧
      (∀ n, n ∈ l ↔ n ≠ 0 ∧ ∃ k, (specRun (Abs.empty κ) os).1.dict k = n) ∧ l.Nodup ∧
      l.Pairwise fun x y => cmp (w.key x) (w.key y) > 0 := by
  obtain ⟨w, t, e, h⟩ := Inv.run hc w0 os (Inv.start cmp key) ho
  refine ⟨w, ids t, e, ?_, ?_, ?_, h.tree.nodup, h.sorted⟩
  · rw [rbFirst_ok h.tree, Option.bind_some,
      walk_ok (ids t) [] h.tree.rep.ne_zero fun p n q e => rbNext_seq h.tree e]
    simp
  · rw [rbLast_ok h.tree, Option.bind_some, walk_ok (ids t).reverse []
      (fun x hx => h.tree.rep.ne_zero x (List.mem_reverse.1 hx)) ?_]
    · simp
    · intro p n q e
      have e' : ids t = q.reverse ++ n :: p.reverse := by
        have := congrArg List.reverse e
        simpa using this
      rw [rbPrev_seq h.tree e']
      simp
  · intro n
    constructor
    · intro hn
      exact ⟨h.tree.rep.ne_zero n hn, _, h.mem hn⟩
    · rintro ⟨hn0, k, hk⟩
      exact ((h.dict k n hn0).1 hk).1

/-- **C26.** Starting at `rb_first_postorder` and following `rb_next_postorder`
visits every node of the dictionary exactly once, each after its children. -/
theorem C26_postorder {κ : Type} [DecidableEq κ] {cmp : κ → κ → Int} (hc : Ordered cmp) (w0 : RbNode)
    (key : Nat → κ) (os : List (Op κ)) (ho : AllOK (Abs.empty κ) os) :
    ∃ w l, run cmp w0 (start key) os = some (w, (specRun (Abs.empty κ) os).2) ∧
      ((rbFirstPostorder w.s).bind fun n => walk (rbNextPostorder w.s) n []) = some l ∧
      (∀ n, n ∈ l ↔ n ≠ 0 ∧ ∃ k, (specRun (Abs.empty κ) os).1.dict k = n) ∧ l.Nodup ∧
      ∀ n x ch, n ∈ l → w.s.m n = some x → ch ≠ 0 → (x.left = ch ∨ x.right = ch) →
        ∃ a b d, l = a ++ ch :: b ++ n :: d := by
  obtain ⟨w, t, e, h⟩ := Inv.run hc w0 os (Inv.start cmp key) ho
  have hmem : ∀ {n}, n ∈ post t ↔ n ∈ ids t := (post_perm t).mem_iff
  refine ⟨w, post t, e, ?_, ?_, (post_perm t).nodup_iff.2 h.tree.nodup, ?_⟩
  · rw [rbFirstPostorder_ok h.tree, Option.bind_some,
      walk_ok (post t) [] (fun x hx => h.tree.rep.ne_zero x (hmem.1 hx))
        fun p n q e => rbNextPostorder_seq h.tree e]
    simp
  · intro n
    rw [hmem]
    constructor
    · intro hn
      exact ⟨h.tree.rep.ne_zero n hn, _, h.mem hn⟩
    · rintro ⟨hn0, k, hk⟩
      exact ((h.dict k n hn0).1 hk).1
  · intro n x ch hn hx hch hcc
    exact post_children h.tree.rep (hmem.1 hn) h.tree.nodup hx hch hcc

/-! ## C27 -/

/-- **C27.** After any sequence of operations, `rb_destroy` ends without touching
a node it has freed; it gives every node of the dictionary to the callback exactly
once; afterwards those are freed and all other memory is as it was. -/
theorem C27_destroy {κ : Type} [DecidableEq κ] {cmp : κ → κ → Int} (hc : Ordered cmp) (w0 : RbNode)
    (key : Nat → κ) (os : List (Op κ)) (ho : AllOK (Abs.empty κ) os) :
    ∃ w s' l, run cmp w0 (start key) os = some (w, (specRun (Abs.empty κ) os).2) ∧
      rbDestroy w.s = some (s', l) ∧ l.Nodup ∧
      (∀ n, n ∈ l ↔ n ≠ 0 ∧ ∃ k, (specRun (Abs.empty κ) os).1.dict k = n) ∧
      ∀ x, s'.m x = if x ∈ l then none else w.s.m x := by
  obtain ⟨w, t, e, h⟩ := Inv.run hc w0 os (Inv.start cmp key) ho
  obtain ⟨s', e', hm, _⟩ := rbDestroy_ok h.tree
  refine ⟨w, s', ids t, e, e', h.tree.nodup, ?_, hm⟩
  intro n
  constructor
  · intro hn
    exact ⟨h.tree.rep.ne_zero n hn, _, h.mem hn⟩
  · rintro ⟨hn0, k, hk⟩
    exact ((h.dict k n hn0).1 hk).1

/-- `rb_destroy` leaves the root pointer as it was: if there was a node, it now
points to a freed one, so the root must not be used again. -/
theorem C27_root_dangles {s : St} {t : Tree} (h : IsTree s t) (ht : t ≠ leaf) :
    ∃ s' l, rbDestroy s = some (s', l) ∧ s'.root ≠ 0 ∧ s'.m s'.root = none := by
  obtain ⟨s', e, hm, hr⟩ := rbDestroy_ok h
  refine ⟨s', _, e, ?_, ?_⟩
  · rw [hr, h.root]
    cases t with
    | leaf => exact absurd rfl ht
    | node => exact h.rep.1
  · rw [hm, hr, h.root]
    cases t with
    | leaf => exact absurd rfl ht
    | node => simp [ptr, ids]

/-! ## The hypotheses are met -/

/-- Numbers compared by subtraction. -/
theorem ordered_sub : Ordered (fun a b : Nat => (a : Int) - b) :=
  ⟨fun a b => by omega, fun a b => by omega, fun a b c => by omega⟩

/-- Four nodes, one of them with a key that is there already, one removed, and one put in the
place of another. -/
def exOps : List (Op Nat) :=
  [.alloc 8, .alloc 16, .alloc 24, .alloc 32, .insert 8 5, .insert 16 3, .insert 24 5, .insert 32 9, .find 3,
    .remove 8, .free 8, .find 5, .insert 24 5, .find 5, .alloc 40, .replace 16 40, .free 16, .find 3]

example : AllOK (Abs.empty Nat) exOps := by
  simp only [exOps, AllOK, OK, specStep, Abs.empty]
  refine ⟨by simp, by simp, by simp, by simp, ⟨by simp, ?_⟩, ⟨by simp, ?_⟩, ⟨by simp, ?_⟩, ⟨by simp, ?_⟩, trivial,
    ⟨by simp, 5, by simp⟩, ⟨by simp, ?_⟩, trivial, ⟨by simp, ?_⟩, trivial,
    by simp, ⟨⟨by simp, 3, by simp⟩, by simp, ?_⟩, ⟨by simp, ?_⟩, trivial, trivial⟩
  all_goals
    intro k
    by_cases h5 : k = 5 <;> by_cases h3 : k = 3 <;> by_cases h9 : k = 9 <;> simp_all

example : (specRun (Abs.empty Nat) exOps).2 = [0, 0, 0, 0, 0, 0, 8, 0, 16, 0, 0, 0, 0, 24, 0, 0, 0, 40] := by decide +kernel

/-- An insertion of a key that is there. -/
example : OK (specRun (Abs.empty Nat) (exOps.take 6)).1 (.insert 24 5) ∧
    (specRun (Abs.empty Nat) (exOps.take 6)).1.dict 5 ≠ 0 := by
  refine ⟨⟨by decide +kernel, ?_⟩, by decide +kernel⟩
  intro k
  simp only [exOps, List.take, specRun, specStep, Abs.empty]
  by_cases h5 : k = 5 <;> by_cases h3 : k = 3 <;> simp_all

example : (0x5555000010#64) &&& 3 = 0 := by decide

end Ulp.Rb
