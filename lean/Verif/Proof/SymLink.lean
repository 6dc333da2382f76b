/-
Registering symbols: the reference counts, and what each index holds.
-/
import Verif.Proof.Sym
import Verif.Spec.Symbols
namespace Ulp.Sym
open Rb (Tree IsTree RB St Mono)
open Rb.Tree (ids)
open SymSpec

/-! ### The first of each key -/

theorem mem_firstOfEach {α κ : Type} [DecidableEq κ] {key : α → κ} : ∀ {l : List α} {x : α},
    x ∈ firstOfEach key l → x ∈ l
  | [], _, h => by simp [firstOfEach] at h
  | y :: l, x, h => by
    rw [firstOfEach, List.mem_cons, List.mem_filter] at h
    rcases h with rfl | h
    · simp
    · simp [mem_firstOfEach h.1]

theorem key_firstOfEach {α κ : Type} [DecidableEq κ] {key : α → κ} : ∀ {l : List α} {x : α}, x ∈ l →
    ∃ y ∈ firstOfEach key l, key y = key x
  | [], _, h => by simp at h
  | y :: l, x, h => by
    rw [firstOfEach]
    by_cases hk : key x = key y
    · exact ⟨y, by simp, hk.symm⟩
    · rcases List.mem_cons.1 h with rfl | h
      · exact absurd rfl hk
      · obtain ⟨z, hz, e⟩ := key_firstOfEach (key := key) h
        exact ⟨z, List.mem_cons_of_mem _ (List.mem_filter.2 ⟨hz, by simpa [e] using hk⟩), e⟩

theorem firstOfEach_append {α κ : Type} [DecidableEq κ] {key : α → κ} (r : α) : ∀ (l : List α),
    firstOfEach key (l ++ [r]) = firstOfEach key l ++ if ∃ x ∈ l, key x = key r then [] else [r]
  | [] => by simp [firstOfEach]
  | y :: l => by
    rw [List.cons_append, firstOfEach, firstOfEach_append r l, firstOfEach, List.filter_append, List.cons_append]
    congr 2
    by_cases h : ∃ x ∈ l, key x = key r
    · have h' : ∃ x ∈ y :: l, key x = key r := by
        obtain ⟨x, hx, e⟩ := h
        exact ⟨x, by simp [hx], e⟩
      rw [if_pos h, if_pos h']
      rfl
    · rw [if_neg h]
      by_cases hy : key y = key r
      · rw [if_pos ⟨y, by simp, hy⟩]
        simp [hy]
      · rw [if_neg]
        · simp [Ne.symm hy]
        · rintro ⟨x, hx, e⟩
          rcases List.mem_cons.1 hx with rfl | hx
          · exact hy e
          · exact h ⟨x, hx, e⟩

theorem firstOfEach_map_mem {α κ : Type} [DecidableEq κ] {key : α → κ} {l : List α} {r : α} :
    (∃ x ∈ firstOfEach key l, key x = key r) ↔ ∃ x ∈ l, key x = key r := by
  constructor
  · rintro ⟨x, hx, e⟩
    exact ⟨x, mem_firstOfEach hx, e⟩
  · rintro ⟨x, hx, e⟩
    obtain ⟨y, hy, e'⟩ := key_firstOfEach (key := key) hx
    exact ⟨y, hy, e'.trans e⟩

/-! ### Registration -/

/-- Making a symbol and linking it (as src/task/symbol.c:315-316 does). -/
def register (s : Syms) (r : Reg) : Option Syms := linkTaskSym (allocTaskSym s r.id r.name r.addr) r.id

def registerAll : Syms → List Reg → Option Syms
  | s, [] => some s
  | s, r :: l => (register s r).bind fun s => registerAll s l

def infoOf (r : Reg) : Info := ⟨r.name, r.addr⟩

/-- What always holds, whatever the comparison of addresses does. -/
structure SInv (s : Syms) (R : List Reg) (tn ta : Tree) : Prop where
  names : IxInv s.names tn
  addrs : IxInv s.addrs ta
  nsub : ∀ p ∈ members s.names.lists (ids tn), ∃ r ∈ R, r.id = p
  asub : ∀ p ∈ members s.addrs.lists (ids ta), ∃ r ∈ R, r.id = p
  info : ∀ r ∈ R, s.info r.id = infoOf r
  rc : ∀ r ∈ R, s.rc r.id = some (contrib s.names.lists (ids tn) r.id + contrib s.addrs.lists (ids ta) r.id)
  rc' : ∀ p, (∀ r ∈ R, r.id ≠ p) → s.rc p = none
  nz : ∀ r ∈ R, r.id ≠ 0
  live : ∀ r ∈ R, s.names.t.m r.id ≠ none ∧ s.addrs.t.m r.id ≠ none

theorem SInv.init (info : Nat → Info) : SInv (initSyms info) [] .leaf .leaf := by
  have hix : IxInv ⟨⟨fun _ => none, 0⟩, fun _ => false, fun _ => []⟩ .leaf :=
    ⟨⟨rfl, trivial, by simp [ids]⟩, ⟨rfl, trivial, 0, rfl⟩, by simp [members, ids], by simp [ids]⟩
  exact ⟨hix, hix, by simp [members, ids], by simp [members, ids], by simp, by simp, fun _ _ => rfl, by simp, by simp⟩

theorem contrib_eq_zero {L : Nat → List Nat} {H : List Nat} {p : Nat} (h : p ∉ members L H) : contrib L H p = 0 := by
  rw [contrib, List.count_eq_zero_of_not_mem h, if_neg fun hm => h (head_mem hm)]

theorem contrib_pos {L : Nat → List Nat} {H : List Nat} {p : Nat} (h : p ∈ members L H) : contrib L H p ≠ 0 := by
  have := List.count_pos_iff.2 h
  rw [contrib]
  omega

theorem contrib_congr {L L' : Nat → List Nat} {H : List Nat} (h : ∀ x ∈ H, L' x = L x) (p : Nat) :
    contrib L' H p = contrib L H p := by
  rw [contrib, contrib, members_congr h]
  by_cases hp : p ∈ H
  · rw [if_pos hp, if_pos hp, h p hp]
  · rw [if_neg hp, if_neg hp]

theorem IxInv.alloc {i : Index} {t : Tree} (h : IxInv i t) {p : Nat} (hp : p ∉ ids t) :
    IxInv (i.alloc p) t ∧ (∀ x ∈ ids t, (i.alloc p).lists x = i.lists x) := by
  have hl : ∀ x ∈ ids t, (i.alloc p).lists x = i.lists x := by
    intro x hx
    have : x ≠ p := fun e => hp (e ▸ hx)
    simp [Index.alloc, this]
  refine ⟨⟨⟨h.tree.root, ?_, h.tree.nodup⟩, h.rb, ?_, ?_⟩, hl⟩
  · refine h.tree.rep.frame ?_
    intro x hx
    have : x ≠ p := fun e => hp (e ▸ hx)
    simp [Index.alloc, Rb.upd, this]
  · rw [members_congr hl]; exact h.nodup
  · intro x hx
    have : x ≠ p := fun e => hp (e ▸ hx)
    simp only [Index.alloc, if_neg this]
    exact h.heads x hx

/-! ### The groups of an index -/

/-- A comparison that is a strict order on the keys that are `ok`. -/
structure CmpOK {κ : Type} (cmp : κ → κ → Int) (ok : κ → Prop) : Prop where
  eq : ∀ a b, ok a → ok b → (cmp a b = 0 ↔ a = b)
  swap : ∀ a b, ok a → ok b → (cmp a b < 0 ↔ cmp b a > 0)
  trans : ∀ a b c, ok a → ok b → ok c → cmp a b < 0 → cmp b c < 0 → cmp a c < 0

theorem CmpOK.trans' {κ : Type} {cmp : κ → κ → Int} {ok : κ → Prop} (h : CmpOK cmp ok) {a b c : κ} (ha : ok a)
    (hb : ok b) (hc : ok c) (h1 : cmp a b > 0) (h2 : cmp b c > 0) : cmp a c > 0 := by
  rw [gt_iff_lt, ← gt_iff_lt, ← h.swap c a hc ha]
  exact h.trans c b a hc hb ha ((h.swap c b hc hb).2 h2) ((h.swap b a hb ha).2 h1)

/-- An index over the keys `kf`, with duplicates told apart by `sf`, holds what was
registered. -/
structure GInv {κ κ' : Type} [DecidableEq κ] [DecidableEq κ'] (cmp : κ → κ → Int) (kf : Info → κ) (sf : Info → κ')
    (info : Nat → Info) (lists : Nat → List Nat) (H : List Nat) (R : List Reg) : Prop where
  sorted : H.Pairwise fun x y => cmp (kf (info x)) (kf (info y)) > 0
  group : ∀ h ∈ H, h :: lists h =
    (firstOfEach (fun r => sf (infoOf r)) (R.filter fun r => kf (infoOf r) = kf (info h))).map Reg.id
  cover : ∀ r ∈ R, ∃ h ∈ H, kf (info h) = kf (infoOf r)
  okh : ∀ h ∈ H, ∃ r ∈ R, info h = infoOf r

theorem GInv.mono {κ κ' : Type} [DecidableEq κ] [DecidableEq κ'] {cmp : κ → κ → Int} {kf : Info → κ} {sf : Info → κ'}
    {info : Nat → Info} {lists : Nat → List Nat} {H : List Nat} {R : List Reg} {ok : κ → Prop} (hc : CmpOK cmp ok)
    (hok : ∀ r ∈ R, ok (kf (infoOf r))) (h : GInv cmp kf sf info lists H R) {k : κ} (hk : ok k) :
    Mono (fun n => cmp (kf (info n)) k) H := by
  have hokh : ∀ x ∈ H, ok (kf (info x)) := by
    intro x hx
    obtain ⟨r, hr, e⟩ := h.okh x hx
    rw [e]
    exact hok r hr
  refine List.Pairwise.imp_of_mem ?_ h.sorted
  intro x y hx hy hxy
  constructor
  · intro h1
    exact hc.trans _ _ _ (hokh y hy) (hokh x hx) hk ((hc.swap _ _ (hokh y hy) (hokh x hx)).2 hxy) h1
  · intro h1
    exact hc.trans' (hokh x hx) (hokh y hy) hk hxy h1

/-- Looking up a key. -/
theorem GInv.find {κ κ' : Type} [DecidableEq κ] [DecidableEq κ'] {cmp : κ → κ → Int} {kf : Info → κ} {sf : Info → κ'}
    {info : Nat → Info} {i : Index} {t : Tree} {R : List Reg} {ok : κ → Prop} (hc : CmpOK cmp ok)
    (hok : ∀ r ∈ R, ok (kf (infoOf r))) (h : GInv cmp kf sf info i.lists (ids t) R) (ht : IsTree i.t t) {k : κ}
    (hk : ok k) : ∃ r, Rb.rbSearchNode i.t (fun n => cmp (kf (info n)) k) = some r ∧
      ((r = 0 ∧ (firstOfEach (fun r => sf (infoOf r)) (R.filter fun r => kf (infoOf r) = k)).map Reg.id = []) ∨
       (r ≠ 0 ∧ (firstOfEach (fun r => sf (infoOf r)) (R.filter fun r => kf (infoOf r) = k)).map Reg.id =
          r :: i.lists r)) := by
  obtain ⟨r, er, hr⟩ := Rb.searchLoop_ok ht.rep (h.mono hc hok hk)
  rw [Rb.rbSearchNode, ht.root]
  refine ⟨r, er, ?_⟩
  rcases hr with ⟨h0, hr⟩ | ⟨h1, h2⟩
  · refine Or.inl ⟨h0, ?_⟩
    have : R.filter (fun r => decide (kf (infoOf r) = k)) = [] := by
      rw [List.filter_eq_nil_iff]
      intro r hrR
      simp only [decide_eq_true_eq]
      intro e
      obtain ⟨x, hx, ex⟩ := h.cover r hrR
      refine hr x hx ((hc.eq _ _ ?_ hk).2 (ex.trans e))
      rw [ex]
      exact hok r hrR
    rw [this]
    rfl
  · refine Or.inr ⟨ht.rep.ne_zero r h1, ?_⟩
    obtain ⟨q, hq, eq⟩ := h.okh r h1
    have : kf (info r) = k := (hc.eq _ _ (by rw [eq]; exact hok q hq) hk).1 h2
    rw [h.group r h1, this]

/-- Linking one more symbol. -/
theorem GInv.link {κ κ' : Type} [DecidableEq κ] [DecidableEq κ'] {cmp : κ → κ → Int} {kf : Info → κ} {sf : Info → κ'}
    {info : Nat → Info} {L L' : Nat → List Nat} {t t' : Tree} {R : List Reg} {ok : κ → Prop} {new : Reg} {ins : Bool}
    {w : Which} {s s' : Syms}
    (hc : CmpOK cmp ok) (hok : ∀ r ∈ R ++ [new], ok (kf (infoOf r)))
    (h : GInv cmp kf sf info L (ids t) R) (hinf : ∀ r ∈ R ++ [new], info r.id = infoOf r)
    (hl : L new.id = []) (hnew : new.id ∉ ids t)
    (hsub : ∀ p ∈ members L (ids t), ∃ r ∈ R, r.id = p)
    (hL : (s.ix w).lists = L) (hL' : (s'.ix w).lists = L')
    (hcase : (ins = true ∧ Rb.insTree (fun n => cmp (kf (info n)) (kf (info new.id))) new.id t = some t' ∧
          (s'.ix w).lists = (s.ix w).lists ∧
          ∃ a b, ids t = a ++ b ∧ ids t' = a ++ new.id :: b ∧
            (Mono (fun n => cmp (kf (info n)) (kf (info new.id))) (ids t) →
              (∀ x ∈ a, cmp (kf (info x)) (kf (info new.id)) > 0) ∧
              ∀ x ∈ b, cmp (kf (info x)) (kf (info new.id)) < 0)) ∨
       (∃ n ∈ ids t, cmp (kf (info n)) (kf (info new.id)) = 0 ∧ t' = t ∧
          Rb.insTree (fun n => cmp (kf (info n)) (kf (info new.id))) new.id t = none ∧
          ((ins = false ∧ (∃ q ∈ n :: (s.ix w).lists n, decide (sf (info q) = sf (info new.id)) = true) ∧ s' = s) ∨
           (ins = true ∧ (∀ q ∈ n :: (s.ix w).lists n, decide (sf (info q) = sf (info new.id)) = false) ∧
            ∀ x, (s'.ix w).lists x = if x = n then (s.ix w).lists x ++ [new.id] else (s.ix w).lists x)))) :
    GInv cmp kf sf info L' (ids t') (R ++ [new]) := by
  have hin : info new.id = infoOf new := hinf new (by simp)
  have hokR : ∀ r ∈ R, ok (kf (infoOf r)) := fun r hr => hok r (by simp [hr])
  have hoknew : ok (kf (infoOf new)) := hok new (by simp)
  have hokh : ∀ x ∈ ids t, ok (kf (info x)) := by
    intro x hx
    obtain ⟨r, hr, e⟩ := h.okh x hx
    rw [e]
    exact hokR r hr
  have hfil : ∀ k, kf (infoOf new) ≠ k → (R ++ [new]).filter (fun r => decide (kf (infoOf r) = k)) =
      R.filter fun r => decide (kf (infoOf r) = k) := by
    intro k hk
    rw [List.filter_append]
    simp [hk]
  rcases hcase with ⟨rfl, _, hll, a, b, h3, h4, h5⟩ | ⟨n, hn, hc0, rfl, _, hcase⟩
  · -- a new key
    rw [hL, hL'] at hll
    subst hll
    rw [hin] at h5
    obtain ⟨ha, hb⟩ := h5 (h.mono hc hokR hoknew)
    have hnk : ∀ x ∈ ids t, kf (infoOf new) ≠ kf (info x) := by
      intro x hx e
      have h0 := (hc.eq _ _ (hokh x hx) hoknew).2 e.symm
      rw [h3, List.mem_append] at hx
      rcases hx with hx | hx
      · have := ha x hx; omega
      · have := hb x hx; omega
    have hmem : ∀ x, x ∈ ids t' ↔ x = new.id ∨ x ∈ ids t := by
      intro x
      rw [h4, h3]
      simp only [List.mem_append, List.mem_cons]
      constructor
      · rintro (h | h | h) <;> simp [h]
      · rintro (h | h | h) <;> simp [h]
    have hs := h.sorted
    rw [h3, List.pairwise_append] at hs
    refine ⟨?_, ?_, ?_, ?_⟩
    · rw [h4, List.pairwise_append, List.pairwise_cons]
      refine ⟨hs.1, ⟨?_, hs.2.1⟩, ?_⟩
      · intro y hy
        rw [hin]
        exact (hc.swap _ _ (hokh y (by rw [h3]; simp [hy])) hoknew).1 (hb y hy)
      · intro x hx y hy
        rcases List.mem_cons.1 hy with rfl | hy
        · rw [hin]; exact ha x hx
        · exact hs.2.2 x hx y hy
    · intro x hx
      rcases (hmem x).1 hx with rfl | hx
      · rw [hl, hin, List.filter_append]
        have : R.filter (fun r => decide (kf (infoOf r) = kf (infoOf new))) = [] := by
          rw [List.filter_eq_nil_iff]
          intro r hr
          simp only [decide_eq_true_eq]
          intro e
          obtain ⟨y, hy, ey⟩ := h.cover r hr
          exact hnk y hy (e.symm.trans ey.symm)
        rw [this]
        simp [firstOfEach]
      · rw [hfil _ (hnk x hx)]
        exact h.group x hx
    · intro r hr
      rcases List.mem_append.1 hr with hr | hr
      · obtain ⟨y, hy, ey⟩ := h.cover r hr
        exact ⟨y, (hmem y).2 (Or.inr hy), ey⟩
      · rw [List.mem_singleton] at hr
        exact ⟨new.id, (hmem _).2 (Or.inl rfl), by rw [hin, hr]⟩
    · intro x hx
      rcases (hmem x).1 hx with rfl | hx
      · exact ⟨new, by simp, hin⟩
      · obtain ⟨r, hr, e⟩ := h.okh x hx
        exact ⟨r, by simp [hr], e⟩
  · -- the key is there
    rw [hin] at hc0
    have hkn : kf (info n) = kf (infoOf new) := (hc.eq _ _ (hokh n hn) hoknew).1 hc0
    have huniq : ∀ x ∈ ids t', x ≠ n → kf (infoOf new) ≠ kf (info x) := by
      intro x hx hne e
      have h0 : cmp (kf (info x)) (kf (info n)) = 0 := (hc.eq _ _ (hokh x hx) (hokh n hn)).2 (by rw [hkn, e])
      have h0' : cmp (kf (info n)) (kf (info x)) = 0 := (hc.eq _ _ (hokh n hn) (hokh x hx)).2 (by rw [hkn, e])
      obtain ⟨i, hi⟩ := List.getElem?_of_mem hx
      obtain ⟨j, hj⟩ := List.getElem?_of_mem hn
      obtain ⟨hil, hi⟩ := List.getElem?_eq_some_iff.1 hi
      obtain ⟨hjl, hj⟩ := List.getElem?_eq_some_iff.1 hj
      rcases Nat.lt_trichotomy i j with hij | hij | hij
      · have := List.pairwise_iff_getElem.1 h.sorted i j hil hjl hij
        rw [hi, hj] at this
        omega
      · subst hij
        exact hne (hi.symm.trans hj)
      · have := List.pairwise_iff_getElem.1 h.sorted j i hjl hil hij
        rw [hi, hj] at this
        omega
    have hgn := h.group n hn
    rw [hkn] at hgn
    -- the registered symbol behind an element of the group
    have hq : ∀ q ∈ n :: L n, ∃ r ∈ firstOfEach (fun r => sf (infoOf r))
        (R.filter fun r => kf (infoOf r) = kf (infoOf new)), r.id = q ∧ info q = infoOf r := by
      intro q hq
      rw [hgn] at hq
      obtain ⟨r, hr, rfl⟩ := List.mem_map.1 hq
      exact ⟨r, hr, rfl, hinf r (by simp [(List.mem_filter.1 (mem_firstOfEach hr)).1])⟩
    have hfn : (R ++ [new]).filter (fun r => decide (kf (infoOf r) = kf (infoOf new))) =
        (R.filter fun r => decide (kf (infoOf r) = kf (infoOf new))) ++ [new] := by
      rw [List.filter_append]
      simp
    have hcov : ∀ r ∈ R ++ [new], ∃ h ∈ ids t', kf (info h) = kf (infoOf r) := by
      intro r hr
      rcases List.mem_append.1 hr with hr | hr
      · exact h.cover r hr
      · rw [List.mem_singleton] at hr
        exact ⟨n, hn, by rw [hkn, hr]⟩
    have hokh' : ∀ x ∈ ids t', ∃ r ∈ R ++ [new], info x = infoOf r := by
      intro x hx
      obtain ⟨r, hr, e⟩ := h.okh x hx
      exact ⟨r, by simp [hr], e⟩
    rcases hcase with ⟨_, ⟨q, hqm, hqs⟩, rfl⟩ | ⟨_, hno, hll⟩
    · -- a duplicate
      rw [hL] at hL'
      subst hL'
      refine ⟨h.sorted, ?_, hcov, hokh'⟩
      intro x hx
      by_cases hxn : x = n
      · subst hxn
        rw [hkn, hfn, firstOfEach_append, if_pos, List.append_nil]
        · exact hgn
        · rw [hL] at hqm
          obtain ⟨r, hr, _, hri⟩ := hq q hqm
          refine ⟨r, mem_firstOfEach hr, ?_⟩
          rw [decide_eq_true_eq, hri, hin] at hqs
          exact hqs
      · rw [hfil _ (huniq x hx hxn)]
        exact h.group x hx
    · rw [hL, hL'] at hll
      rw [hL] at hno
      refine ⟨h.sorted, ?_, hcov, hokh'⟩
      intro x hx
      rw [hll]
      by_cases hxn : x = n
      · subst hxn
        rw [if_pos rfl, hkn, hfn, firstOfEach_append, if_neg, List.map_append, ← hgn]
        · simp
        · intro hex
          obtain ⟨r, hr, e⟩ := firstOfEach_map_mem.2 hex
          have hm : r.id ∈ x :: L x := by
            rw [hgn]
            exact List.mem_map_of_mem hr
          have hri : info r.id = infoOf r := hinf r (by simp [(List.mem_filter.1 (mem_firstOfEach hr)).1])
          have := hno r.id hm
          rw [decide_eq_false_iff_not, hri, hin] at this
          exact this e
      · rw [if_neg hxn, hfil _ (huniq x hx hxn)]
        exact h.group x hx

theorem GInv.congr {κ κ' : Type} [DecidableEq κ] [DecidableEq κ'] {cmp : κ → κ → Int} {kf : Info → κ} {sf : Info → κ'}
    {info info' : Nat → Info} {L L' : Nat → List Nat} {H : List Nat} {R : List Reg}
    (h : GInv cmp kf sf info L H R) (hi : ∀ x ∈ H, info' x = info x) (hl : ∀ x ∈ H, L' x = L x) :
    GInv cmp kf sf info' L' H R := by
  refine ⟨?_, ?_, ?_, ?_⟩
  · refine List.Pairwise.imp_of_mem ?_ h.sorted
    intro x y hx hy hxy
    rw [hi x hx, hi y hy]
    exact hxy
  · intro x hx
    rw [hi x hx, hl x hx]
    exact h.group x hx
  · intro r hr
    obtain ⟨y, hy, e⟩ := h.cover r hr
    exact ⟨y, hy, by rw [hi y hy, e]⟩
  · intro x hx
    rw [hi x hx]
    exact h.okh x hx

theorem strcmp_ok : CmpOK strcmp fun _ => True where
  eq := fun _ _ _ _ => strcmp_eq
  swap := fun _ _ _ _ => strcmp_swap
  trans := fun _ _ _ _ _ _ => strcmp_trans

/-- The address of the last symbol of this identity (they are distinct). -/
def addrIn (R : List Reg) (p : Nat) : BitVec 64 := (((R.find? fun r => r.id == p).map Reg.addr)).getD 0#64

theorem addrIn_mem {R : List Reg} {r : Reg} (hnd : (R.map Reg.id).Nodup) (hr : r ∈ R) : addrIn R r.id = r.addr := by
  induction R with
  | nil => simp at hr
  | cons q R ih =>
    rw [List.map_cons, List.nodup_cons] at hnd
    by_cases hq : q.id = r.id
    · have : q = r := by
        rcases List.mem_cons.1 hr with rfl | hr
        · rfl
        · exact absurd (hq ▸ List.mem_map_of_mem hr) hnd.1
      subst this
      simp [addrIn]
    · have : r ∈ R := by
        rcases List.mem_cons.1 hr with rfl | hr
        · exact absurd rfl hq
        · exact hr
      rw [← ih hnd.2 this, addrIn, addrIn, List.find?_cons_of_neg (by simpa using hq)]

/-- The comparison `__cmp_task_addr` makes. -/
def addrCmp (a b : BitVec 64) : Int := ((a - b).truncate 32).toInt

abbrev NInv (s : Syms) (tn : Tree) (R : List Reg) : Prop :=
  GInv strcmp Info.name Info.addr s.info s.names.lists (ids tn) R

abbrev AInv (s : Syms) (ta : Tree) (R : List Reg) : Prop :=
  GInv addrCmp Info.addr Info.name s.info s.addrs.lists (ids ta) R

theorem SInv.register {s : Syms} {R : List Reg} {tn ta : Tree} (h : SInv s R tn ta) (hN : NInv s tn R) (r : Reg)
    (hr0 : r.id ≠ 0) (hfresh : ∀ q ∈ R, q.id ≠ r.id) :
    ∃ s' tn' ta', register s r = some s' ∧ SInv s' (R ++ [r]) tn' ta' ∧ NInv s' tn' (R ++ [r]) ∧
      (∀ ok, CmpOK addrCmp ok → (∀ q ∈ R ++ [r], ok q.addr) → AInv s ta R → AInv s' ta' (R ++ [r])) ∧
      ta' = (Rb.insTree (fun n => addrCmp (s'.info n).addr r.addr) r.id ta).getD ta := by
  have hnmN : r.id ∉ members s.names.lists (ids tn) := by
    intro hm
    obtain ⟨q, hq, e⟩ := h.nsub _ hm
    exact hfresh q hq e
  have hnmA : r.id ∉ members s.addrs.lists (ids ta) := by
    intro hm
    obtain ⟨q, hq, e⟩ := h.asub _ hm
    exact hfresh q hq e
  have hntN : r.id ∉ ids tn := fun hm => hnmN (head_mem hm)
  have hntA : r.id ∉ ids ta := fun hm => hnmA (head_mem hm)
  generalize hs0 : allocTaskSym s r.id r.name r.addr = s0
  have en0 : s0.names = s.names.alloc r.id := by rw [← hs0]; rfl
  have ea0 : s0.addrs = s.addrs.alloc r.id := by rw [← hs0]; rfl
  have ei0 : s0.info = fun x => if x = r.id then ⟨r.name, r.addr⟩ else s.info x := by rw [← hs0]; rfl
  have er0 : s0.rc = fun x => if x = r.id then some 0 else s.rc x := by rw [← hs0]; rfl
  obtain ⟨hixN, hlN⟩ := h.names.alloc hntN
  obtain ⟨hixA, hlA⟩ := h.addrs.alloc hntA
  rw [← en0] at hixN hlN
  rw [← ea0] at hixA hlA
  have hmN : members s0.names.lists (ids tn) = members s.names.lists (ids tn) := members_congr hlN
  have hmA : members s0.addrs.lists (ids ta) = members s.addrs.lists (ids ta) := members_congr hlA
  have hcN := contrib_congr hlN
  have hcA := contrib_congr hlA
  have hi0 : ∀ q ∈ R ++ [r], s0.info q.id = infoOf q := by
    intro q hq
    rw [ei0]
    rcases List.mem_append.1 hq with hq | hq
    · simp only [if_neg (hfresh q hq)]
      exact h.info q hq
    · rw [List.mem_singleton] at hq
      subst hq
      simp only [if_pos]
      rfl
  have hir : s0.info r.id = infoOf r := hi0 r (by simp)
  have hrcN : ∀ p ∈ members s0.names.lists (ids tn), ∃ c, s0.rc p = some c := by
    intro p hp
    rw [hmN] at hp
    obtain ⟨q, hq, rfl⟩ := h.nsub p hp
    rw [er0]
    simp only [if_neg (hfresh q hq)]
    exact ⟨_, h.rc q hq⟩
  obtain ⟨s1, ins1, tn', e1, hix1, hoth1, hinf1, hnone1, hrc1, _, halive1, hmem1, hcase1⟩ :=
    linkIn_ok (s := s0) (w := .name) (new := r.id) (c0 := 0) hixN hr0 (by rw [show s0.ix .name = s0.names from rfl, hmN]; exact hnmN)
      (by rw [show s0.ix .name = s0.names from rfl, en0]; simp [Index.alloc, Rb.upd])
      (by rw [show s0.ix .name = s0.names from rfl, en0]; simp [Index.alloc])
      (by rw [er0]; simp) hrcN (cmpName s0 (s0.info r.id).name) (fun q => decide ((s0.info q).addr = (s0.info r.id).addr))
  change s1.addrs = s0.addrs at hoth1
  simp only [show ∀ s : Syms, s.ix .name = s.names from fun _ => rfl] at hix1 hrc1 halive1 hmem1
  have hrcA : ∀ p ∈ members s1.addrs.lists (ids ta), ∃ c, s1.rc p = some c := by
    intro p hp
    rw [hoth1, hmA] at hp
    obtain ⟨q, hq, rfl⟩ := h.asub p hp
    refine ⟨_, hrc1 q.id (contrib s.addrs.lists (ids ta) q.id) ?_⟩
    rw [hcN, er0]
    simp only [if_neg (hfresh q hq)]
    exact h.rc q hq
  have hrr1 : s1.rc r.id = some (contrib s1.names.lists (ids tn') r.id) := by
    have := hrc1 r.id 0 (by rw [hcN, contrib_eq_zero hnmN, er0]; simp)
    simpa using this
  obtain ⟨s2, ins2, ta', e2, hix2, hoth2, hinf2, hnone2, hrc2, _, halive2, hmem2, hcase2⟩ :=
    linkIn_ok (s := s1) (w := .addr) (new := r.id) (c0 := _)
      (show IxInv s1.addrs ta by rw [hoth1]; exact hixA) hr0
      (by rw [show s1.ix .addr = s1.addrs from rfl, hoth1, hmA]; exact hnmA)
      (by rw [show s1.ix .addr = s1.addrs from rfl, hoth1, ea0]; simp [Index.alloc, Rb.upd])
      (by rw [show s1.ix .addr = s1.addrs from rfl, hoth1, ea0]; simp [Index.alloc])
      hrr1 hrcA (cmpAddr s1 (s1.info r.id).addr) (fun q => decide ((s1.info q).name = (s1.info r.id).name))
  change s2.names = s1.names at hoth2
  simp only [show ∀ s : Syms, s.ix .addr = s.addrs from fun _ => rfl] at hix2 hrc2 halive2 hmem2
  have hi2 : s2.info = s0.info := hinf2.trans hinf1
  have hRinfo : ∀ x ∈ ids tn, s0.info x = s.info x := by
    intro x hx
    rw [ei0]
    have : x ≠ r.id := fun e => hntN (e ▸ hx)
    simp only [if_neg this]
  have hRinfoA : ∀ x ∈ ids ta, s0.info x = s.info x := by
    intro x hx
    rw [ei0]
    have : x ≠ r.id := fun e => hntA (e ▸ hx)
    simp only [if_neg this]
  refine ⟨s2, tn', ta', ?_, ?_, ?_, ?_, ?_⟩
  · rw [Sym.register, hs0, linkTaskSym, linkName, e1, Option.bind_some, linkAddr, e2]
    rfl
  · refine ⟨by rw [hoth2]; exact hix1, hix2, ?_, ?_, ?_, ?_, ?_, ?_, ?_⟩
    · intro p hp
      rw [hoth2, hmem1, hmN] at hp
      rcases hp with hp | ⟨rfl, _⟩
      · obtain ⟨q, hq, e⟩ := h.nsub p hp
        exact ⟨q, by simp [hq], e⟩
      · exact ⟨r, by simp, rfl⟩
    · intro p hp
      rw [hmem2, hoth1, hmA] at hp
      rcases hp with hp | ⟨rfl, _⟩
      · obtain ⟨q, hq, e⟩ := h.asub p hp
        exact ⟨q, by simp [hq], e⟩
      · exact ⟨r, by simp, rfl⟩
    · intro q hq
      rw [hi2]
      exact hi0 q hq
    · intro q hq
      rw [hoth2]
      have : s1.rc q.id = some (contrib s1.addrs.lists (ids ta) q.id + contrib s1.names.lists (ids tn') q.id) := by
        rw [hoth1, hcA]
        rcases List.mem_append.1 hq with hq | hq
        · rw [Nat.add_comm]
          refine hrc1 q.id (contrib s.addrs.lists (ids ta) q.id) ?_
          rw [hcN, er0]
          simp only [if_neg (hfresh q hq)]
          exact h.rc q hq
        · rw [List.mem_singleton] at hq
          subst hq
          rw [hrr1, contrib_eq_zero hnmA, Nat.zero_add]
      rw [hrc2 _ _ this, Nat.add_comm]
    · intro p hp
      refine hnone2 p (hnone1 p ?_)
      rw [er0]
      have : p ≠ r.id := fun e => hp r (by simp) e.symm
      simp only [if_neg this]
      exact h.rc' p fun q hq => hp q (by simp [hq])
    · intro q hq
      rcases List.mem_append.1 hq with hq | hq
      · exact h.nz q hq
      · rw [List.mem_singleton] at hq
        rw [hq]; exact hr0
    · intro q hq
      have hq0 : q.id ≠ 0 := by
        rcases List.mem_append.1 hq with hq | hq
        · exact h.nz q hq
        · rw [List.mem_singleton] at hq
          rw [hq]; exact hr0
      have hq1 : s0.names.t.m q.id ≠ none ∧ s0.addrs.t.m q.id ≠ none := by
        rw [en0, ea0]
        by_cases hqr : q.id = r.id
        · rw [hqr]
          simp [Index.alloc, Rb.upd]
        · rcases List.mem_append.1 hq with hq | hq
          · have := h.live q hq
            simp [Index.alloc, Rb.upd, hqr, this]
          · rw [List.mem_singleton] at hq
            exact absurd (by rw [hq]) hqr
      rw [hoth2]
      exact ⟨halive1 _ hq0 hq1.1, halive2 _ hq0 (by rw [hoth1]; exact hq1.2)⟩
  · have hN0 : GInv strcmp Info.name Info.addr s0.info s0.names.lists (ids tn) R := hN.congr hRinfo hlN
    have := GInv.link (w := .name) (s := s0) (s' := s1) (new := r) (L' := s1.names.lists) strcmp_ok (fun _ _ => trivial) hN0
      hi0 (by rw [en0]; simp [Index.alloc]) hntN
      (by rw [hmN]; exact h.nsub) rfl rfl hcase1
    rw [NInv, hi2, hoth2]
    exact this
  · intro ok hc hok hA
    have hA1 : GInv addrCmp Info.addr Info.name s1.info s1.addrs.lists (ids ta) R := by
      rw [hinf1, hoth1]
      exact hA.congr hRinfoA hlA
    have := GInv.link (w := .addr) (s := s1) (s' := s2) (new := r) (L' := s2.addrs.lists) hc hok hA1
      (by rw [hinf1]; exact hi0) (by rw [hoth1, ea0]; simp [Index.alloc]) hntA
      (by rw [hoth1, hmA]; exact h.asub) rfl rfl hcase2
    rw [AInv, hinf2]
    exact this
  · have hcmp : cmpAddr s1 (s1.info r.id).addr = fun n => addrCmp (s2.info n).addr r.addr := by
      funext n
      rw [hinf2, cmpAddr, addrCmp, show (s1.info r.id).addr = r.addr by rw [hinf1, hir]; rfl]
    rw [hcmp] at hcase2
    rcases hcase2 with ⟨_, h2, _⟩ | ⟨_, _, _, h2, h3, _⟩
    · rw [h2]; rfl
    · rw [h3, h2]; rfl

theorem insPath_congr {f g : Nat → Int} : ∀ (t : Tree) (K : List Rb.Frame), (∀ x ∈ ids t, f x = g x) →
    Rb.insPath f t K = Rb.insPath g t K
  | .leaf, _, _ => rfl
  | .node c l i r, K, h => by
    rw [Rb.insPath, Rb.insPath, h i (by simp [ids]), insPath_congr l _ fun x hx => h x (by simp [ids, hx]),
      insPath_congr r _ fun x hx => h x (by simp [ids, hx])]

theorem insTree_congr {f g : Nat → Int} {new : Nat} {t : Tree} (h : ∀ x ∈ ids t, f x = g x) :
    Rb.insTree f new t = Rb.insTree g new t := by
  rw [Rb.insTree, Rb.insTree, insPath_congr t [] h]

theorem searchTree_congr {f g : Nat → Int} : ∀ (t : Tree), (∀ x ∈ ids t, f x = g x) →
    Rb.searchTree f t = Rb.searchTree g t
  | .leaf, _ => rfl
  | .node c l i r, h => by
    rw [Rb.searchTree, Rb.searchTree, h i (by simp [ids]), searchTree_congr l fun x hx => h x (by simp [ids, hx]),
      searchTree_congr r fun x hx => h x (by simp [ids, hx])]

/-- The tree by address after registering `l`, computed, whatever the addresses. -/
def addrTree (A : Nat → BitVec 64) : List Reg → Tree → Tree
  | [], t => t
  | r :: l, t => addrTree A l ((Rb.insTree (fun n => addrCmp (A n) r.addr) r.id t).getD t)

theorem SInv.registerAll : ∀ {l : List Reg} {s : Syms} {R : List Reg} {tn ta : Tree}, SInv s R tn ta → NInv s tn R →
    (∀ r ∈ l, r.id ≠ 0) → ((R ++ l).map Reg.id).Nodup →
    ∃ s' tn' ta', registerAll s l = some s' ∧ SInv s' (R ++ l) tn' ta' ∧ NInv s' tn' (R ++ l) ∧
      (∀ ok, CmpOK addrCmp ok → (∀ q ∈ R ++ l, ok q.addr) → AInv s ta R → AInv s' ta' (R ++ l)) ∧
      ∀ A : Nat → BitVec 64, (∀ q ∈ R ++ l, A q.id = q.addr) → ta' = addrTree A l ta
  | [], s, R, tn, ta, h, hN, _, _ => ⟨s, tn, ta, rfl, by simpa using h, by simpa using hN,
      fun ok _ _ hA => by simpa using hA, fun _ _ => rfl⟩
  | r :: l, s, R, tn, ta, h, hN, h0, hnd => by
    have hfresh : ∀ q ∈ R, q.id ≠ r.id := by
      intro q hq e
      rw [List.map_append, List.nodup_append] at hnd
      exact hnd.2.2 _ (List.mem_map_of_mem hq) _ (by simp) e
    obtain ⟨s1, tn1, ta1, e1, h1, hN1, hA1, hT1⟩ := h.register hN r (h0 r (by simp)) hfresh
    have hassoc : R ++ r :: l = R ++ [r] ++ l := by simp
    rw [hassoc] at hnd ⊢
    obtain ⟨s2, tn2, ta2, e2, h2, hN2, hA2, hT2⟩ := SInv.registerAll h1 hN1 (fun q hq => h0 q (by simp [hq])) hnd
    refine ⟨s2, tn2, ta2, ?_, h2, hN2, ?_, ?_⟩
    · rw [Sym.registerAll, e1]
      exact e2
    · intro ok hc hok hA
      exact hA2 ok hc hok (hA1 ok hc (fun q hq => hok q (List.mem_append_left _ hq)) hA)
    · intro A hA
      rw [hT2 A hA, addrTree, hT1]
      congr 2
      refine insTree_congr ?_
      intro x hx
      obtain ⟨q, hq, rfl⟩ := h.asub x (head_mem hx)
      rw [h1.info q (by simp [hq]), hA q (by simp [hq])]
      rfl

end Ulp.Sym
