/-
C30, C31, C46: the known mappings of a process (src/task/vma.c).
-/
import Verif.Proof.Vma
namespace Ulp.Vma
open Rb (Tree IsTree hd)
open Rb.Tree (ids)
open Range

/-! ## Histories of mappings being made known and forgotten -/

/-- What the code does with mappings: a new one is allocated and inserted (`prev`
is the one made before it), or one is unlinked. -/
inductive VOp where
  | insert (p prev : Nat) (start stop : BitVec 64) (name : List Byte)
  | unlink (p : Nat)

def vstep (s : Vmas) : VOp → Option Vmas
  | .insert p prev start stop name => insertVma (allocVma s p start stop name) p prev
  | .unlink p => unlinkVma s p

def vrun : Vmas → List VOp → Option Vmas
  | s, [] => some s
  | s, o :: os => (vstep s o).bind fun s => vrun s os

/-- The mappings an address can be looked up in, and all structures in use. -/
structure Abs where
  known : Known
  used : List Nat

open Classical in
/-- A mapping becomes known if it is apart from all known ones. -/
noncomputable def specStep (a : Abs) : VOp → Abs
  | .insert p _ start stop _ =>
    if ∀ q ∈ a.known, Apart q.2 ⟨start.toNat, stop.toNat⟩ then
      ⟨(p, ⟨start.toNat, stop.toNat⟩) :: a.known, a.used ++ [p]⟩
    else ⟨a.known, a.used ++ [p]⟩
  | .unlink p => ⟨a.known.filter (·.1 ≠ p), a.used.filter (· ≠ p)⟩

/-- New structures are not in use already, mappings are not empty, and only what
is known is unlinked. -/
def OK (a : Abs) : VOp → Prop
  | .insert p prev start stop _ => p ≠ 0 ∧ p ∉ a.used ∧ prev ≠ p ∧ start < stop
  | .unlink p => ∃ r, (p, r) ∈ a.known

noncomputable def specRun : Abs → List VOp → Abs
  | a, [] => a
  | a, o :: os => specRun (specStep a o) os

def AllOK : Abs → List VOp → Prop
  | _, [] => True
  | a, o :: os => OK a o ∧ AllOK (specStep a o) os

/-- What holds after a history. -/
structure Good (s : Vmas) (a : Abs) (t : Tree) : Prop where
  inv : Inv s a.known t
  list : s.list = a.used
  sub : ∀ n ∈ ids t, n ∈ a.used

theorem Good.step {s : Vmas} {a : Abs} {t : Tree} (h : Good s a t) (o : VOp) (ho : OK a o) :
    ∃ s' t', vstep s o = some s' ∧ Good s' (specStep a o) t' := by
  cases o with
  | insert p prev start stop name =>
    obtain ⟨hp0, hpu, hpp, hlt⟩ := ho
    obtain ⟨s', t', e, hl, _, _, _, hc⟩ := h.inv.insert (nm := name) hp0 (fun hm => hpu (h.sub p hm)) hpp hlt
    refine ⟨s', t', e, ?_⟩
    rcases hc with ⟨hap, ⟨u, v, e1, e2⟩, hi⟩ | ⟨⟨q, hq, hnap⟩, rfl, hi, _⟩
    · rw [specStep, if_pos hap]
      refine ⟨hi, by rw [hl, h.list], ?_⟩
      intro n hn
      rw [e2, List.mem_append, List.mem_cons] at hn
      rw [List.mem_append, List.mem_singleton]
      rcases hn with hn | rfl | hn
      · exact Or.inl (h.sub n (by rw [e1]; simp [hn]))
      · exact Or.inr rfl
      · exact Or.inl (h.sub n (by rw [e1]; simp [hn]))
    · rw [specStep, if_neg fun hap => hnap (hap q hq)]
      exact ⟨hi, by rw [hl, h.list], fun n hn => List.mem_append.2 (Or.inl (h.sub n hn))⟩
  | unlink p =>
    obtain ⟨r, hr⟩ := ho
    have hp := ((h.inv.known p r).1 hr).1
    obtain ⟨s', t', e, hl, _, ⟨u, v, e1, e2⟩, _, _, hi⟩ := h.inv.unlink hp
    refine ⟨s', t', e, hi, by rw [hl, h.list]; rfl, ?_⟩
    intro n hn
    rw [specStep, List.mem_filter]
    have hnd := h.inv.tree.nodup
    rw [e1, List.nodup_append, List.nodup_cons] at hnd
    rw [e2, List.mem_append] at hn
    refine ⟨h.sub n (by rw [e1]; rcases hn with hn | hn <;> simp [hn]), ?_⟩
    simp only [ne_eq, decide_not, Bool.not_eq_true', decide_eq_false_iff_not]
    rintro rfl
    rcases hn with hn | hn
    · exact hnd.2.2 n hn n (by simp) rfl
    · exact hnd.2.1.1 hn

theorem Good.run : ∀ (os : List VOp) {s : Vmas} {a : Abs} {t : Tree}, Good s a t → AllOK a os →
    ∃ s' t', vrun s os = some s' ∧ Good s' (specRun a os) t'
  | [], s, a, t, h, _ => ⟨s, t, rfl, h⟩
  | o :: os, s, a, t, h, ho => by
    obtain ⟨s1, t1, e1, h1⟩ := h.step o ho.1
    obtain ⟨s2, t2, e2, h2⟩ := Good.run os h1 ho.2
    exact ⟨s2, t2, by rw [vrun, e1]; exact e2, h2⟩

theorem Good.init (info : Nat → Vma) : Good (initVmas info) ⟨[], []⟩ .leaf := ⟨Inv.init info, rfl, by simp [ids]⟩

/-- The states the code can be in. -/
def Reach (s : Vmas) (a : Abs) : Prop :=
  ∃ info os, AllOK ⟨[], []⟩ os ∧ vrun (initVmas info) os = some s ∧ a = specRun ⟨[], []⟩ os

theorem Reach.good {s : Vmas} {a : Abs} (h : Reach s a) : ∃ t, Good s a t := by
  obtain ⟨info, os, ho, e, rfl⟩ := h
  obtain ⟨s', t, e', hg⟩ := Good.run os (Good.init info) ho
  rw [e] at e'
  cases e'
  exact ⟨t, hg⟩

/-! ## C30 -/

/-- **C30.** After any history of mappings made known and forgotten, in any order,
looking up any address ends, and returns a known mapping that contains the
address if there is one, and nothing otherwise. -/
theorem C30_find (info : Nat → Vma) (os : List VOp) (ho : AllOK ⟨[], []⟩ os) :
    ∃ s, vrun (initVmas info) os = some s ∧ ∀ a : BitVec 64, ∃ r, findVma s a = some r ∧
      ((r = 0 ∧ ∀ q ∈ (specRun ⟨[], []⟩ os).known, ¬ q.2.Has a.toNat) ∨
       (r ≠ 0 ∧ ∃ q, (r, q) ∈ (specRun ⟨[], []⟩ os).known ∧ q.Has a.toNat)) := by
  obtain ⟨s, t, e, h⟩ := Good.run os (Good.init info) ho
  refine ⟨s, e, fun a => ?_⟩
  obtain ⟨r, er, hr⟩ := h.inv.find a
  refine ⟨r, er, ?_⟩
  rcases hr with hr | ⟨h0, h1, h2⟩
  · exact Or.inl hr
  · exact Or.inr ⟨h0, _, (h.inv.known _ _).2 ⟨h1, rfl⟩, h2⟩

/-- Inserting mappings one after the other. -/
def inserts (prev : Nat) : List (Nat × Line) → List VOp
  | [] => []
  | (p, e) :: l => .insert p prev e.start e.stop e.name :: inserts p l

theorem inserts_spec : ∀ (l : List (Nat × Line)) (prev : Nat) (a : Abs), (prev :: l.map (·.1)).Nodup →
    (∀ x ∈ l, x.1 ≠ 0 ∧ x.1 ∉ a.used ∧ x.2.start < x.2.stop) →
    l.Pairwise (fun x y => Apart ⟨x.2.start.toNat, x.2.stop.toNat⟩ ⟨y.2.start.toNat, y.2.stop.toNat⟩) →
    (∀ q ∈ a.known, ∀ x ∈ l, Apart q.2 ⟨x.2.start.toNat, x.2.stop.toNat⟩) →
    AllOK a (inserts prev l) ∧ ∀ q, q ∈ (specRun a (inserts prev l)).known ↔
      q ∈ a.known ∨ ∃ x ∈ l, q = (x.1, ⟨x.2.start.toNat, x.2.stop.toNat⟩)
  | [], prev, a, _, _, _, _ => ⟨trivial, by simp [inserts, specRun]⟩
  | (p, e) :: l, prev, a, hn, hx, hp, ha => by
    rw [List.map_cons, List.nodup_cons] at hn
    obtain ⟨x1, x2, x3⟩ := hx (p, e) (by simp)
    rw [List.pairwise_cons] at hp
    have hap : ∀ q ∈ a.known, Apart q.2 ⟨e.start.toNat, e.stop.toNat⟩ := fun q hq => ha q hq (p, e) (by simp)
    obtain ⟨r1, r2⟩ := inserts_spec l p ⟨(p, ⟨e.start.toNat, e.stop.toNat⟩) :: a.known, a.used ++ [p]⟩ hn.2
      (by
        intro x hxl
        obtain ⟨y1, y2, y3⟩ := hx x (by simp [hxl])
        refine ⟨y1, ?_, y3⟩
        simp only [List.mem_append, List.mem_singleton, not_or]
        refine ⟨y2, fun ep => ?_⟩
        have := (List.nodup_cons.1 hn.2).1
        exact this (by rw [← ep]; exact List.mem_map_of_mem (f := (·.1)) hxl))
      hp.2
      (by
        intro q hq x hxl
        rcases List.mem_cons.1 hq with rfl | hq
        · exact hp.1 x hxl
        · exact ha q hq x (by simp [hxl]))
    rw [inserts, AllOK, specRun, specStep, if_pos hap]
    refine ⟨⟨⟨x1, x2, fun e => hn.1 (by simp [e]), x3⟩, r1⟩, ?_⟩
    intro q
    rw [r2]
    simp only [List.mem_cons]
    constructor
    · rintro ((h | h) | ⟨x, hx, h⟩)
      · exact Or.inr ⟨(p, e), by simp, h⟩
      · exact Or.inl h
      · exact Or.inr ⟨x, by simp [hx], h⟩
    · rintro (h | ⟨x, rfl | hx, h⟩)
      · exact Or.inl (Or.inr h)
      · exact Or.inl (Or.inl h)
      · exact Or.inr ⟨x, hx, h⟩

/-- **C30.** For any mappings apart from each other, inserted in any order, looking
up any address returns the one that contains it, and nothing if none does. -/
theorem C30_disjoint_maps (info : Nat → Vma) (l : List (Nat × Line)) (hn : (0 :: l.map (·.1)).Nodup)
    (hl : ∀ x ∈ l, x.2.start < x.2.stop)
    (hp : l.Pairwise fun x y => Apart ⟨x.2.start.toNat, x.2.stop.toNat⟩ ⟨y.2.start.toNat, y.2.stop.toNat⟩) :
    ∃ s, vrun (initVmas info) (inserts 0 l) = some s ∧
      (∀ a : BitVec 64, (∀ x ∈ l, ¬ (x.2.start ≤ a ∧ a < x.2.stop)) → findVma s a = some 0) ∧
      ∀ a : BitVec 64, ∀ x ∈ l, x.2.start ≤ a → a < x.2.stop → findVma s a = some x.1 := by
  have h0 : ∀ x ∈ l, x.1 ≠ 0 := fun x hx e =>
    (List.nodup_cons.1 hn).1 (by rw [← e]; exact List.mem_map_of_mem hx)
  obtain ⟨ho, hk⟩ := inserts_spec l 0 ⟨[], []⟩ hn (fun x hx => ⟨h0 x hx, by simp, hl x hx⟩) hp (by simp)
  obtain ⟨s, t, e, h⟩ := Good.run _ (Good.init info) ho
  have hmem : ∀ x ∈ l, x.1 ∈ ids t ∧ rangeOf (s.info x.1) = ⟨x.2.start.toNat, x.2.stop.toNat⟩ := by
    intro x hx
    have := (h.inv.known _ _).1 ((hk _).2 (Or.inr ⟨x, hx, rfl⟩))
    exact ⟨this.1, this.2.symm⟩
  refine ⟨s, e, ?_, ?_⟩
  · intro a ha
    obtain ⟨r, er, hr⟩ := h.inv.find a
    rcases hr with ⟨rfl, _⟩ | ⟨r0, r1, r2⟩
    · exact er
    · rcases (hk (r, rangeOf (s.info r))).1 ((h.inv.known _ _).2 ⟨r1, rfl⟩) with hr | ⟨x, hx, ex⟩
      · simp at hr
      · rw [Prod.mk.injEq] at ex
        rw [ex.2] at r2
        exact absurd r2 (ha x hx)
  · intro a x hx h1 h2
    obtain ⟨m1, m2⟩ := hmem x hx
    have hha : (rangeOf (s.info x.1)).Has a.toNat := by rw [m2]; exact ⟨h1, h2⟩
    obtain ⟨r, er, hr⟩ := h.inv.find a
    rcases hr with ⟨_, hr⟩ | ⟨r0, r1, r2⟩
    · exact absurd hha (hr (x.1, rangeOf (s.info x.1)) ((h.inv.known _ _).2 ⟨m1, rfl⟩))
    · rw [er, h.inv.unique r1 m1 r2 hha]

/-! ## C31 -/

/-- `q` is the next known mapping above `p`. -/
def Next (known : Known) (p q : Range) : Prop :=
  (∃ x, (x, p) ∈ known) ∧ (∃ y, (y, q) ∈ known) ∧ p.hi ≤ q.lo ∧
  ∀ k ∈ known, ¬ (p.hi ≤ k.2.lo ∧ k.2.hi ≤ q.lo)

theorem next_of_split {s : Vmas} {known : Known} {t : Tree} (h : Inv s known t) {u v : List Nat} {x y : Nat}
    (e : ids t = u ++ x :: y :: v) : ∀ k ∈ ids t,
      (s.info k).stop ≤ (s.info x).stop ∨ (s.info y).start ≤ (s.info k).start := by
  intro k hk
  have hs := h.sorted
  rw [e] at hs hk
  obtain ⟨h1, h2, h3⟩ := List.pairwise_append.1 hs
  obtain ⟨h4, h5⟩ := List.pairwise_cons.1 h2
  obtain ⟨h6, h7⟩ := List.pairwise_cons.1 h5
  have hin : ∀ z ∈ u ++ x :: y :: v, (s.info z).start < (s.info z).stop := by
    rw [← e]; exact h.ne
  simp only [List.mem_append, List.mem_cons] at hk
  rcases hk with hk | rfl | rfl | hk
  · have a1 := h3 k hk x (by simp)
    have a2 := hin x (by simp)
    simp only [BitVec.le_def, BitVec.lt_def] at *
    omega
  · left
    exact BitVec.le_refl _
  · right
    exact BitVec.le_refl _
  · have a1 := h6 k hk
    have a2 := hin y (by simp)
    simp only [BitVec.le_def, BitVec.lt_def] at *
    omega

theorem split_of_next {s : Vmas} {known : Known} {t : Tree} (h : Inv s known t) {p q : Range}
    (hn : Next known p q) : ∃ u x y v, ids t = u ++ x :: y :: v ∧ p = rangeOf (s.info x) ∧
      q = rangeOf (s.info y) := by
  obtain ⟨⟨x, hx'⟩, ⟨y, hy'⟩, hpq, hno⟩ := hn
  obtain ⟨hx, rfl⟩ := (h.known _ _).1 hx'
  obtain ⟨hy, rfl⟩ := (h.known _ _).1 hy'
  obtain ⟨u, v, e⟩ := List.append_of_mem hx
  have hs := h.sorted
  rw [e] at hs hy
  obtain ⟨h1, h2, h3⟩ := List.pairwise_append.1 hs
  obtain ⟨h4, h5⟩ := List.pairwise_cons.1 h2
  have hin : ∀ z ∈ u ++ x :: v, (s.info z).start < (s.info z).stop := by
    rw [← e]; exact h.ne
  have hxx := hin x (by simp)
  have hyy := hin y hy
  have hkn : ∀ z ∈ u ++ x :: v, (z, rangeOf (s.info z)) ∈ known := by
    intro z hz
    exact (h.known _ _).2 ⟨by rw [e]; exact hz, rfl⟩
  simp only [List.mem_append, List.mem_cons] at hy
  rcases hy with hy | rfl | hy
  · have := h3 y hy x (by simp)
    simp only [rangeOf, BitVec.le_def, BitVec.lt_def] at *
    omega
  · simp only [rangeOf, BitVec.le_def, BitVec.lt_def] at *
    omega
  · cases v with
    | nil => simp at hy
    | cons z v =>
      rcases List.mem_cons.1 hy with rfl | hy
      · exact ⟨u, x, y, v, e, rfl, rfl⟩
      · exfalso
        have a1 := h4 z (by simp)
        have a2 := (List.pairwise_cons.1 h5).1 y hy
        exact hno _ (hkn z (by simp)) ⟨a1, a2⟩

/-- **C31.** The address chosen for a patch: whatever the mappings, the size and
the wished address, if the result is not 0 then the whole range from it lies in
the address space and meets no known mapping; if it is 0, no two neighbouring
mappings have a gap of that size between them. -/
theorem C31_span {s : Vmas} {a : Abs} (h : Reach s a) (hk : a.known ≠ []) (size base : BitVec 64) :
    ∃ r, findVmaSpanArea s size base = some r ∧
      (r ≠ 0 → r.toNat + size.toNat < 2 ^ 64 ∧ ∀ q ∈ a.known, Apart q.2 ⟨r.toNat, r.toNat + size.toNat⟩) ∧
      (r = 0 → ∀ p q, Next a.known p q → q.lo - p.hi < size.toNat) := by
  obtain ⟨t, hg⟩ := h.good
  have hi := hg.inv
  have hsub : ∀ x y : BitVec 64, x ≤ y → (y - x).toNat = y.toNat - x.toNat := by
    intro x y hxy
    rw [BitVec.toNat_sub_of_le hxy]
  have hfirst : ∃ x l, ids t = x :: l := by
    cases e : ids t with
    | nil =>
      obtain ⟨⟨p, r⟩, hm⟩ := List.exists_mem_of_ne_nil _ hk
      have := ((hi.known p r).1 hm).1
      rw [e] at this
      simp at this
    | cons x l => exact ⟨x, l, rfl⟩
  obtain ⟨x0, l0, e0⟩ := hfirst
  have hx0 : x0 ≠ 0 := hi.tree.rep.ne_zero x0 (by rw [e0]; simp)
  have hlow : ∀ k ∈ ids t, (s.info x0).start ≤ (s.info k).start := by
    intro k hk
    have hs := hi.sorted
    rw [e0] at hs hk
    rcases List.mem_cons.1 hk with rfl | hk
    · exact BitVec.le_refl _
    · have a1 := (List.pairwise_cons.1 hs).1 k hk
      have a2 := hi.ne x0 (by rw [e0]; simp)
      simp only [BitVec.le_def, BitVec.lt_def] at *
      omega
  have hloop : ∃ r, spanLoop s size x0 = some r ∧
      (r ≠ 0 → r.toNat + size.toNat < 2 ^ 64 ∧ ∀ q ∈ a.known, Apart q.2 ⟨r.toNat, r.toNat + size.toNat⟩) ∧
      (r = 0 → ∀ p q, Next a.known p q → q.lo - p.hi < size.toNat) := by
    obtain ⟨r, er, hr⟩ := spanLoop_ok hi.tree size (ids t) [] rfl
    rw [show hd (ids t) = x0 by rw [e0]; rfl] at er
    refine ⟨r, er, ?_⟩
    rcases hr with ⟨rfl, hr⟩ | ⟨u, x, y, v, e, hgap, rfl⟩
    · refine ⟨fun h => absurd rfl h, fun _ p q hpq => ?_⟩
      have hle := hpq.2.2.1
      obtain ⟨u, x, y, v, e, rfl, rfl⟩ := split_of_next hi hpq
      have := hr u x y v e
      have h2 := hsub (s.info x).stop (s.info y).start hle
      simp only [rangeOf, ge_iff_le, BitVec.le_def] at *
      omega
    · have hxy : (s.info x).stop ≤ (s.info y).start := by
        have hs := hi.sorted
        rw [e] at hs
        exact (List.pairwise_cons.1 (List.pairwise_append.1 hs).2.1).1 y (by simp)
      have hxne := hi.ne x (by rw [e]; simp)
      have h2 := hsub _ _ hxy
      have hylt := (s.info y).start.isLt
      rw [ge_iff_le, BitVec.le_def, h2] at hgap
      refine ⟨fun _ => ⟨?_, ?_⟩, fun h0 => ?_⟩
      · simp only [BitVec.le_def] at hxy
        omega
      · rintro ⟨k, r⟩ hk'
        obtain ⟨hk, rfl⟩ := (hi.known k r).1 hk'
        have := next_of_split hi e k hk
        intro b
        simp only [Range.Has, rangeOf, BitVec.le_def] at *
        omega
      · rw [BitVec.lt_def, h0] at hxne
        simp at hxne
  rw [findVmaSpanArea, Rb.rbFirst_ok hi.tree, e0, show hd (x0 :: l0) = x0 from rfl]
  simp only [Option.bind_eq_bind, Option.bind_some, hx0, if_false]
  by_cases hb : base ≠ 0 ∧ base ≥ minUlpStart
  · rw [if_pos hb]
    by_cases hf : (s.info x0).start > base ∧ (s.info x0).start - base ≥ size
    · rw [if_pos hf]
      refine ⟨base, rfl, ?_, fun h0 => absurd h0 hb.1⟩
      intro _
      obtain ⟨f1, f2⟩ := hf
      have hle : base ≤ (s.info x0).start := BitVec.le_of_lt f1
      have h2 := hsub _ _ hle
      rw [ge_iff_le, BitVec.le_def, h2] at f2
      have hlt := (s.info x0).start.isLt
      rw [BitVec.le_def] at hle
      refine ⟨by omega, ?_⟩
      rintro ⟨k, r⟩ hk'
      obtain ⟨hk, rfl⟩ := (hi.known k r).1 hk'
      have := hlow k hk
      intro b
      simp only [Range.Has, rangeOf, BitVec.le_def] at *
      omega
    · rw [if_neg hf]
      exact hloop
  · rw [if_neg hb]
    exact hloop

/-- **C31 (part).** The address is at or above the minimum if every known mapping
ends at or above it.  Without that it need not be: `C31_below_minimum`. -/
theorem C31_minimum_partial {s : Vmas} {a : Abs} (h : Reach s a) (hk : a.known ≠ [])
    (hm : ∀ q ∈ a.known, minUlpStart.toNat ≤ q.2.hi) (size : BitVec 64) {r : BitVec 64}
    (hr : findVmaSpanArea s size minUlpStart = some r) (h0 : r ≠ 0) : minUlpStart ≤ r := by
  obtain ⟨t, hg⟩ := h.good
  have hi := hg.inv
  have hfirst : ∃ x l, ids t = x :: l := by
    cases e : ids t with
    | nil =>
      obtain ⟨⟨p, r⟩, hm⟩ := List.exists_mem_of_ne_nil _ hk
      have := ((hi.known p r).1 hm).1
      rw [e] at this
      simp at this
    | cons x l => exact ⟨x, l, rfl⟩
  obtain ⟨x0, l0, e0⟩ := hfirst
  have hx0 : x0 ≠ 0 := hi.tree.rep.ne_zero x0 (by rw [e0]; simp)
  rw [findVmaSpanArea, Rb.rbFirst_ok hi.tree, e0, show hd (x0 :: l0) = x0 from rfl] at hr
  simp only [Option.bind_eq_bind, Option.bind_some, hx0, if_false] at hr
  rw [if_pos ⟨by decide, BitVec.le_refl _⟩] at hr
  split at hr
  · cases hr
    exact BitVec.le_refl _
  · obtain ⟨r', er, hr'⟩ := spanLoop_ok hi.tree size (ids t) [] rfl
    rw [show hd (ids t) = x0 by rw [e0]; rfl, hr] at er
    cases er
    rcases hr' with ⟨h, _⟩ | ⟨u, x, y, v, e, _, rfl⟩
    · exact absurd h h0
    · exact hm (x, rangeOf (s.info x)) ((hi.known _ _).2 ⟨by rw [e]; simp, rfl⟩)

/-- With no mapping known the code reads through a pointer to no mapping. -/
theorem C31_no_mapping (info : Nat → Vma) (size : BitVec 64) :
    findVmaSpanArea (initVmas info) size minUlpStart = none := by
  have h := Rb.rbFirst_ok (Inv.init info).tree
  rw [findVmaSpanArea, h, show hd (ids Tree.leaf) = 0 from rfl]
  rw [Option.bind_eq_bind, Option.bind_some, if_pos ⟨by decide, BitVec.le_refl _⟩, if_pos rfl]

/-! Two mappings, the lower one below the minimum address. -/

def lowMaps : List (Nat × Line) :=
  [(8, ⟨0x10000#64, 0x11000#64, []⟩), (16, ⟨0x401000#64, 0x402000#64, []⟩)]

theorem lowMaps_ok : AllOK ⟨[], []⟩ (inserts 0 lowMaps) ∧ ∀ q, q ∈ (specRun ⟨[], []⟩ (inserts 0 lowMaps)).known ↔
      q ∈ ([] : Known) ∨ ∃ x ∈ lowMaps, q = (x.1, ⟨x.2.start.toNat, x.2.stop.toNat⟩) :=
  inserts_spec lowMaps 0 ⟨[], []⟩ (by decide) (by simp [lowMaps]) (by
    simp only [lowMaps, List.pairwise_cons, List.mem_singleton, forall_eq]
    refine ⟨?_, by simp⟩
    intro a
    simp only [Range.Has, BitVec.toNat_ofNat]
    omega) (by simp)

/-- The chosen address can be below the minimum: with mappings at 0x10000 and at
0x401000, the range chosen for a page is at 0x11000. -/
theorem C31_below_minimum (info : Nat → Vma) : ∃ s, vrun (initVmas info) (inserts 0 lowMaps) = some s ∧
    findVmaSpanArea s 0x1000 minUlpStart = some 0x11000 := by
  obtain ⟨ho, hk⟩ := lowMaps_ok
  obtain ⟨s, t, e, h⟩ := Good.run _ (Good.init info) ho
  refine ⟨s, e, ?_⟩
  have hi := h.inv
  have m1 := (hi.known 8 ⟨0x10000, 0x11000⟩).1 ((hk _).2 (Or.inr ⟨_, List.mem_cons_self .., rfl⟩))
  have m2 := (hi.known 16 ⟨0x401000, 0x402000⟩).1
    ((hk _).2 (Or.inr ⟨_, List.mem_cons_of_mem _ (List.mem_cons_self ..), rfl⟩))
  have hnext : Next (specRun ⟨[], []⟩ (inserts 0 lowMaps)).known ⟨0x10000, 0x11000⟩ ⟨0x401000, 0x402000⟩ := by
    refine ⟨⟨8, (hi.known _ _).2 m1⟩, ⟨16, (hi.known _ _).2 m2⟩, by simp, ?_⟩
    intro k hkk
    rcases (hk k).1 hkk with hq | ⟨x, hx, rfl⟩
    · simp at hq
    · simp only [lowMaps, List.mem_cons, List.not_mem_nil, or_false] at hx
      rcases hx with rfl | rfl <;> simp
  have eqs : ∀ (x : Nat) (lo hi' : Nat), (⟨lo, hi'⟩ : Range) = rangeOf (s.info x) →
      (s.info x).start.toNat = lo ∧ (s.info x).stop.toNat = hi' := by
    intro x lo hi' e
    simp only [rangeOf, Range.mk.injEq] at e
    exact ⟨e.1.symm, e.2.symm⟩
  obtain ⟨u, x, y, v, et, ex, ey⟩ := split_of_next hi hnext
  obtain ⟨xs, xe⟩ := eqs x _ _ ex
  obtain ⟨ys, ye⟩ := eqs y _ _ ey
  have hu : u = [] := by
    cases u with
    | nil => rfl
    | cons z u =>
      exfalso
      have hz : z ∈ ids t := by rw [et]; simp
      have hnd := hi.tree.nodup
      rw [et] at hnd
      rcases (hk (z, rangeOf (s.info z))).1 ((hi.known _ _).2 ⟨hz, rfl⟩) with hq | ⟨w, hw, hw'⟩
      · simp at hq
      · rw [Prod.mk.injEq] at hw'
        have hs := hi.sorted
        rw [et] at hs
        have h1 := (List.pairwise_append.1 hs).2.2 z (by simp) x (by simp)
        have h2 := hi.ne x (by rw [et]; simp)
        simp only [lowMaps, List.mem_cons, List.not_mem_nil, or_false] at hw
        rcases hw with rfl | rfl <;>
          simp only [rangeOf, Range.mk.injEq, BitVec.toNat_ofNat, BitVec.le_def, BitVec.lt_def] at hw' h1 h2 <;> omega
  subst hu
  have hx0 : x ≠ 0 := hi.tree.rep.ne_zero x (by rw [et]; simp)
  have hfst : ¬ ((s.info x).start > minUlpStart ∧ (s.info x).start - minUlpStart ≥ 0x1000) := by
    intro hh
    have := hh.1
    have hmin : minUlpStart.toNat = 0x400000 := rfl
    rw [gt_iff_lt, BitVec.lt_def, xs, hmin] at this
    omega
  rw [findVmaSpanArea, Rb.rbFirst_ok hi.tree, et, show hd ([] ++ x :: y :: v) = x from rfl]
  simp only [Option.bind_eq_bind, Option.bind_some, hx0, if_false]
  rw [if_pos ⟨by decide, BitVec.le_refl _⟩, if_neg hfst, spanLoop, if_neg hx0,
    Rb.rbNext_seq hi.tree (a := []) et]
  have hy0 : y ≠ 0 := hi.tree.rep.ne_zero y (by rw [et]; simp)
  simp only [Option.bind_eq_bind, Option.bind_some, hd, hy0, if_false]
  have hxb : (s.info x).stop = 0x11000 := BitVec.eq_of_toNat_eq (by rw [xe]; rfl)
  have hyb : (s.info y).start = 0x401000 := BitVec.eq_of_toNat_eq (by rw [ys]; rfl)
  rw [hxb, hyb]
  rfl

example (info : Nat → Vma) : ∃ s, Reach s (specRun ⟨[], []⟩ (inserts 0 lowMaps)) ∧
    (specRun ⟨[], []⟩ (inserts 0 lowMaps)).known ≠ [] := by
  obtain ⟨s, t, e, h⟩ := Good.run _ (Good.init info) lowMaps_ok.1
  refine ⟨s, ⟨info, _, lowMaps_ok.1, e, rfl⟩, ?_⟩
  intro hnil
  have := (lowMaps_ok.2 (8, ⟨0x10000, 0x11000⟩)).2 (Or.inr ⟨_, List.mem_cons_self .., rfl⟩)
  rw [hnil] at this
  simp at this

end Ulp.Vma
