/-
C124: walking over the mappings and the symbols of a process.
-/
import Verif.Spec.Walk
import Verif.Props.Vma
import Verif.Props.Sym
namespace Ulp.Walk
open Rb (Tree IsTree hd)
open Rb.Tree (ids)
open Range
open SymSpec (Reg byName byAddr)
open Sym (Syms Info initSyms registerAll nextTaskSym nextTaskAddr registered)

theorem visits_tree {st : Rb.St} {t : Tree} (h : IsTree st t) {next : Nat → Option Nat}
    (hn : ∀ p, next p = if p ≠ 0 then Rb.rbNext st p else Rb.rbFirst st) : Visits next (ids t) := by
  have key : ∀ (l a : List Nat) (x : Nat), ids t = a ++ x :: l → VisitsFrom next x l := by
    intro l
    induction l with
    | nil =>
      intro a x e
      have hx : x ≠ 0 := h.rep.ne_zero x (by rw [e]; simp)
      show next x = some 0
      rw [hn, if_pos hx, Rb.rbNext_seq h e]
      rfl
    | cons y l ih =>
      intro a x e
      have hx : x ≠ 0 := h.rep.ne_zero x (by rw [e]; simp)
      have hy : y ≠ 0 := h.rep.ne_zero y (by rw [e]; simp)
      refine ⟨?_, hy, ih (a ++ [x]) y (by rw [e]; simp)⟩
      rw [hn, if_pos hx, Rb.rbNext_seq h e]
      rfl
  have h0 : next 0 = some (hd (ids t)) := by rw [hn, if_neg (by simp), Rb.rbFirst_ok h]
  show VisitsFrom next 0 (ids t)
  cases e : ids t with
  | nil => rw [e] at h0; exact h0
  | cons x l =>
    rw [e] at h0
    exact ⟨h0, h.rep.ne_zero x (by rw [e]; simp), key l [] x e⟩

/-- C124, mappings.  After any history of mappings made known and forgotten, walking over the
mappings visits each known one once, from the lowest to the highest address, and ends. -/
theorem C124_mappings {s : Vma.Vmas} {a : Vma.Abs} (h : Vma.Reach s a) :
    ∃ l, Visits (Vma.nextVma s) l ∧ l.Nodup ∧ (∀ p, p ∈ l ↔ ∃ r, (p, r) ∈ a.known) ∧
      l.Pairwise fun p q => ∀ r r', (p, r) ∈ a.known → (q, r') ∈ a.known → r.hi ≤ r'.lo := by
  obtain ⟨t, g⟩ := h.good
  refine ⟨ids t, visits_tree g.inv.tree fun _ => rfl, g.inv.tree.nodup, ?_, ?_⟩
  · intro p
    constructor
    · intro hp
      exact ⟨_, (g.inv.known p _).2 ⟨hp, rfl⟩⟩
    · rintro ⟨r, hr⟩
      exact ((g.inv.known p r).1 hr).1
  · refine g.inv.sorted.imp ?_
    intro p q hpq r r' hr hr'
    rw [((g.inv.known p r).1 hr).2, ((g.inv.known q r').1 hr').2]
    exact hpq

/-- C124, symbols by name.  After registering any symbols, walking over the names visits, for
each registered name, the symbol that was registered first, once, in descending order of
names, and ends. -/
theorem C124_names (info : Nat → Info) {regs : List Reg} (h0 : ∀ r ∈ regs, r.id ≠ 0)
    (hnd : (regs.map Reg.id).Nodup) :
    ∃ s l, registerAll (initSyms info) regs = some s ∧ Visits (nextTaskSym s) l ∧
      (∀ p, p ∈ l ↔ ∃ r ∈ regs, (byName regs r.name).head? = some p) ∧
      l.Pairwise fun p q => Sym.strcmp (s.info p).name (s.info q).name > 0 := by
  obtain ⟨s, tn, ta, e, h, hN, _, _⟩ := registered info h0 hnd
  refine ⟨s, ids tn, e, visits_tree h.names.tree fun _ => rfl, ?_, hN.sorted⟩
  intro p
  constructor
  · intro hp
    obtain ⟨r, hr, er⟩ := hN.okh p hp
    have hg : p :: s.names.lists p = byName regs (s.info p).name := hN.group p hp
    have hname : r.name = (s.info p).name := by rw [er]; rfl
    exact ⟨r, hr, by rw [hname, ← hg]; rfl⟩
  · rintro ⟨r, hr, er⟩
    obtain ⟨q, hq, eq⟩ := hN.cover r hr
    have hg : q :: s.names.lists q = byName regs (s.info q).name := hN.group q hq
    have hname : (s.info q).name = r.name := eq
    rw [hname] at hg
    rw [← hg] at er
    cases er
    exact hq

/-- C124, symbols by address, when all addresses registered are within 2 GiB of each other:
walking over the addresses visits, for each registered address, the symbol that was
registered first, once, and ends.  The full statement is for all addresses; it is false
(`C124_skipped`). -/
theorem C124_addresses_partial (info : Nat → Info) {regs : List Reg} (h0 : ∀ r ∈ regs, r.id ≠ 0)
    (hnd : (regs.map Reg.id).Nodup) {base : BitVec 64} (hw : ∀ r ∈ regs, Sym.Window base r.addr) :
    ∃ s l, registerAll (initSyms info) regs = some s ∧ Visits (nextTaskAddr s) l ∧
      (∀ p, p ∈ l ↔ ∃ r ∈ regs, (byAddr regs r.addr).head? = some p) ∧
      l.Pairwise fun p q => (s.info q).addr - base < (s.info p).addr - base := by
  obtain ⟨s, tn, ta, e, h, _, hA, _⟩ := registered info h0 hnd
  have hA := hA _ (Sym.addrCmp_ok base) hw
  refine ⟨s, ids ta, e, visits_tree h.addrs.tree fun _ => rfl, ?_, ?_⟩
  · intro p
    constructor
    · intro hp
      obtain ⟨r, hr, er⟩ := hA.okh p hp
      have hg : p :: s.addrs.lists p = byAddr regs (s.info p).addr := hA.group p hp
      have hname : r.addr = (s.info p).addr := by rw [er]; rfl
      exact ⟨r, hr, by rw [hname, ← hg]; rfl⟩
    · rintro ⟨r, hr, er⟩
      obtain ⟨q, hq, eq⟩ := hA.cover r hr
      have hg : q :: s.addrs.lists q = byAddr regs (s.info q).addr := hA.group q hq
      have hname : (s.info q).addr = r.addr := eq
      rw [hname] at hg
      rw [← hg] at er
      cases er
      exact hq
  · refine List.Pairwise.imp_of_mem ?_ hA.sorted
    intro p q hp hq hpq
    have win : ∀ p ∈ ids ta, Sym.Window base (s.info p).addr := by
      intro p hp
      obtain ⟨r, hr, er⟩ := hA.okh p hp
      rw [er]
      exact hw r hr
    have hpq : Sym.addrCmp (s.info p).addr (s.info q).addr > 0 := hpq
    rw [Sym.addrCmp_window (win p hp) (win q hq)] at hpq
    rw [BitVec.lt_def]
    omega

/-- **Finding on C124**: of two symbols of different names whose addresses differ by 4 GiB,
the walk over the addresses visits only one. -/
theorem C124_skipped (info : Nat → Info) :
    ∃ s, registerAll (initSyms info) [⟨1, Sym.nm 1, 0x100400000⟩, ⟨2, Sym.nm 2, 0x400000⟩] = some s ∧
      Visits (nextTaskAddr s) [1] ∧ (s.info 2).addr = 0x400000 := by
  obtain ⟨s, tn, ta, e, h, _, _, hT⟩ := registered info
    (regs := [⟨1, Sym.nm 1, 0x100400000⟩, ⟨2, Sym.nm 2, 0x400000⟩]) (by decide) (by decide)
  refine ⟨s, e, ?_, ?_⟩
  · have : ids ta = [1] := by rw [hT]; decide +kernel
    rw [← this]
    exact visits_tree h.addrs.tree fun _ => rfl
  · rw [h.info ⟨2, Sym.nm 2, 0x400000⟩ (by simp)]
    rfl

/-- The hypotheses are met: five symbols, and three mappings. -/
example : (∀ r ∈ Sym.someRegs, r.id ≠ 0) ∧ (Sym.someRegs.map Reg.id).Nodup ∧
    (∀ r ∈ Sym.someRegs, Sym.Window 0x1000 r.addr) ∧ (byName Sym.someRegs (Sym.nm 0x66)).head? = some 1 := by
  simp only [Sym.Window]
  decide

example (info : Nat → Vma.Vma) : ∃ s, Vma.Reach s (Vma.specRun ⟨[], []⟩ (Vma.inserts 0 Vma.lowMaps)) := by
  obtain ⟨s, t, e, h⟩ := Vma.Good.run _ (Vma.Good.init info) Vma.lowMaps_ok.1
  exact ⟨s, info, _, Vma.lowMaps_ok.1, e, rfl⟩

end Ulp.Walk
