/-
C98: the table of symbols (src/ultask.c:724-764).
-/
import Verif.Model.Listing
import Verif.Spec.Listing
import Verif.Props.Sym
namespace Ulp.Listing
open Ulp.Load (lit)
open Ulp.Sym (Syms registerAll initSyms strcmp infoOf Info registered)
open Ulp.SymSpec (Reg firstOfEach)
open Ulp.MapKind (text)
open Ulp.ProcMaps (hex zeros)
open Ulp.VmaType (basename lastPart)
open Ulp.ListingSpec
open Rb.Tree (ids)

theorem lx_eq (n : Nat) : lx n = hex n := by
  fun_induction lx n with
  | case1 n h => rw [hex, if_pos h]; rfl
  | case2 n h ih => rw [hex, if_neg h, ih]; rfl

theorem altHex16_eq (a : BitVec 64) : altHex16 a.toNat = address a := by
  unfold altHex16 address
  have e : a = 0 ↔ a.toNat = 0 := by
    constructor
    · intro h; rw [h]; rfl
    · intro h; exact BitVec.eq_of_toNat_eq h
  by_cases h : a.toNat = 0
  · rw [if_pos h, if_pos (e.2 h)]; rfl
  · rw [if_neg h, if_neg (fun q => h (e.1 q)), lx_eq, List.append_assoc]; rfl

theorem strcmp_pos : ∀ {a b : List Byte}, strcmp a b > 0 ↔ After a b
  | [], [] => by simp [strcmp, After]
  | [], _ :: _ => by simp [strcmp, After]
  | _ :: _, [] => by simp [strcmp, After]
  | a :: s, b :: t => by
    rw [strcmp]
    unfold After
    rw [List.map_cons, List.map_cons, List.cons_lt_cons_iff]
    by_cases h : a = b
    · rw [if_pos h, strcmp_pos, h]
      simp [After]
    · rw [if_neg h]
      have hn : a.toNat ≠ b.toNat := fun e => h (BitVec.eq_of_toNat_eq e)
      by_cases hl : a < b
      · rw [if_pos hl]
        have : a.toNat < b.toNat := hl
        simp; omega
      · rw [if_neg hl]
        have : ¬ a.toNat < b.toNat := hl
        simp; omega

theorem basename_eq {f b : List Byte} (h : Base f b) : (basename f).1 = b := by
  obtain ⟨dir, e, hd, hb, h47⟩ := h
  have hne : f ≠ [] := by rw [e]; simp [hb]
  have hl : f.getLast? ≠ some 47 := by
    rw [e, List.getLast?_append, List.getLast?_eq_some_getLast hb]
    simp only [Option.some_or, ne_eq, Option.some.injEq]
    exact fun q => h47 (q ▸ List.getLast_mem hb)
  unfold basename
  rw [if_neg hne, if_pos hl]
  show lastPart f = b
  unfold lastPart
  rw [e, List.reverse_append, List.takeWhile_append_of_pos]
  · rcases hd with rfl | ⟨d, rfl⟩
    · simp
    · simp
  · intro x hx
    have : x ∈ b := by simpa using hx
    simp only [ne_eq, decide_not, Bool.not_eq_eq_eq_not, Bool.not_true, decide_eq_false_iff_not]
    exact fun q => h47 (q ▸ this)

theorem symLoop_ok {s : Syms} {t : Rb.Tree} (h : Rb.IsTree s.names.t t) : ∀ (l a : List Nat),
    a ++ l = ids t → symLoop s (Rb.hd l) a = some (ids t)
  | [], a, ha => by
    rw [symLoop, Rb.hd, if_pos rfl, ← ha, List.append_nil]
  | x :: l, a, ha => by
    have hx : x ≠ 0 := h.rep.ne_zero x (by rw [← ha]; simp)
    rw [symLoop, Rb.hd, if_neg hx, Sym.nextTaskSym, if_pos hx, Rb.rbNext_seq h (a := a) (b := l) ha.symm]
    exact symLoop_ok h l (a ++ [x]) (by rw [← ha]; simp)

theorem maxLen_ge : ∀ (l : List (List Byte)) (m : Nat), m ≤ maxLen m l ∧ ∀ t ∈ l, t.length ≤ maxLen m l
  | [], m => by simp [maxLen]
  | t :: l, m => by
    rw [maxLen]
    obtain ⟨h1, h2⟩ := maxLen_ge l (if m < t.length then t.length else m)
    have h3 : m ≤ (if m < t.length then t.length else m) ∧
        t.length ≤ (if m < t.length then t.length else m) := by split <;> omega
    refine ⟨by omega, ?_⟩
    intro u hu
    rcases List.mem_cons.1 hu with rfl | hu
    · omega
    · exact h2 u hu

theorem maxLen_mem : ∀ (l : List (List Byte)) (m : Nat), maxLen m l = m ∨ ∃ t ∈ l, t.length = maxLen m l
  | [], m => by simp [maxLen]
  | t :: l, m => by
    rw [maxLen]
    rcases maxLen_mem l (if m < t.length then t.length else m) with h | ⟨u, hu, e⟩
    · by_cases hm : m < t.length
      · rw [if_pos hm] at h ⊢
        exact .inr ⟨t, by simp, h.symm⟩
      · rw [if_neg hm] at h ⊢
        exact .inl h
    · exact .inr ⟨u, by simp [hu], e⟩

theorem flatMap_congr' {α β : Type} {l : List α} {f g : α → List β} (h : ∀ x ∈ l, f x = g x) :
    l.flatMap f = l.flatMap g := by
  induction l with
  | nil => rfl
  | cons a l ih =>
    rw [List.flatMap_cons, List.flatMap_cons, h a (by simp), ih fun x hx => h x (by simp [hx])]

/-- **C98, partial.**  For every sequence of symbols registered, `ultask --symbols` prints
this table: the names are in descending order, each once; with `-v` there is a line for each
address of the name, in the order registered, otherwise one line with the first address.
A line has the last component of the file of the mapping, the name and the address.  The
column of names is wide enough for every line, the column of files for the first line of
each name, and both are as wide as some line needs.  Missing: with `-v` the column of files
may be too narrow (`C98_ragged`). -/
theorem C98_table_partial (info : Nat → Info) {regs : List Reg} (h0 : ∀ r ∈ regs, r.id ≠ 0)
    (hnd : (regs.map Reg.id).Nodup) (file base : Nat → List Byte)
    (hf : ∀ r ∈ regs, Base (file r.id) (base r.id)) (verbose : Bool) :
    ∃ (s : Syms) (names : List (List Byte)) (wf wn : Nat), registerAll (initSyms info) regs = some s ∧
      names.Pairwise After ∧ (∀ n, n ∈ names ↔ ∃ r ∈ regs, r.name = n) ∧
      listAllSymbols s file verbose = some (names.flatMap fun n =>
        (if verbose then named regs n else (named regs n).take 1).flatMap (symRow base wf wn)) ∧
      (∀ n ∈ names, n.length ≤ wn) ∧
      (∀ n ∈ names, ∀ r ∈ (named regs n).take 1, (base r.id).length ≤ wf) ∧
      (wn = 0 ∨ ∃ n ∈ names, n.length = wn) ∧
      (wf = 0 ∨ ∃ n ∈ names, ∃ r ∈ (named regs n).take 1, (base r.id).length = wf) := by
  obtain ⟨s, tn, ta, e, h, hN, _, _⟩ := registered info h0 hnd
  have hgrp : ∀ p ∈ ids tn, p :: s.names.lists p = (named regs (s.info p).name).map Reg.id := hN.group
  have hmem : ∀ n, ∀ r ∈ named regs n, r ∈ regs ∧ r.name = n := by
    intro n r hr
    have := Sym.mem_firstOfEach hr
    simpa using this
  have hhead : ∀ p ∈ ids tn, ∃ r ∈ regs, (named regs (s.info p).name).take 1 = [r] ∧ r.id = p ∧
      (s.info p) = infoOf r := by
    intro p hp
    have hg := hgrp p hp
    cases hnm : named regs (s.info p).name with
    | nil => rw [hnm] at hg; simp at hg
    | cons r l =>
      rw [hnm] at hg
      have hrm := (hmem (s.info p).name r (by rw [hnm]; simp)).1
      have hid : r.id = p := by simp at hg; exact hg.1.symm
      exact ⟨r, hrm, by simp, hid, by rw [← hid]; exact h.info r hrm⟩
  have hline : ∀ wf wn, ∀ r ∈ regs, symLine wf wn s file r.id = symRow base wf wn r := by
    intro wf wn r hr
    unfold symLine symRow
    rw [basename_eq (hf r hr), h.info r hr, altHex16_eq]
    rfl
  refine ⟨s, (ids tn).map fun p => (s.info p).name,
    maxLen 0 ((ids tn).map fun p => (basename (file p)).1),
    maxLen 0 ((ids tn).map fun p => (s.info p).name), e, ?_, ?_, ?_, ?_, ?_, ?_, ?_⟩
  · rw [List.pairwise_map]
    exact hN.sorted.imp fun q => strcmp_pos.1 q
  · intro n
    constructor
    · intro hn
      obtain ⟨p, hp, rfl⟩ := List.mem_map.1 hn
      obtain ⟨r, hr, q⟩ := hN.okh p hp
      exact ⟨r, hr, by rw [q]; rfl⟩
    · rintro ⟨r, hr, rfl⟩
      obtain ⟨p, hp, q⟩ := hN.cover r hr
      exact List.mem_map.2 ⟨p, hp, q⟩
  · unfold listAllSymbols
    rw [Sym.nextTaskSym, if_neg (by simp), Rb.rbFirst_ok h.names.tree]
    show (symLoop s (Rb.hd (ids tn)) []).bind _ = _
    rw [symLoop_ok h.names.tree (ids tn) [] rfl]
    show some _ = some _
    congr 1
    rw [List.flatMap_assoc, List.flatMap_map]
    apply flatMap_congr'
    intro p hp
    cases verbose with
    | true =>
      rw [symGroup, if_pos rfl, if_pos rfl, hgrp p hp, List.flatMap_map]
      apply flatMap_congr'
      intro r hr
      exact hline _ _ r (hmem _ r hr).1
    | false =>
      obtain ⟨r, hr, e1, e2, _⟩ := hhead p hp
      rw [symGroup, if_neg (by simp), if_neg (by simp), e1, ← e2]
      simp only [List.flatMap_cons, List.flatMap_nil, List.append_nil]
      exact hline _ _ r hr
  · intro n hn
    exact (maxLen_ge _ 0).2 n hn
  · intro n hn r hr
    obtain ⟨p, hp, rfl⟩ := List.mem_map.1 hn
    obtain ⟨r', hr', e1, e2, _⟩ := hhead p hp
    rw [e1] at hr
    obtain rfl : r = r' := by simpa using hr
    have := (maxLen_ge ((ids tn).map fun p => (basename (file p)).1) 0).2 (base r.id)
      (List.mem_map.2 ⟨p, hp, by rw [← e2]; exact basename_eq (hf r hr')⟩)
    exact this
  · rcases maxLen_mem ((ids tn).map fun p => (s.info p).name) 0 with q | ⟨t, ht, q⟩
    · exact .inl q
    · exact .inr ⟨t, ht, q⟩
  · rcases maxLen_mem ((ids tn).map fun p => (basename (file p)).1) 0 with q | ⟨t, ht, q⟩
    · exact .inl q
    · obtain ⟨p, hp, rfl⟩ := List.mem_map.1 ht
      obtain ⟨r, hr, e1, e2, _⟩ := hhead p hp
      exact .inr ⟨_, List.mem_map.2 ⟨p, hp, rfl⟩, r, by rw [e1]; simp,
        by rw [← q, ← e2, basename_eq (hf r hr)]⟩

theorem firstOfEach_pairwise {α κ : Type} [DecidableEq κ] {key : α → κ} : ∀ (l : List α),
    (firstOfEach key l).Pairwise fun x y => key x ≠ key y
  | [] => by simp [firstOfEach]
  | a :: l => by
    rw [firstOfEach, List.pairwise_cons]
    refine ⟨?_, (firstOfEach_pairwise l).filter _⟩
    intro x hx
    have := (List.mem_filter.1 hx).2
    simp only [ne_eq, decide_not, Bool.not_eq_eq_eq_not, Bool.not_true, decide_eq_false_iff_not] at this
    exact fun q => this q.symm

/-- **C98.**  The lines of the table with `-v`: every symbol registered is there with its
name and address, and no two lines have the same name and address. -/
theorem C98_each_once (regs : List Reg) (names : List (List Byte)) (hp : names.Pairwise After)
    (hn : ∀ n, n ∈ names ↔ ∃ r ∈ regs, r.name = n) :
    ((names.flatMap (named regs)).Pairwise fun x y => ¬ (x.name = y.name ∧ x.addr = y.addr)) ∧
      (∀ x ∈ names.flatMap (named regs), x ∈ regs) ∧
      ∀ r ∈ regs, ∃ x ∈ names.flatMap (named regs), x.name = r.name ∧ x.addr = r.addr := by
  have hmem : ∀ n, ∀ r ∈ named regs n, r ∈ regs ∧ r.name = n := by
    intro n r hr
    simpa using Sym.mem_firstOfEach hr
  refine ⟨?_, ?_, ?_⟩
  · have hne : names.Pairwise (· ≠ ·) := hp.imp fun {a b} q e => by
      subst e
      unfold After at q
      exact absurd q (List.lt_irrefl _)
    clear hn hp
    induction names with
    | nil => simp
    | cons n l ih =>
      rw [List.flatMap_cons, List.pairwise_append]
      obtain ⟨h1, h2⟩ := List.pairwise_cons.1 hne
      refine ⟨(firstOfEach_pairwise _).imp fun q e => q e.2, ih h2, ?_⟩
      intro x hx y hy e
      obtain ⟨m, hm, hy⟩ := List.mem_flatMap.1 hy
      refine h1 m hm ?_
      rw [← (hmem n x hx).2, ← (hmem m y hy).2, e.1]
  · intro x hx
    obtain ⟨n, _, hx⟩ := List.mem_flatMap.1 hx
    exact (hmem n x hx).1
  · intro r hr
    obtain ⟨x, hx, e⟩ := Sym.key_firstOfEach (key := Reg.addr)
      (l := regs.filter fun q => q.name = r.name) (x := r) (by simp [hr])
    exact ⟨x, List.mem_flatMap.2 ⟨r.name, (hn _).2 ⟨r, hr, rfl⟩, hx⟩, (hmem _ x hx).2, e⟩

/-- Two symbols `f` in different files, and a `g`. -/
def exRegs : List Reg := [⟨1, text "f", 0x401000⟩, ⟨2, text "g", 0⟩, ⟨3, text "f", 0x7f0000001000⟩]

def exFile : Nat → List Byte := fun p => if p = 3 then text "/lib/libm.so" else text "/bin/a"
def exBase : Nat → List Byte := fun p => if p = 3 then text "libm.so" else text "a"

theorem exBase_ok : ∀ r ∈ exRegs, Base (exFile r.id) (exBase r.id) := by
  intro r hr
  simp only [exRegs, List.mem_cons, List.not_mem_nil, or_false] at hr
  rcases hr with rfl | rfl | rfl
  · exact ⟨text "/bin/", by decide, .inr ⟨text "/bin", by decide⟩, by decide, by decide⟩
  · exact ⟨text "/bin/", by decide, .inr ⟨text "/bin", by decide⟩, by decide, by decide⟩
  · exact ⟨text "/lib/", by decide, .inr ⟨text "/lib", by decide⟩, by decide, by decide⟩

theorem exNames {names : List (List Byte)} (hp : names.Pairwise After)
    (hn : ∀ n, n ∈ names ↔ ∃ r ∈ exRegs, r.name = n) : names = [text "g", text "f"] := by
  have h1 : text "g" ∈ names := (hn _).2 ⟨⟨2, text "g", 0⟩, by simp [exRegs], rfl⟩
  have h2 : text "f" ∈ names := (hn _).2 ⟨⟨1, text "f", 0x401000⟩, by simp [exRegs], rfl⟩
  have h3 : ∀ n ∈ names, n = text "g" ∨ n = text "f" := by
    intro n h
    obtain ⟨r, hr, rfl⟩ := (hn n).1 h
    simp only [exRegs, List.mem_cons, List.not_mem_nil, or_false] at hr
    rcases hr with rfl | rfl | rfl <;> simp
  have hirr : ∀ a, ¬ After a a := fun a => List.lt_irrefl _
  have hfg : ¬ After (text "f") (text "g") := by unfold After; decide
  match names, hp, h1, h2, h3 with
  | [], _, h1, _, _ => simp at h1
  | [a], _, h1, h2, _ =>
    simp only [List.mem_singleton] at h1 h2
    rw [← h1] at h2
    exact absurd h2 (by decide)
  | [a, b], hp, h1, h2, h3 =>
    have hab : After a b := by simpa using hp
    rcases h3 a (by simp) with rfl | rfl
    · rcases h3 b (by simp) with rfl | rfl
      · exact absurd hab (hirr _)
      · rfl
    · rcases h3 b (by simp) with rfl | rfl
      · exact absurd hab hfg
      · exact absurd hab (hirr _)
  | a :: b :: c :: l, hp, h1, h2, h3 =>
    exfalso
    simp only [List.pairwise_cons] at hp
    have hab := hp.1 b (by simp)
    have hac := hp.1 c (by simp)
    have hbc := hp.2.1 c (by simp)
    rcases h3 a (by simp) with rfl | rfl <;> rcases h3 b (by simp) with rfl | rfl <;>
      rcases h3 c (by simp) with rfl | rfl <;>
      first
      | exact hirr _ hab
      | exact hirr _ hac
      | exact hirr _ hbc

/-- **Finding.**  With `-v` the width of the first column is that of the first line of each
name: a line for another file is out of line. -/
theorem C98_ragged (info : Nat → Info) : ∃ s, registerAll (initSyms info) exRegs = some s ∧
    listAllSymbols s exFile true = some (text "a g 0000000000000000\na f 0x00000000401000\nlibm.so f 0x007f0000001000\n") ∧
    listAllSymbols s exFile false = some (text "a g 0000000000000000\na f 0x00000000401000\n") := by
  have key : ∀ v, ∃ s, registerAll (initSyms info) exRegs = some s ∧
      listAllSymbols s exFile v = some ([text "g", text "f"].flatMap fun n =>
        (if v then named exRegs n else (named exRegs n).take 1).flatMap (symRow exBase 1 1)) := by
    intro v
    obtain ⟨s, names, wf, wn, e, hp, hn, ht, g1, g2, g3, g4⟩ := C98_table_partial info (regs := exRegs)
      (by decide) (by decide) exFile exBase exBase_ok v
    obtain rfl := exNames hp hn
    have hwn : wn = 1 := by
      have := g1 (text "g") (by simp)
      rcases g3 with q | ⟨n, hn, q⟩
      · rw [q] at this; exact absurd this (by decide)
      · simp only [List.mem_cons, List.not_mem_nil, or_false] at hn
        rcases hn with rfl | rfl <;> exact q.symm
    have hwf : wf = 1 := by
      have := g2 (text "g") (by simp) ⟨2, text "g", 0⟩ (by decide)
      rcases g4 with q | ⟨n, hn, r, hr, q⟩
      · rw [q] at this; exact absurd this (by decide)
      · simp only [List.mem_cons, List.not_mem_nil, or_false] at hn
        rcases hn with rfl | rfl
        · obtain rfl : r = ⟨2, text "g", 0⟩ := by
            rw [show (named exRegs (text "g")).take 1 = [⟨2, text "g", 0⟩] by decide] at hr
            simpa using hr
          exact q.symm
        · obtain rfl : r = ⟨1, text "f", 0x401000⟩ := by
            rw [show (named exRegs (text "f")).take 1 = [⟨1, text "f", 0x401000⟩] by decide] at hr
            simpa using hr
          exact q.symm
    subst hwn hwf
    exact ⟨s, e, ht⟩
  obtain ⟨s, e, h1⟩ := key true
  obtain ⟨s', e', h2⟩ := key false
  rw [e] at e'
  injection e' with e'
  subst e'
  refine ⟨s, e, ?_, ?_⟩
  · rw [h1]; decide +kernel
  · rw [h2]; decide +kernel

end Ulp.Listing
