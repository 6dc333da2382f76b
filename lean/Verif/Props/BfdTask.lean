/-
C77: from the symbol tables of the files of a process to `find_task_sym`.
-/
import Verif.Props.BfdSym
import Verif.Props.Sym
import Verif.Spec.BfdTask
namespace Ulp.Bfd
open BfdSpec
open Load (lit)
open Sym (Syms Info Mapping FileSym initSyms findTaskSym loadAll)
open SymSpec (Reg)
open Rb.Tree (ids)

/-- The registrations `R` give for every name what the places `P` have first. -/
def Good (R : List Reg) (P : List (Src × Kind)) : Prop := ∀ n,
  (∀ pl s, First (Has n) P pl → First (Named pl.2 n) pl.1.tbl s →
    ∃ r, R.find? (fun r => r.name = n) = some r ∧ r.addr = s.value + pl.1.load) ∧
  ((∀ pl ∈ P, ¬ Has n pl) → R.find? (fun r => r.name = n) = none)

theorem Good.nil : Good [] [] := by
  intro n
  refine ⟨?_, fun _ => rfl⟩
  rintro pl s ⟨a, b, e, _⟩
  simp at e

theorem first_append {α : Type} {P : α → Prop} : ∀ {l m : List α} {x : α}, First P (l ++ m) x →
    First P l x ∨ ((∀ y ∈ l, ¬ P y) ∧ First P m x)
  | [], m, x, h => Or.inr ⟨by simp, h⟩
  | z :: l, m, x, ⟨a, b, e, h1, h2⟩ => by
    cases a with
    | nil =>
      simp only [List.cons_append, List.nil_append, List.cons.injEq] at e
      exact Or.inl ⟨[], l, by rw [e.1]; rfl, h1, by simp⟩
    | cons w a =>
      simp only [List.cons_append, List.cons.injEq] at e
      have hz : ¬ P z := by rw [e.1]; exact h2 w (by simp)
      rcases first_append (l := l) ⟨a, b, e.2, h1, fun y hy => h2 y (by simp [hy])⟩ with ⟨c, d, e', h3, h4⟩ | ⟨h3, h4⟩
      · refine Or.inl ⟨z :: c, d, by rw [e']; rfl, h3, ?_⟩
        intro y hy
        rcases List.mem_cons.1 hy with rfl | hy
        · exact hz
        · exact h4 y hy
      · refine Or.inr ⟨?_, h4⟩
        intro y hy
        rcases List.mem_cons.1 hy with rfl | hy
        · exact hz
        · exact h3 y hy

theorem Good.append {R S : List Reg} {P Q : List (Src × Kind)} (h1 : Good R P) (h2 : Good S Q) :
    Good (R ++ S) (P ++ Q) := by
  intro n
  rw [List.find?_append]
  constructor
  · intro pl s hf hs
    rcases first_append hf with hf | ⟨hn, hf⟩
    · obtain ⟨r, e, hr⟩ := (h1 n).1 pl s hf hs
      exact ⟨r, by rw [e]; rfl, hr⟩
    · obtain ⟨r, e, hr⟩ := (h2 n).1 pl s hf hs
      exact ⟨r, by rw [(h1 n).2 hn, e]; rfl, hr⟩
  · intro hn
    rw [(h1 n).2 fun p hp => hn p (by simp [hp]), (h2 n).2 fun p hp => hn p (by simp [hp])]
    rfl

theorem first_mem {α : Type} {P : α → Prop} {l : List α} {x : α} (h : First P l x) : x ∈ l ∧ P x := by
  obtain ⟨a, b, e, h, _⟩ := h
  exact ⟨by rw [e]; simp, h⟩

/-- One tree of one file. -/
theorem Good.tab {v : Src} {k : Kind} {t : Tab} {a : Dict.Abs (List Byte)} {tr : Rb.Tree} {mal : Nat → Nat}
    (h : TabOK k mal t v.tbl a tr) (hz : ∀ i, mal i ≠ 0) (tp : Nat → Nat) :
    Good ((ids tr).map fun p => ⟨tp p, t.name p, bfdSymAddr t p + v.load⟩) [(v, k)] := by
  intro n
  have hw : ∀ r : Reg, r ∈ ((ids tr).map fun p => (⟨tp p, t.name p, bfdSymAddr t p + v.load⟩ : Reg)) → r.name = n →
      ∃ s, First (Named k n) v.tbl s ∧ r.addr = s.value + v.load := by
    intro r hr hrn
    obtain ⟨p, hp, rfl⟩ := List.mem_map.1 hr
    have hm : (n, bfdSymAddr t p) ∈ (ids tr).map (fun p => (t.name p, bfdSymAddr t p)) :=
      List.mem_map.2 ⟨p, hp, by simp only at hrn; rw [hrn]⟩
    obtain ⟨s, hs, e⟩ := (h.walk hz n _).1 hm
    exact ⟨s, hs, by rw [e]⟩
  constructor
  · intro pl s hf hs
    have hpl : pl = (v, k) := by simpa using (first_mem hf).1
    subst hpl
    have hm := (h.walk hz n s.value).2 ⟨s, hs, rfl⟩
    obtain ⟨p, hp, e⟩ := List.mem_map.1 hm
    simp only [Prod.mk.injEq] at e
    cases hfind : ((ids tr).map fun p => (⟨tp p, t.name p, bfdSymAddr t p + v.load⟩ : Reg)).find? (fun r => r.name = n) with
    | none =>
      rw [List.find?_eq_none] at hfind
      exact absurd e.1 (by simpa using hfind ⟨tp p, t.name p, bfdSymAddr t p + v.load⟩ (List.mem_map.2 ⟨p, hp, rfl⟩))
    | some r =>
      have h1 := List.mem_of_find?_eq_some hfind
      have h2 := List.find?_some hfind
      obtain ⟨y, hy, e⟩ := hw r h1 (by simpa using h2)
      rw [first_inj hy hs] at e
      exact ⟨r, rfl, e⟩
  · intro hn
    rw [List.find?_eq_none]
    intro r hr hrn
    obtain ⟨s, hs, _⟩ := hw r hr (by simpa using hrn)
    exact hn (v, k) (by simp) ⟨s, (first_mem hs).1, (first_mem hs).2⟩

/-- What can be asked of a mapping: its tables can be read, its names are short. -/
def Src.Fine (v : Src) : Prop :=
  Fresh v.mal ∧ ∀ symtab dynsym synth, v.tabs = some (symtab, dynsym, synth) →
    Readable symtab ∧ Readable dynsym ∧ ∀ s ∈ table symtab.list dynsym.list synth, Short s

/-- What `malloc` returns for the symbols of the process: never NULL, never the same
twice. -/
structure TaskFresh (tp : Nat → Kind → Nat → Nat) : Prop where
  zero : ∀ i k p, tp i k p ≠ 0
  inj : ∀ i k p i' k' p', tp i k p = tp i' k' p' → i = i' ∧ k = k' ∧ p = p'

theorem mapping_regs_nodup {tp : Nat → Kind → Nat → Nat} (ht : TaskFresh tp) (i : Nat) {load : BitVec 64}
    {l1 l2 l3 : List Nat} (h1 : l1.Nodup) (h2 : l2.Nodup) (h3 : l3.Nodup) (n1 n2 n3 : Nat → List Byte)
    (a1 a2 a3 : Nat → BitVec 64) :
    (((l1.map (fun p => (⟨tp i .text p, n1 p, a1 p + load⟩ : Reg)) ++
      (l2.map (fun p => (⟨tp i .data p, n2 p, a2 p + load⟩ : Reg)) ++
        l3.map fun p => (⟨tp i .plt p, n3 p, a3 p + load⟩ : Reg))).map Reg.id)).Nodup := by
  have hm : ∀ (k : Kind) {l : List Nat}, l.Nodup → (l.map (tp i k)).Nodup := by
    intro k l hl
    exact List.pairwise_map.2 (hl.imp fun hne e => hne (ht.inj _ _ _ _ _ _ e).2.2)
  have hd : ∀ (k k' : Kind) (l l' : List Nat), k ≠ k' → ∀ x ∈ l.map (tp i k), ∀ y ∈ l'.map (tp i k'), x ≠ y := by
    intro k k' l l' hk x hx y hy e
    obtain ⟨p, _, rfl⟩ := List.mem_map.1 hx
    obtain ⟨q, _, rfl⟩ := List.mem_map.1 hy
    exact hk (ht.inj _ _ _ _ _ _ e).2.1
  have e : ∀ (k : Kind) (l : List Nat) (n : Nat → List Byte) (a : Nat → BitVec 64),
      (l.map (fun p => (⟨tp i k p, n p, a p + load⟩ : Reg))).map Reg.id = l.map (tp i k) := by
    intro k l n a
    rw [List.map_map]
    rfl
  rw [List.map_append, List.map_append, e, e, e, List.nodup_append, List.nodup_append]
  refine ⟨hm _ h1, ⟨hm _ h2, hm _ h3, hd _ _ _ _ (by decide)⟩, ?_⟩
  intro x hx y hy
  rcases List.mem_append.1 hy with hy | hy
  · exact hd .text .data _ _ (by decide) x hx y hy
  · exact hd .text .plt _ _ (by decide) x hx y hy

theorem src_ok {tp : Nat → Kind → Nat → Nat} (ht : TaskFresh tp) (i : Nat) {v : Src} (hv : Src.Fine v) :
    ∃ f m, v.open = some f ∧ f.mapping (tp i) = some m ∧ Good m.regs (places [v]) ∧
      (∀ r ∈ m.regs, ∃ k p, r.id = tp i k p) ∧ (m.regs.map Reg.id).Nodup := by
  obtain ⟨hm, hv⟩ := hv
  rw [Src.open]
  cases htab : v.tabs with
  | none =>
    refine ⟨_, _, rfl, rfl, ?_, ?_, ?_⟩
    · have : places [v] = [] := by simp [places, htab]
      rw [this]
      simpa [Sym.Mapping.regs] using Good.nil
    · simp [Sym.Mapping.regs]
    · simp [Sym.Mapping.regs]
  | some tabs =>
    obtain ⟨symtab, dynsym, synth⟩ := tabs
    obtain ⟨h1, h2, h3⟩ := hv symtab dynsym synth htab
    obtain ⟨f, e, h⟩ := fileLoad_ok hm h1 h2 h3
    have htbl : v.tbl = table symtab.list dynsym.list synth := by rw [Src.tbl, htab]
    have eo : bfdElfOpen v.mal true (.object symtab dynsym synth) = some (some f) := by rw [bfdElfOpen]; simpa using e
    rw [← htbl] at h
    simp only [eo, Option.bind_some]
    obtain ⟨a1, t1, k1⟩ := h .text
    obtain ⟨a2, t2, k2⟩ := h .data
    obtain ⟨a3, t3, k3⟩ := h .plt
    refine ⟨_, ⟨v.isElf, true, v.isUlpatch, v.load,
        (ids t1).map fun p => ⟨tp i .text p, (f .text).name p, bfdSymAddr (f .text) p⟩,
        (ids t2).map fun p => ⟨tp i .data p, (f .data).name p, bfdSymAddr (f .data) p⟩,
        (ids t3).map fun p => ⟨tp i .plt p, (f .plt).name p, bfdSymAddr (f .plt) p⟩⟩, rfl, ?_, ?_⟩
    · simp only [VmaFile.mapping, fileSyms, iter_ids k1.inv.tree, iter_ids k2.inv.tree, iter_ids k3.inv.tree,
        Option.bind_some]
    · rw [Sym.Mapping.regs]
      simp only
      by_cases hc : v.isElf = true ∧ v.isUlpatch = false
      · obtain ⟨c1, c2⟩ := hc
        have hp : places [v] = [(v, .text)] ++ ([(v, .data)] ++ [(v, .plt)]) := by
          simp [places, c1, c2, htab]
        rw [hp, if_pos ⟨c1, trivial, c2⟩]
        have hg := (Good.tab k1 (fun i => hm.zero i _) (tp i .text)).append
          ((Good.tab k2 (fun i => hm.zero i _) (tp i .data)).append (Good.tab k3 (fun i => hm.zero i _) (tp i .plt)))
        rw [List.map_append, List.map_append, List.map_map, List.map_map, List.map_map, List.append_assoc]
        refine ⟨hg, ?_, ?_⟩
        · intro r hr
          simp only [List.mem_append, List.mem_map] at hr
          rcases hr with ⟨p, _, rfl⟩ | ⟨p, _, rfl⟩ | ⟨p, _, rfl⟩
          · exact ⟨_, p, rfl⟩
          · exact ⟨_, p, rfl⟩
          · exact ⟨_, p, rfl⟩
        · exact mapping_regs_nodup ht i k1.inv.tree.nodup k2.inv.tree.nodup k3.inv.tree.nodup _ _ _ _ _ _
      · rw [if_neg (fun h => hc ⟨h.1, h.2.2⟩)]
        have hp : places [v] = [] := by
          rw [places, List.flatMap_cons, if_neg (fun h => hc ⟨h.1, h.2.2⟩)]
          rfl
        rw [hp]
        exact ⟨Good.nil, by simp, by simp⟩

theorem places_cons (v : Src) (vs : List Src) : places (v :: vs) = places [v] ++ places vs := by
  simp [places]

theorem srcs_ok {tp : Nat → Kind → Nat → Nat} (ht : TaskFresh tp) : ∀ {vs : List Src} (i : Nat),
    (∀ v ∈ vs, Src.Fine v) → ∃ fs ms, openAll vs = some fs ∧ mappings tp i fs = some ms ∧
      Good (ms.flatMap Mapping.regs) (places vs) ∧
      (∀ r ∈ ms.flatMap Mapping.regs, ∃ j k p, i ≤ j ∧ r.id = tp j k p) ∧
      ((ms.flatMap Mapping.regs).map Reg.id).Nodup
  | [], i, _ => ⟨[], [], rfl, rfl, Good.nil, by simp, by simp⟩
  | v :: vs, i, hv => by
    obtain ⟨f, m, e1, e2, hg, hi, hn⟩ := src_ok ht i (hv v (by simp))
    obtain ⟨fs, ms, e3, e4, hg', hi', hn'⟩ := srcs_ok ht (i + 1) (vs := vs) (fun x hx => hv x (by simp [hx]))
    refine ⟨f :: fs, m :: ms, by rw [openAll, e1, Option.bind_some, e3]; rfl,
      by rw [mappings, e2, Option.bind_some, e4]; rfl, ?_, ?_, ?_⟩
    · rw [List.flatMap_cons, places_cons]
      exact hg.append hg'
    · intro r hr
      rw [List.flatMap_cons] at hr
      rcases List.mem_append.1 hr with hr | hr
      · obtain ⟨k, p, e⟩ := hi r hr
        exact ⟨i, k, p, Nat.le_refl _, e⟩
      · obtain ⟨j, k, p, hj, e⟩ := hi' r hr
        exact ⟨j, k, p, by omega, e⟩
    · rw [List.flatMap_cons, List.map_append, List.nodup_append]
      refine ⟨hn, hn', ?_⟩
      intro x hx y hy e
      obtain ⟨r, hr, rfl⟩ := List.mem_map.1 hx
      obtain ⟨q, hq, rfl⟩ := List.mem_map.1 hy
      obtain ⟨k, p, e1⟩ := hi r hr
      obtain ⟨j, k', p', hj, e2⟩ := hi' q hq
      rw [e1, e2] at e
      have := (ht.inj _ _ _ _ _ _ e).1
      omega

/-- **C77.**  For every process and all the symbol tables of the files mapped in it
(that libbfd can read, with names short enough): opening the files and loading their
symbols succeeds, and then a name is found exactly if one of the files has it — with
the address of the first symbol of this name in its file plus the load address of
the first file that has it, where in each file code comes before data before PLT
entries, and patches and files that are not ELF do not count. -/
theorem C77_find_partial (info : Nat → Info) {tp : Nat → Kind → Nat → Nat} (ht : TaskFresh tp) {vs : List Src}
    (hv : ∀ v ∈ vs, Src.Fine v) :
    ∃ fs ms st, openAll vs = some fs ∧ mappings tp 0 fs = some ms ∧ loadAll (initSyms info) ms = some st ∧ ∀ n,
      (∀ v k s, First (Has n) (places vs) (v, k) → First (Named k n) v.tbl s →
        ∃ p extras, findTaskSym st n = some (p, extras) ∧ p ≠ 0 ∧ st.info p = ⟨n, s.value + v.load⟩) ∧
      ((∀ pl ∈ places vs, ¬ Has n pl) → findTaskSym st n = some (0, [])) := by
  obtain ⟨fs, ms, e1, e2, hg, hi, hn⟩ := srcs_ok ht 0 hv
  have h0 : ∀ r ∈ ms.flatMap Mapping.regs, r.id ≠ 0 := by
    intro r hr
    obtain ⟨j, k, p, _, e⟩ := hi r hr
    rw [e]
    exact ht.zero _ _ _
  obtain ⟨st, e3, h⟩ := Sym.C51_load_symbols info h0 hn
  refine ⟨fs, ms, st, e1, e2, e3, ?_⟩
  intro n
  have hq := h n
  constructor
  · intro v k s hf hs
    obtain ⟨r, er, ea⟩ := (hg n).1 (v, k) s hf hs
    rw [er] at hq
    obtain ⟨extras, h1, h2⟩ := hq
    refine ⟨r.id, extras, h1, h0 r (List.mem_of_find?_eq_some er), ?_⟩
    rw [h2, ea]
  · intro hno
    rw [(hg n).2 hno] at hq
    exact hq

/-! Examples. -/

def kindNo : Kind → Nat
  | .text => 1
  | .plt => 2
  | .data => 3

/-- A different pointer for each mapping, kind and symbol. -/
def exTp (i : Nat) (k : Kind) (p : Nat) : Nat := 2 ^ i * (2 * (4 * p + kindNo k) + 1)

theorem twos_inj : ∀ (i j : Nat) {a b : Nat}, 2 ^ i * (2 * a + 1) = 2 ^ j * (2 * b + 1) → i = j ∧ a = b
  | 0, 0, a, b, h => ⟨rfl, by omega⟩
  | 0, j + 1, a, b, h => by
    rw [Nat.pow_succ, Nat.mul_comm (2 ^ j) 2, Nat.mul_assoc] at h
    omega
  | i + 1, 0, a, b, h => by
    rw [Nat.pow_succ, Nat.mul_comm (2 ^ i) 2, Nat.mul_assoc] at h
    omega
  | i + 1, j + 1, a, b, h => by
    rw [Nat.pow_succ, Nat.pow_succ, Nat.mul_comm (2 ^ i) 2, Nat.mul_comm (2 ^ j) 2, Nat.mul_assoc, Nat.mul_assoc] at h
    obtain ⟨h1, h2⟩ := twos_inj i j (a := a) (b := b) (by omega)
    exact ⟨by omega, h2⟩

theorem exTp_fresh : TaskFresh exTp := by
  refine ⟨?_, ?_⟩
  · intro i k p
    have := Nat.two_pow_pos i
    exact Nat.mul_ne_zero (by omega) (by omega)
  · intro i k p i' k' p' h
    obtain ⟨h1, h2⟩ := twos_inj i i' h
    refine ⟨h1, ?_⟩
    cases k <;> cases k' <;> simp only [kindNo, reduceCtorEq, true_and, false_and] at h2 ⊢ <;> omega

/-- A program that imports `f` and defines `main`. -/
def exProg : Src :=
  ⟨true, false, 0x400000#64, some (.syms [sym "main" 0x1100#64 true false ".text"], .absent,
    [sym "f@plt" 0x1030#64 true false ".plt"]), exMal⟩

/-- A library that defines `f` and `g`. -/
def exLib : Src :=
  ⟨true, false, 0x7f0000000000#64, some (.syms [sym "f" 0x2000#64 true false ".text",
    sym "g" 0x3000#64 true false ".text"], .absent, []), exMal⟩

theorem exProg_tbl : exProg.tbl = [sym "main" 0x1100#64 true false ".text", sym "f@plt" 0x1030#64 true false ".plt"] := by
  simp only [Src.tbl, exProg]
  rw [table_eq]
  decide +kernel

theorem exLib_tbl : exLib.tbl = [sym "f" 0x2000#64 true false ".text", sym "g" 0x3000#64 true false ".text"] := by
  simp only [Src.tbl, exLib]
  rw [table_eq]
  decide +kernel

theorem fine_of {v : Src} {a b : Slurp} {c : List ASym} (hm : Fresh v.mal) (h : v.tabs = some (a, b, c))
    (h1 : Readable a) (h2 : Readable b) (h3 : ∀ s ∈ v.tbl, Short s) : Src.Fine v := by
  refine ⟨hm, ?_⟩
  intro x y z e
  rw [h] at e
  cases e
  rw [Src.tbl, h] at h3
  exact ⟨h1, h2, h3⟩

theorem exFine : ∀ v ∈ [exProg, exLib], Src.Fine v := by
  intro v hv
  simp only [List.mem_cons, List.not_mem_nil, or_false] at hv
  rcases hv with rfl | rfl
  · exact fine_of exMal_fresh rfl (by simp [Readable]) (by simp [Readable]) (by rw [exProg_tbl]; decide +kernel)
  · exact fine_of exMal_fresh rfl (by simp [Readable]) (by simp [Readable]) (by rw [exLib_tbl]; decide +kernel)

theorem exPlaces : places [exProg, exLib] = [(exProg, .text), (exProg, .data), (exProg, .plt), (exLib, .text),
    (exLib, .data), (exLib, .plt)] := by
  simp [places, exProg, exLib]

/-- The full claim, that a function is found at the address where it is, fails for
every function a program calls from a library: what is found is the PLT entry of the
program, which is code too and comes first.  (A function that the program does not
call is found.) -/
theorem C77_violated (info : Nat → Info) : ∃ fs ms st, openAll [exProg, exLib] = some fs ∧
    mappings exTp 0 fs = some ms ∧ loadAll (initSyms info) ms = some st ∧
    (∃ p extras, findTaskSym st (lit "f") = some (p, extras) ∧ st.info p = ⟨lit "f", 0x401030#64⟩) ∧
    ∃ p extras, findTaskSym st (lit "g") = some (p, extras) ∧ st.info p = ⟨lit "g", 0x7f0000003000#64⟩ := by
  obtain ⟨fs, ms, st, e1, e2, e3, h⟩ := C77_find_partial info exTp_fresh exFine
  refine ⟨fs, ms, st, e1, e2, e3, ?_, ?_⟩
  · obtain ⟨p, x, h1, _, h2⟩ := (h (lit "f")).1 exProg .text (sym "f@plt" 0x1030#64 true false ".plt")
      ⟨[], _, by rw [exPlaces]; rfl,
        ⟨sym "f@plt" 0x1030#64 true false ".plt", by rw [exProg_tbl]; decide +kernel, by decide +kernel⟩, by simp⟩
      ⟨[sym "main" 0x1100#64 true false ".text"], [], by rw [exProg_tbl]; rfl, by decide +kernel, by decide +kernel⟩
    exact ⟨p, x, h1, h2⟩
  · have hno : ∀ k, ¬ Has (lit "g") (exProg, k) := by
      rintro k ⟨s, hs, hn⟩
      rw [exProg_tbl] at hs
      have : ∀ k, ∀ s ∈ [sym "main" 0x1100#64 true false ".text", sym "f@plt" 0x1030#64 true false ".plt"],
          ¬ Named k (lit "g") s := by
        intro k
        cases k <;> decide +kernel
      exact this k s hs hn
    have hF : ∀ x ∈ [(exProg, Kind.text), (exProg, .data), (exProg, .plt)], ¬ Has (lit "g") x := by
      intro x hx
      simp only [List.mem_cons, List.not_mem_nil, or_false] at hx
      rcases hx with rfl | rfl | rfl <;> exact hno _
    obtain ⟨p, x, h1, _, h2⟩ := (h (lit "g")).1 exLib .text (sym "g" 0x3000#64 true false ".text")
      ⟨[(exProg, .text), (exProg, .data), (exProg, .plt)], _, by rw [exPlaces]; rfl,
        ⟨sym "g" 0x3000#64 true false ".text", by rw [exLib_tbl]; decide +kernel, by decide +kernel⟩, hF⟩
      ⟨[sym "f" 0x2000#64 true false ".text"], [], by rw [exLib_tbl]; rfl, by decide +kernel, by decide +kernel⟩
    exact ⟨p, x, h1, h2⟩

end Ulp.Bfd
