/-
C74, C75, C76, C78: the symbols of an ELF file (src/elf/symbol-bfd.c).
-/
import Verif.Proof.BfdSym
namespace Ulp.Bfd
open BfdSpec Dict
open Load (lit)
open Rb.Tree (ids)

/-- What `malloc` returns: never NULL, and never the same twice for one tree (nothing
is freed before `bfd_elf_close`). -/
structure Fresh (mal : Nat → Kind → Nat) : Prop where
  zero : ∀ i k, mal i k ≠ 0
  inj : ∀ k i j, mal i k = mal j k → i = j

theorem readable_count {t : Slurp} (h : Readable t) : t.count = t.list.length := by
  cases t with
  | absent => rfl
  | bad => exact absurd rfl h
  | syms l => rfl

theorem table_eq (a b c : List ASym) :
    table a b c = (if a ≠ [] then removeUseless a else removeUseless b) ++ c := by
  rw [table]
  have h : ∀ l : List ASym, removeUseless l = l.filter (fun s => @decide (Counts s) (Classical.propDecidable _)) := by
    intro l
    rw [removeUseless]
    apply List.filter_congr
    intro x _
    rw [Bool.eq_iff_iff, keep_iff]
    simp
  rw [h, h]
  congr 1
  split <;> rfl

theorem fileLoad_eq (mal : Nat → Kind → Nat) {symtab dynsym : Slurp} {synth : List ASym} (h1 : Readable symtab)
    (h2 : Readable dynsym) : fileLoad mal (.object symtab dynsym synth) =
      (loadSyms mal (fun _ => Tab.init) 0 (table symtab.list dynsym.list synth)).bind fun f => some (some f) := by
  rw [fileLoad, table_eq]
  simp only [readable_count h1, readable_count h2]
  rw [if_neg (by split <;> omega)]
  by_cases ha : symtab.list = []
  · rw [ha]
    by_cases hb : dynsym.list = []
    · simp [hb, removeUseless]
    · have : (dynsym.list.length : Int) ≠ 0 := by
        have := List.length_pos_iff.2 hb
        omega
      simp [hb]
  · have : (symtab.list.length : Int) ≠ 0 := by
      have := List.length_pos_iff.2 ha
      omega
    simp [ha]

theorem fileLoad_ok {mal : Nat → Kind → Nat} (hm : Fresh mal) {symtab dynsym : Slurp} {synth : List ASym}
    (h1 : Readable symtab) (h2 : Readable dynsym) (hs : ∀ s ∈ table symtab.list dynsym.list synth, Short s) :
    ∃ f, fileLoad mal (.object symtab dynsym synth) = some (some f) ∧
      FileOK mal f (table symtab.list dynsym.list synth) := by
  rw [fileLoad_eq mal h1 h2]
  obtain ⟨f, e, h⟩ := loadSyms_ok hm.zero hm.inj (l := table symtab.list dynsym.list synth) (f := fun _ => Tab.init)
    (done := []) hs (fun k => ⟨_, _, TabOK.init k _⟩)
  refine ⟨f, ?_, by simpa using h⟩
  rw [show loadSyms mal (fun _ => Tab.init) 0 _ = some f from e]
  rfl

theorem TabOK.find {k : Kind} {mal : Nat → Nat} {t : Tab} {done : List ASym} {a : Abs (List Byte)} {tr : Rb.Tree}
    (h : TabOK k mal t done a tr) (n : List Byte) : findBfdSym t n = some (a.dict n) :=
  h.inv.find strcmp_ordered n

/-! ### C74 -/

/-- **C74.**  For every ELF file whose symbol tables libbfd can read and whose
names are short enough, opening it succeeds, and looking up any name as code, as
PLT entry or as data gives the address of the first symbol of that kind that has
this name up to an `@`, and 0 exactly if the file has none. -/
theorem C74_lookup_partial {mal : Nat → Kind → Nat} (hm : Fresh mal) {symtab dynsym : Slurp} {synth : List ASym}
    (h1 : Readable symtab) (h2 : Readable dynsym) (hs : ∀ s ∈ table symtab.list dynsym.list synth, Short s) :
    ∃ f, bfdElfOpen mal true (.object symtab dynsym synth) = some (some f) ∧ ∀ k n,
      (∀ s, First (Named k n) (table symtab.list dynsym.list synth) s → symAddr f k n = some s.value) ∧
      ((∀ s ∈ table symtab.list dynsym.list synth, ¬ Named k n s) → symAddr f k n = some 0) := by
  obtain ⟨f, e, h⟩ := fileLoad_ok hm h1 h2 hs
  refine ⟨f, by rw [bfdElfOpen]; simpa using e, ?_⟩
  intro k n
  obtain ⟨a, tr, h⟩ := h k
  constructor
  · rintro s ⟨u, v, e, hn, hu⟩
    obtain ⟨h3, h4⟩ := h.hit n u s v e hn hu
    rw [symAddr, h.find, Option.bind_some, bfdSymAddr, h3, if_pos (hm.zero _ _), h4]
  · intro hn
    rw [symAddr, h.find, Option.bind_some, h.miss n hn, bfdSymAddr, if_neg (by simp)]

theorem first_of_mem {α : Type} {P : α → Prop} : ∀ {l : List α} {x : α}, x ∈ l → P x → ∃ y, First P l y
  | z :: l, x, hx, hp => by
    by_cases hz : P z
    · exact ⟨z, [], l, rfl, hz, by simp⟩
    · have : x ∈ l := by
        rcases List.mem_cons.1 hx with rfl | h
        · exact absurd hp hz
        · exact h
      obtain ⟨y, a, b, e, h1, h2⟩ := first_of_mem this hp
      refine ⟨y, z :: a, b, by rw [e]; rfl, h1, ?_⟩
      intro w hw
      rcases List.mem_cons.1 hw with rfl | h
      · exact hz
      · exact h2 w h

/-- **C74.**  If all symbols of the kind and name that a file has are at one
address, the lookup gives that address. -/
theorem C74_unique_partial {mal : Nat → Kind → Nat} (hm : Fresh mal) {symtab dynsym : Slurp} {synth : List ASym}
    (h1 : Readable symtab) (h2 : Readable dynsym) (hs : ∀ s ∈ table symtab.list dynsym.list synth, Short s)
    {k : Kind} {n : List Byte} {s : ASym} (hs1 : s ∈ table symtab.list dynsym.list synth) (hs2 : Named k n s)
    (hu : ∀ x ∈ table symtab.list dynsym.list synth, Named k n x → x.value = s.value) :
    ∃ f, bfdElfOpen mal true (.object symtab dynsym synth) = some (some f) ∧ symAddr f k n = some s.value := by
  obtain ⟨f, e, h⟩ := C74_lookup_partial hm h1 h2 hs
  refine ⟨f, e, ?_⟩
  obtain ⟨y, hy⟩ := first_of_mem hs1 hs2
  rw [(h k n).1 y hy]
  obtain ⟨u, v, e, hn, _⟩ := hy
  rw [hu y (by rw [e]; simp) hn]

theorem loadSyms_none {mal : Nat → Kind → Nat} {s : ASym} (h : ∀ f p, loadSym f p s = none) :
    ∀ {l : List ASym} {f : BFile} {i : Nat}, s ∈ l → loadSyms mal f i l = none
  | x :: l, f, i, hs => by
    rw [loadSyms]
    rcases List.mem_cons.1 hs with rfl | hs
    · rw [h]; rfl
    · cases loadSym f (mal i) x with
      | none => rfl
      | some f => exact loadSyms_none h hs

/-- A symbol whose name has exactly 256 bytes before an `@`: opening the file
writes a byte behind the 256 bytes of `buf`, whatever the rest of the file. -/
theorem C74_overflow (mal : Nat → Kind → Nat) {symtab dynsym : Slurp} {synth : List ASym}
    (h1 : Readable symtab) (h2 : Readable dynsym) {s : ASym} (hs : s ∈ table symtab.list dynsym.list synth)
    {n : List Byte} (hn : s.name = some n) (hat : 0x40#8 ∈ n) (hl : (base n).length = 256) :
    bfdElfOpen mal true (.object symtab dynsym synth) = none := by
  rw [bfdElfOpen, if_neg (by simp), fileLoad_eq mal h1 h2, loadSyms_none ?_ hs]
  · rfl
  intro f p
  rw [loadSym, hn, Option.bind_some, pureName_eq, if_pos (by simpa using hat), if_neg (by omega), if_neg (by omega)]
  rfl

/-- A symbol of code whose name has more than 256 bytes before an `@` (mangled C++
names do): opening the file calls `strdup(NULL)`. -/
theorem C74_null_name (mal : Nat → Kind → Nat) {symtab dynsym : Slurp} {synth : List ASym}
    (h1 : Readable symtab) (h2 : Readable dynsym) {s : ASym} (hs : s ∈ table symtab.list dynsym.list synth)
    {n : List Byte} (hn : s.name = some n) (hat : 0x40#8 ∈ n) (hl : (base n).length > 256) (hk : OfKind s .text) :
    bfdElfOpen mal true (.object symtab dynsym synth) = none := by
  rw [bfdElfOpen, if_neg (by simp), fileLoad_eq mal h1 h2, loadSyms_none ?_ hs]
  · rfl
  intro f p
  rw [loadSym, hn, Option.bind_some, pureName_eq, if_pos (by simpa using hat), if_pos hl, Option.bind_some]
  have ht : ∀ f : BFile, addSym f .text (p .text) s n none = none := by
    intro f
    rw [addSym, if_pos ((isKind_iff hn _).2 hk)]
    rfl
  cases addSym f .plt (p .plt) s n none with
  | none => rfl
  | some f => rw [Option.bind_some, ht]; rfl

/-- Files that cannot be opened: what is not there, an archive and what is no object
file are refused; a file that libbfd cannot open, and a symbol table it cannot read,
are undefined behaviour. -/
theorem C74_refused (mal : Nat → Kind → Nat) (found : Found) (dynsym : Slurp) (synth : List ASym) :
    bfdElfOpen mal false found = some none ∧ bfdElfOpen mal true .archive = some none ∧
    bfdElfOpen mal true .notObject = some none ∧ bfdElfOpen mal true .noBfd = none ∧
    bfdElfOpen mal true (.object .bad dynsym synth) = none := by
  refine ⟨rfl, rfl, rfl, rfl, rfl⟩

/-! Examples. -/

/-- A pointer for each symbol and tree. -/
def exMal (i : Nat) : Kind → Nat
  | .text => 48 * (i + 1)
  | .plt => 48 * (i + 1) + 16
  | .data => 48 * (i + 1) + 32

theorem exMal_fresh : Fresh exMal := by
  refine ⟨?_, ?_⟩
  · intro i k; cases k <;> simp [exMal]
  · intro k i j; cases k <;> simp only [exMal] <;> omega

def sym (n : String) (v : BitVec 64) (code data : Bool) (sect : String) : ASym :=
  ⟨some (lit n), v, false, false, false, false, code, data, lit sect⟩

/-- A function in two versions, a variable, an imported function, and its PLT
entry. -/
def exSyms : List ASym :=
  [sym "memcpy@GLIBC_2.2.5" 0x1000#64 true false ".text", sym "memcpy@@GLIBC_2.14" 0x2000#64 true false ".text",
    sym "errno" 0x3000#64 false true ".tbss", ⟨some (lit "puts"), 0#64, false, false, true, false, false, false, []⟩]

def exSynth : List ASym := [sym "puts@plt" 0x500#64 true false ".plt"]

theorem exTable : table exSyms [] exSynth = exSyms.take 3 ++ exSynth := by
  rw [table_eq]
  decide +kernel

theorem short_iff (s : ASym) :
    Short s ↔ s.name.any (fun n => !n.contains 0x40#8 || decide ((base n).length < 256)) = true := by
  rw [Short]
  cases s.name with
  | none => simp
  | some n =>
    simp only [Option.any_some, Bool.or_eq_true, decide_eq_true_eq, Option.some.injEq, exists_eq_left']
    by_cases h : 0x40#8 ∈ n <;> simp [h]

theorem named_iff (k : Kind) (n : List Byte) (s : ASym) :
    Named k n s ↔ s.name.any (fun m => isKind s m k && decide (base m = n)) = true := by
  rw [Named]
  cases hn : s.name with
  | none => simp
  | some m => simp [isKind_iff hn]

instance (s : ASym) : Decidable (Short s) := decidable_of_iff _ (short_iff s).symm
instance (k : Kind) (n : List Byte) (s : ASym) : Decidable (Named k n s) := decidable_of_iff _ (named_iff k n s).symm

theorem exShort : ∀ s ∈ table exSyms [] exSynth, Short s := by
  rw [exTable]
  decide +kernel

example : Readable (.syms exSyms) ∧ Readable .absent ∧
    First (Named .data (lit "errno")) (table exSyms [] exSynth) (sym "errno" 0x3000#64 false true ".tbss") := by
  refine ⟨by simp [Readable], by simp [Readable], ?_⟩
  rw [exTable]
  exact ⟨exSyms.take 2, exSynth, rfl, by decide +kernel, by decide +kernel⟩

/-- The full claim: a name that a function has is looked up as the address of this
function.  It fails for the two versions of a function in one library: the name of
the default version gives the address of the old one, and neither full name is
found; the PLT entry of an imported function is found as code under its name. -/
theorem C74_violated : ∃ f, bfdElfOpen exMal true (.object (.syms exSyms) .absent exSynth) = some (some f) ∧
    sym "memcpy@@GLIBC_2.14" 0x2000#64 true false ".text" ∈ exSyms ∧
    symAddr f .text (lit "memcpy") = some 0x1000#64 ∧
    symAddr f .text (lit "memcpy@@GLIBC_2.14") = some 0 ∧ symAddr f .text (lit "memcpy@GLIBC_2.2.5") = some 0 ∧
    symAddr f .text (lit "puts") = some 0x500#64 := by
  obtain ⟨f, e, h⟩ := C74_lookup_partial exMal_fresh (symtab := .syms exSyms) (dynsym := .absent) (synth := exSynth)
    (by simp [Readable]) (by simp [Readable]) exShort
  rw [show Slurp.list (.syms exSyms) = exSyms from rfl, show Slurp.list .absent = [] from rfl, exTable] at h
  refine ⟨f, e, by decide +kernel, ?_, ?_, ?_, ?_⟩
  · exact (h .text (lit "memcpy")).1 _ ⟨[], (exSyms.take 3).drop 1 ++ exSynth, rfl, by decide +kernel, by simp⟩
  · exact (h .text _).2 (by decide +kernel)
  · exact (h .text _).2 (by decide +kernel)
  · exact (h .text _).1 _ ⟨exSyms.take 3, [], rfl, by decide +kernel, by decide +kernel⟩

/-- A symbol whose name has 256 bytes before an `@`. -/
def longSym (n : Nat) : ASym :=
  ⟨some (List.replicate n 0x61#8 ++ lit "@V1"), 0x10#64, false, false, false, false, true, false, lit ".text"⟩

example : longSym 256 ∈ table [longSym 256] [] [] ∧ longSym 300 ∈ table [longSym 300] [] [] := by
  rw [table_eq, table_eq]
  decide +kernel

example : ∃ n, (longSym 256).name = some n ∧ 0x40#8 ∈ n ∧ (base n).length = 256 := ⟨_, rfl, by decide +kernel⟩

example : OfKind (longSym 300) .text ∧ ∃ n, (longSym 300).name = some n ∧ 0x40#8 ∈ n ∧ (base n).length > 256 :=
  ⟨Or.inl rfl, _, rfl, by decide +kernel⟩

/-! ### C75 -/

theorem iter_ok {t : Tab} {tr : Rb.Tree} (h : Rb.IsTree t.s tr) : ∀ (l a : List Nat), a ++ l = ids tr →
    (a = [] ∧ iter t 0 a = some (a ++ l)) ∨ ∃ a' x, a = a' ++ [x] ∧ iter t x a = some (a ++ l) := by
  have hz := h.rep.ne_zero
  intro l
  induction l with
  | nil =>
    intro a ha
    rw [List.append_nil] at ha
    rcases List.eq_nil_or_concat a with rfl | ⟨a', x, rfl⟩
    · refine Or.inl ⟨rfl, ?_⟩
      rw [iter, nextBfdSym, if_neg (by simp), Rb.rbFirst_ok h, ← ha]
      rfl
    · rw [List.concat_eq_append] at ha ⊢
      refine Or.inr ⟨a', x, rfl, ?_⟩
      rw [iter, nextBfdSym, if_pos (hz x (by rw [← ha]; simp)), Rb.rbNext_seq h (a := a') (b := []) ha.symm]
      simp [Rb.hd]
  | cons y l ih =>
    intro a ha
    have hy := hz y (by rw [← ha]; simp)
    have hi : iter t y (a ++ [y]) = some (a ++ y :: l) := by
      rcases ih (a ++ [y]) (by simpa using ha) with ⟨h1, _⟩ | ⟨a', x, h1, h2⟩
      · simp at h1
      · obtain ⟨_, h3⟩ := List.append_inj' h1 rfl
        simp at h3
        rw [h3] at h2 ⊢
        simpa using h2
    rcases List.eq_nil_or_concat a with rfl | ⟨a', x, rfl⟩
    · refine Or.inl ⟨rfl, ?_⟩
      rw [iter, nextBfdSym, if_neg (by simp), Rb.rbFirst_ok h, ← ha]
      simp only [List.nil_append, Rb.hd, Option.bind_eq_bind, Option.bind_some]
      rw [if_neg hy]
      simpa using hi
    · rw [List.concat_eq_append] at ha hi ⊢
      refine Or.inr ⟨a', x, rfl, ?_⟩
      rw [iter, nextBfdSym, if_pos (hz x (by rw [← ha]; simp)),
        Rb.rbNext_seq h (a := a') (n := x) (b := y :: l) (by rw [← ha]; simp)]
      simp only [Rb.hd, Option.bind_eq_bind, Option.bind_some]
      rw [if_neg hy]
      exact hi

theorem iter_ids {t : Tab} {tr : Rb.Tree} (h : Rb.IsTree t.s tr) : iter t 0 [] = some (ids tr) := by
  rcases iter_ok h (ids tr) [] rfl with ⟨_, h⟩ | ⟨a', x, h, _⟩
  · exact h
  · simp at h

theorem first_inj {α : Type} {P : α → Prop} {l : List α} {x y : α} (hx : First P l x) (hy : First P l y) : x = y := by
  obtain ⟨a, b, e, h1, h2⟩ := hx
  obtain ⟨c, d, e', h3, h4⟩ := hy
  rw [e] at e'
  induction a generalizing c l with
  | nil =>
    cases c with
    | nil => exact (List.cons.inj e').1
    | cons z c =>
      simp only [List.nil_append, List.cons_append, List.cons.injEq] at e'
      exact absurd h1 (h4 x (by rw [e'.1]; simp))
  | cons z a ih =>
    cases c with
    | nil =>
      simp only [List.nil_append, List.cons_append, List.cons.injEq] at e'
      exact absurd h3 (h2 y (by rw [e'.1]; simp))
    | cons w c =>
      simp only [List.cons_append, List.cons.injEq] at e'
      exact ih (l := a ++ x :: b) rfl (fun q hq => h2 q (by simp [hq])) c e'.2 (fun q hq => h4 q (by simp [hq]))

theorem TabOK.walk {k : Kind} {mal : Nat → Nat} {t : Tab} {done : List ASym} {a : Abs (List Byte)} {tr : Rb.Tree}
    (h : TabOK k mal t done a tr) (hz : ∀ i, mal i ≠ 0) (n : List Byte) (v : BitVec 64) :
    (n, v) ∈ (ids tr).map (fun p => (t.name p, bfdSymAddr t p)) ↔ ∃ s, First (Named k n) done s ∧ s.value = v := by
  rw [List.mem_map]
  constructor
  · rintro ⟨p, hp, e⟩
    have hp0 := h.inv.tree.rep.ne_zero p hp
    simp only [Prod.mk.injEq] at e
    obtain ⟨rfl, rfl⟩ := e
    have hd := h.inv.mem hp
    by_cases hx : ∃ s ∈ done, Named k (t.name p) s
    · obtain ⟨s, hs, hn⟩ := hx
      obtain ⟨y, hy⟩ := first_of_mem hs hn
      refine ⟨y, hy, ?_⟩
      obtain ⟨u, w, e, h1, h2⟩ := hy
      obtain ⟨h3, h4⟩ := h.hit _ u y w e h1 h2
      have : mal u.length = p := h3.symm.trans hd
      rw [bfdSymAddr, if_pos hp0, ← this, h4]
    · have := h.miss (t.name p) (fun s hs hn => hx ⟨s, hs, hn⟩)
      exact absurd (hd.symm.trans this) hp0
  · rintro ⟨s, ⟨u, w, e, h1, h2⟩, rfl⟩
    obtain ⟨h3, h4⟩ := h.hit _ u s w e h1 h2
    obtain ⟨h5, h6⟩ := (h.inv.dict n (mal u.length) (hz _)).1 h3
    exact ⟨_, h5, by rw [show t.name (mal u.length) = n from h6, bfdSymAddr, if_pos (hz _), h4]⟩

/-- **C75.**  Going through the symbols of one kind of an opened file ends, meets
each name that a symbol of this kind has exactly once, in the (decreasing) order of
`strcmp`, and with it the address that the lookup of this name gives. -/
theorem C75_iterate_partial {mal : Nat → Kind → Nat} (hm : Fresh mal) {symtab dynsym : Slurp} {synth : List ASym}
    (h1 : Readable symtab) (h2 : Readable dynsym) (hs : ∀ s ∈ table symtab.list dynsym.list synth, Short s) :
    ∃ f, bfdElfOpen mal true (.object symtab dynsym synth) = some (some f) ∧ ∀ k, ∃ l,
      iter (f k) 0 [] = some l ∧ (l.map (f k).name).Pairwise (fun x y => Sym.strcmp x y > 0) ∧
      (∀ n v, (n, v) ∈ l.map (fun p => ((f k).name p, bfdSymAddr (f k) p)) ↔
        (∃ s ∈ table symtab.list dynsym.list synth, Named k n s) ∧ symAddr f k n = some v) := by
  obtain ⟨f, e, h⟩ := fileLoad_ok hm h1 h2 hs
  obtain ⟨f', e', hl⟩ := C74_lookup_partial hm h1 h2 hs
  have e2 : bfdElfOpen mal true (.object symtab dynsym synth) = some (some f) := by rw [bfdElfOpen]; simpa using e
  rw [e2] at e'
  cases e'
  refine ⟨f, e2, ?_⟩
  intro k
  obtain ⟨a, tr, h⟩ := h k
  refine ⟨ids tr, iter_ids h.inv.tree, ?_, ?_⟩
  · rw [List.pairwise_map]
    exact h.inv.sorted
  · intro n v
    rw [h.walk (fun i => hm.zero i k)]
    constructor
    · rintro ⟨s, hf, rfl⟩
      refine ⟨?_, (hl k n).1 s hf⟩
      obtain ⟨u, w, e, h1, _⟩ := hf
      exact ⟨s, by rw [e]; simp, h1⟩
    · rintro ⟨⟨s, hs, hn⟩, hv⟩
      obtain ⟨y, hy⟩ := first_of_mem hs hn
      rw [(hl k n).1 y hy] at hv
      exact ⟨y, hy, Option.some.inj hv⟩

/-! ### C76 -/

/-- **C76.**  Closing a file never touches freed memory and frees no symbol twice; a
symbol's structure is freed exactly if no earlier symbol of the kind has its name —
and stays allocated otherwise. -/
theorem C76_close_partial {mal : Nat → Kind → Nat} (hm : Fresh mal) {symtab dynsym : Slurp} {synth : List ASym}
    (h1 : Readable symtab) (h2 : Readable dynsym) (hs : ∀ s ∈ table symtab.list dynsym.list synth, Short s) :
    ∃ f r, bfdElfOpen mal true (.object symtab dynsym synth) = some (some f) ∧ bfdElfClose f = some r ∧ ∀ k,
      (r k).2.Nodup ∧ ∀ u s v n, table symtab.list dynsym.list synth = u ++ s :: v → Named k n s →
        (f k).s.m (mal u.length k) ≠ none ∧
        ((∀ x ∈ u, ¬ Named k n x) → mal u.length k ∈ (r k).2 ∧ (r k).1.m (mal u.length k) = none) ∧
        ((∃ x ∈ u, Named k n x) → mal u.length k ∉ (r k).2 ∧ (r k).1.m (mal u.length k) ≠ none) := by
  obtain ⟨f, e, h⟩ := fileLoad_ok hm h1 h2 hs
  have key : ∀ k, ∃ q, Rb.rbDestroy (f k).s = some q ∧ q.2.Nodup ∧ ∀ u s v n,
      table symtab.list dynsym.list synth = u ++ s :: v → Named k n s →
        (f k).s.m (mal u.length k) ≠ none ∧
        ((∀ x ∈ u, ¬ Named k n x) → mal u.length k ∈ q.2 ∧ q.1.m (mal u.length k) = none) ∧
        ((∃ x ∈ u, Named k n x) → mal u.length k ∉ q.2 ∧ q.1.m (mal u.length k) ≠ none) := by
    intro k
    obtain ⟨a, tr, h⟩ := h k
    obtain ⟨s', e', hd, _⟩ := Rb.rbDestroy_ok h.inv.tree
    refine ⟨_, e', h.inv.tree.nodup, ?_⟩
    intro u s v n et hn
    have hal := h.alloc u.length s (by rw [et]; simp) hn.1
    refine ⟨hal, ?_, ?_⟩
    · intro hu
      obtain ⟨h3, _⟩ := h.hit n u s v et hn hu
      have h5 := ((h.inv.dict n (mal u.length k) (hm.zero _ _)).1 h3).1
      exact ⟨h5, by rw [hd, if_pos h5]⟩
    · rintro ⟨x, hx, hxn⟩
      have hnot : mal u.length k ∉ ids tr := by
        intro hin
        have hmem := h.inv.mem hin
        generalize hy : (f k).name (mal u.length k) = m at hmem
        simp only at hmem
        rw [hy] at hmem
        by_cases hq : ∃ z ∈ table symtab.list dynsym.list synth, Named k m z
        · obtain ⟨z, hz, hzn⟩ := hq
          obtain ⟨w, c, d, ew, h6, h7⟩ := first_of_mem hz hzn
          obtain ⟨h8, _⟩ := h.hit m c w d ew h6 h7
          have hc := hm.inj k _ _ (h8.symm.trans hmem)
          have : c = u ∧ w :: d = s :: v := List.append_inj (ew.symm.trans et) hc
          obtain ⟨rfl, h9⟩ := this
          cases h9
          have hmn : m = n := Option.some.inj (h6.2.symm.trans hn.2)
          exact h7 x hx (hmn ▸ hxn)
        · exact hm.zero u.length k (hmem.symm.trans (h.miss m fun z hz hzn => hq ⟨z, hz, hzn⟩))
      exact ⟨hnot, by rw [hd, if_neg hnot]; exact hal⟩
  obtain ⟨qt, et, ht⟩ := key .text
  obtain ⟨qp, ep, hp⟩ := key .plt
  obtain ⟨qd, ed, hd⟩ := key .data
  refine ⟨f, _, by rw [bfdElfOpen]; simpa using e, by rw [bfdElfClose, et, Option.bind_some, ep, Option.bind_some, ed]; rfl, ?_⟩
  intro k
  cases k with
  | text => exact ht
  | plt => exact hp
  | data => exact hd

/-- The full claim, that closing frees all that opening allocated, fails for every
file with two symbols of one kind and name: the second is never freed. -/
theorem C76_leak : ∃ f r, bfdElfOpen exMal true (.object (.syms exSyms) .absent exSynth) = some (some f) ∧
    bfdElfClose f = some r ∧ (f .text).s.m (exMal 1 .text) ≠ none ∧ (r .text).1.m (exMal 1 .text) ≠ none := by
  obtain ⟨f, r, e, e', h⟩ := C76_close_partial exMal_fresh (symtab := .syms exSyms) (dynsym := .absent) (synth := exSynth)
    (by simp [Readable]) (by simp [Readable]) exShort
  rw [show Slurp.list (.syms exSyms) = exSyms from rfl, show Slurp.list .absent = [] from rfl, exTable] at h
  obtain ⟨h1, _, h3⟩ := (h .text).2 (exSyms.take 1) (sym "memcpy@@GLIBC_2.14" 0x2000#64 true false ".text")
    ((exSyms.take 3).drop 2 ++ exSynth) (lit "memcpy") rfl (by decide +kernel)
  exact ⟨f, r, e, e', h1, (h3 ⟨exSyms.head (by simp [exSyms]), by simp [exSyms], by decide +kernel⟩).2⟩

/-! ### C78 -/

/-- The two lower-case hexadecimal digits of each byte. -/
def hexOf (l : List Byte) : List Byte := l.flatMap hex2

theorem strbidLoop_ok {cap : Nat} {blen : Int} (hc : blen ≤ cap) : ∀ (l : List Byte) (i : Nat),
    ((i + l.length) * 2 + 1 : Int) ≤ blen → strbidLoop cap blen i l = some (hexOf l)
  | [], i, h => by
    simp only [List.length_nil] at h
    rw [strbidLoop, if_pos (by omega)]
    rfl
  | b :: l, i, h => by
    simp only [List.length_cons] at h
    rw [strbidLoop, if_pos (by omega), if_pos (by omega), strbidLoop_ok hc l (i + 1) (by omega)]
    rfl

/-- **C78.**  For every build id and every buffer of the length that is passed, the
build id is written as two hexadecimal digits for each byte if this fits with its NUL,
and NULL is returned otherwise; nothing is written behind the buffer. -/
theorem C78_build_id (b : List Byte) (hb : b.length * 2 + 1 < 2 ^ 64) {cap : Nat} {blen : BitVec 32}
    (h0 : 0 ≤ blen.toInt) (hc : blen.toInt ≤ cap) :
    bfdStrbid (some b) true cap blen = some (if (b.length * 2 + 1 : Int) ≤ blen.toInt then some (hexOf b) else none) := by
  have hn : blen.toInt = blen.toNat := by
    rw [BitVec.toInt_eq_toNat_cond] at h0 ⊢
    have := blen.isLt
    split at h0 <;> split <;> omega
  have hs : (blen.signExtend 64).toNat = blen.toNat := by
    have hmsb : blen.msb = false := by
      rw [BitVec.msb_eq_toInt]
      simpa using h0
    rw [BitVec.signExtend_eq_setWidth_of_msb_false hmsb, BitVec.toNat_setWidth]
    have := blen.isLt
    omega
  rw [bfdStrbid]
  simp only [Bool.not_true, Bool.false_or, gt_iff_lt, decide_eq_true_eq, BitVec.lt_def, BitVec.toNat_ofNat,
    Nat.mod_eq_of_lt hb, hs]
  by_cases h : b.length * 2 + 1 ≤ blen.toNat
  · rw [if_neg (by omega), strbidLoop_ok hc b 0 (by rw [hn]; omega), if_pos (by rw [hn]; omega)]
    rfl
  · rw [if_pos (by omega), if_neg (by rw [hn]; omega)]

/-- No build id, or no buffer. -/
theorem C78_null (b : Option (List Byte)) (cap : Nat) (blen : BitVec 32) (buf : Bool) :
    bfdStrbid none buf cap blen = some none ∧ bfdStrbid b false cap blen = some none := by
  refine ⟨rfl, ?_⟩
  cases b <;> rfl

/-- Every digit is lower-case hexadecimal and gives the byte back. -/
theorem hex2_digits (b : Byte) : hex2 b = lit (String.ofList (((toString "0123456789abcdef").toList.drop (b.toNat / 16)).take 1 ++
    ((toString "0123456789abcdef").toList.drop (b.toNat % 16)).take 1)) := by
  have : ∀ b : Byte, hex2 b = lit (String.ofList (((toString "0123456789abcdef").toList.drop (b.toNat / 16)).take 1 ++
    ((toString "0123456789abcdef").toList.drop (b.toNat % 16)).take 1)) := by decide +kernel
  exact this b

example : bfdStrbid (some [0xde#8, 0x0a#8]) true 64 64#32 = some (some (lit "de0a")) ∧
    bfdStrbid (some [0xde#8, 0x0a#8]) true 5 5#32 = some (some (lit "de0a")) ∧
    bfdStrbid (some [0xde#8, 0x0a#8]) true 4 4#32 = some none := by decide +kernel

end Ulp.Bfd
