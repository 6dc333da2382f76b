/-
C110, C111: the headers and symbols of ELF files that are shown.
-/
import Verif.Spec.ElfShow
import Verif.Props.Listing
import Verif.Props.TaskList
namespace Ulp.ElfShow
open Ulp.Load (lit hex2)
open Ulp.Listing (leftCol rightCol lx lx16 lx_eq)
open Ulp.TaskList (dec_eq)
open Ulp.MapKind (text)
open Ulp.ProcMaps (hex digit decimal zeros)
open Ulp.ElfShowSpec

/-! ### Names -/

theorem eiClass_eq (h : Ehdr) : eiClass h = nameIn "Unknown" classes (h.ident 4).toNat := by
  simp only [eiClass, classes, nameIn, ← BitVec.toNat_inj]
  rfl

theorem eiData_eq (h : Ehdr) : eiData h = nameIn "Unknown" encodings (h.ident 5).toNat := by
  simp only [eiData, encodings, nameIn, ← BitVec.toNat_inj]
  rfl

theorem eiOsabi_eq (h : Ehdr) : eiOsabi h = nameIn "Unknown" systems (h.ident 7).toNat := by
  simp only [eiOsabi, systems, nameIn, ← BitVec.toNat_inj]
  rfl

theorem eType_eq (h : Ehdr) : eType h = nameIn "Unknown" fileTypes h.type.toNat := by
  simp only [eType, fileTypes, nameIn, ← BitVec.toNat_inj]
  rfl

theorem eMachine_eq (h : Ehdr) : eMachine h = nameIn "Unknown" machines h.machine.toNat := by
  simp only [eMachine, machines, nameIn, ← BitVec.toNat_inj]
  rfl

theorem phdrType_eq (p : Phdr) : phdrType p = nameIn "UNKNOWN" segments p.type.toNat := by
  simp only [phdrType, segments, nameIn, ← BitVec.toNat_inj]
  rfl

theorem low4 (x : BitVec 8) : (x &&& 0xf).toNat = (x.extractLsb' 0 4).toNat := by
  revert x; decide +kernel

theorem high4 (x : BitVec 8) : (x >>> 4).toNat = (x.extractLsb' 4 4).toNat := by
  revert x; decide +kernel

theorem low2 (x : BitVec 8) : (x &&& 3).toNat = (x.extractLsb' 0 2).toNat := by
  revert x; decide +kernel

theorem stBind_eq (s : Sym) :
    stBind s = nameIn "UNKNOWN" bindings (s.info.extractLsb' 4 4).toNat := by
  rw [← high4]
  simp only [stBind, bindings, nameIn, ← BitVec.toNat_inj]
  rfl

theorem stType_eq (s : Sym) :
    stType s = nameIn "UNKNOWN" symbolTypes (s.info.extractLsb' 0 4).toNat := by
  rw [← low4]
  simp only [stType, symbolTypes, nameIn, ← BitVec.toNat_inj]
  rfl

theorem stVisibility_eq (s : Sym) :
    stVisibility s = nameIn "UNKNOWN" visibilities (s.info.extractLsb' 0 2).toNat := by
  rw [← low2]
  simp only [stVisibility, visibilities, nameIn, ← BitVec.toNat_inj]
  rfl

/-- A property of all names of a table holds for the name of every number. -/
theorem nameIn_all {P : String → Prop} {d : String} (hd : P d) :
    ∀ (l : List (Nat × String)), (∀ e ∈ l, P e.2) → ∀ n : Nat, P (nameIn d l n)
  | [], _, _ => hd
  | e :: l, h, n => by
    rw [nameIn]
    by_cases hn : n = e.1
    · rw [if_pos hn]; exact h e (by simp)
    · rw [if_neg hn]; exact nameIn_all hd l (fun x hx => h x (by simp [hx])) n

/-! ### Numbers -/

theorem ld_eq (x : BitVec 64) : ld x = signed x := by
  unfold ld signed
  by_cases h : x.toInt < 0
  · rw [if_pos h, if_pos h, dec_eq]; rfl
  · rw [if_neg h, if_neg h, dec_eq]
    congr 1
    have : x.toInt = x.toNat := by
      rw [BitVec.toInt_eq_toNat_cond] at h ⊢
      by_cases h2 : 2 * x.toNat < 2 ^ 64
      · rw [if_pos h2]
      · rw [if_neg h2] at h; omega
    omega

theorem altHex18_eq (x : BitVec 64) : altHex18 x.toNat = wide x := by
  unfold altHex18 wide
  by_cases h : x = 0
  · have h2 : x.toNat = 0 := by rw [h]; rfl
    rw [if_pos h2, if_pos h]; rfl
  · have h2 : ¬ x.toNat = 0 := fun e => h (BitVec.eq_of_toNat_eq e)
    rw [if_neg h2, if_neg h, lx_eq, List.append_assoc]
    rfl

theorem lx16_eq (n : Nat) : lx16 n = zeros 16 (hex n) := by rw [lx16, lx_eq]; rfl

theorem lx8_eq (n : Nat) : lx8 n = zeros 8 (hex n) := by rw [lx8, lx_eq]; rfl

theorem flags_eq (p : Phdr) : phdrFlags p = access p.flags := by
  have key : ∀ (f : BitVec 32) (i : Nat), i < 32 → ((f &&& BitVec.twoPow 32 i ≠ 0) ↔ f.getLsbD i = true) := by
    intro f i hi
    rw [BitVec.and_twoPow]
    cases h : f.getLsbD i
    · simp
    · simp only [if_true, ne_eq]
      constructor
      · intro _; trivial
      · intro _ e
        have := congrArg (fun b => b.getLsbD i) e
        simp [hi] at this
  have k2 := key p.flags 2 (by decide)
  have k1 := key p.flags 1 (by decide)
  have k0 := key p.flags 0 (by decide)
  have e2 : BitVec.twoPow 32 2 = 4 := by decide
  have e1 : BitVec.twoPow 32 1 = 2 := by decide
  have e0 : BitVec.twoPow 32 0 = 1 := by decide
  rw [e2] at k2; rw [e1] at k1; rw [e0] at k0
  unfold phdrFlags access
  simp only [k2, k1, k0]
  cases p.flags.getLsbD 2 <;> cases p.flags.getLsbD 1 <;> cases p.flags.getLsbD 0 <;> rfl

/-! ### Lines -/

theorem line_inj {a b s t : List Byte} (ha : (10 : Byte) ∉ a) (hb : (10 : Byte) ∉ b)
    (h : a ++ 10 :: s = b ++ 10 :: t) : a = b ∧ s = t := by
  induction a generalizing b with
  | nil =>
    cases b with
    | nil => simpa using h
    | cons y b =>
      have : (10 : Byte) = y := by simpa using congrArg List.head? h
      exact absurd (by simp [this]) hb
  | cons x a ih =>
    cases b with
    | nil =>
      have : x = (10 : Byte) := by simpa using congrArg List.head? h
      exact absurd (by simp [this]) ha
    | cons y b =>
      rw [List.cons_append, List.cons_append, List.cons.injEq] at h
      obtain ⟨e1, e2⟩ := ih (b := b) (fun hc => ha (List.mem_cons_of_mem _ hc))
        (fun hc => hb (List.mem_cons_of_mem _ hc)) h.2
      exact ⟨by rw [h.1, e1], e2⟩

theorem unlines_inj : ∀ {l m : List (List Byte)}, (∀ x ∈ l, (10 : Byte) ∉ x) →
    (∀ x ∈ m, (10 : Byte) ∉ x) → unlines l = unlines m → l = m
  | [], [], _, _, _ => rfl
  | [], y :: m, _, _, h => by
    exfalso
    have := congrArg List.length h
    simp [unlines] at this
  | x :: l, [], _, _, h => by
    exfalso
    have := congrArg List.length h
    simp [unlines] at this
  | x :: l, y :: m, hl, hm, h => by
    simp only [unlines, List.flatMap_cons, List.append_assoc, List.cons_append, List.nil_append] at h
    obtain ⟨e1, e2⟩ := line_inj (hl x (by simp)) (hm y (by simp)) h
    rw [e1, unlines_inj (fun z hz => hl z (by simp [hz])) (fun z hz => hm z (by simp [hz])) e2]

theorem not_nl_append {a b : List Byte} (ha : (10 : Byte) ∉ a) (hb : (10 : Byte) ∉ b) :
    (10 : Byte) ∉ a ++ b := by
  rw [List.mem_append]; rintro (h | h)
  · exact ha h
  · exact hb h

theorem not_nl_hex (n : Nat) : (10 : Byte) ∉ hex n := fun h =>
  (MapsFile.isDig_ne ((MapsFile.hex_ok n).1 10 h)).2.2.2.2.2.1 rfl

theorem not_nl_decimal (n : Nat) : (10 : Byte) ∉ decimal n := fun h =>
  (MapsFile.isDig_ne ((MapsFile.decimal_ok n).1 10 h)).2.2.2.2.2.1 rfl

theorem not_nl_signed (x : BitVec 64) : (10 : Byte) ∉ signed x := by
  unfold signed
  by_cases h : x.toInt < 0
  · rw [if_pos h]; exact not_nl_append (by decide) (not_nl_decimal _)
  · rw [if_neg h]; exact not_nl_decimal _

theorem hex_inj {a b : Nat} (h : hex a = hex b) : a = b := by
  rw [← (MapsFile.hex_ok a).2.2, ← (MapsFile.hex_ok b).2.2, h]

theorem decimal_inj {a b : Nat} (h : decimal a = decimal b) : a = b := by
  rw [← (MapsFile.decimal_ok a).2.2, ← (MapsFile.decimal_ok b).2.2, h]

theorem signed_inj {x y : BitVec 64} (h : signed x = signed y) : x = y := by
  have minus : ∀ (n m : Nat), text "-" ++ decimal n ≠ decimal m := by
    intro n m h
    have : (45 : Byte) ∈ decimal m := by rw [← h]; exact List.mem_append_left _ (by decide)
    exact (MapsFile.isDig_ne ((MapsFile.decimal_ok m).1 45 this)).2.1 rfl
  apply BitVec.eq_of_toInt_eq
  unfold signed at h
  by_cases hx : x.toInt < 0 <;> by_cases hy : y.toInt < 0
  · rw [if_pos hx, if_pos hy] at h
    have := decimal_inj (List.append_cancel_left h)
    omega
  · rw [if_pos hx, if_neg hy] at h; exact absurd h (minus _ _)
  · rw [if_neg hx, if_pos hy] at h; exact absurd h.symm (minus _ _)
  · rw [if_neg hx, if_neg hy] at h
    have := decimal_inj h
    omega

/-! ### C110 -/

theorem not_nl_name {d : String} {t : List (Nat × String)} (hd : (10 : Byte) ∉ text d)
    (h : ∀ e ∈ t, (10 : Byte) ∉ text e.2) (n : Nat) : (10 : Byte) ∉ text (nameIn d t n) :=
  nameIn_all (P := fun s => (10 : Byte) ∉ text s) hd t h n

theorem not_nl_magic (l : List Byte) :
    (10 : Byte) ∉ l.flatMap (fun b => [32, digit (b.toNat / 16), digit (b.toNat % 16)]) := by
  rw [List.mem_flatMap]
  rintro ⟨b, -, h⟩
  revert h b
  decide +kernel

theorem header_no_nl (h : Ehdr) : ∀ x ∈ headerLines h, (10 : Byte) ∉ x := by
  unfold headerLines
  simp only [List.forall_mem_cons, List.not_mem_nil, false_implies, implies_true, and_true]
  refine ⟨by decide, not_nl_append (by decide) (not_nl_magic _),
    not_nl_append (by decide) (not_nl_name (by decide) (by decide) _),
    not_nl_append (by decide) (not_nl_name (by decide) (by decide) _), by decide,
    not_nl_append (by decide) (not_nl_name (by decide) (by decide) _),
    not_nl_append (by decide) (not_nl_decimal _),
    not_nl_append (by decide) (not_nl_name (by decide) (by decide) _),
    not_nl_append (by decide) (not_nl_name (by decide) (by decide) _),
    not_nl_append (by decide) (not_nl_hex _), not_nl_append (by decide) (not_nl_hex _),
    not_nl_append (not_nl_append (by decide) (not_nl_signed _)) (by decide),
    not_nl_append (not_nl_append (by decide) (not_nl_signed _)) (by decide),
    not_nl_append (by decide) (not_nl_hex _),
    not_nl_append (not_nl_append (by decide) (not_nl_decimal _)) (by decide),
    not_nl_append (not_nl_append (by decide) (not_nl_decimal _)) (by decide),
    not_nl_append (by decide) (not_nl_decimal _),
    not_nl_append (not_nl_append (by decide) (not_nl_decimal _)) (by decide),
    not_nl_append (by decide) (not_nl_decimal _), not_nl_append (by decide) (not_nl_decimal _)⟩

theorem magic_iff (h : Ehdr) :
    ehdrMagicOk h = true ↔ [h.ident 0, h.ident 1, h.ident 2, h.ident 3] = 0x7f :: text "ELF" := by
  have e : (0x7f :: text "ELF" : List Byte) = [0x7f, 69, 76, 70] := by decide
  rw [e]
  simp [ehdrMagicOk, and_assoc]

/-- **C110.**  The header of an ELF file is shown line by line; what does not begin with the magic
number is refused and nothing is shown. -/
theorem C110_ehdr (h : Ehdr) :
    ([h.ident 0, h.ident 1, h.ident 2, h.ident 3] = 0x7f :: text "ELF" →
      printEhdr h = (0, unlines (headerLines h))) ∧
    ([h.ident 0, h.ident 1, h.ident 2, h.ident 3] ≠ 0x7f :: text "ELF" →
      printEhdr h = (-22, [])) := by
  rw [← magic_iff]
  constructor
  · intro hm
    unfold printEhdr
    rw [if_neg (by rw [hm]; decide)]
    have l1 : lit "ELF Header:\n Magic:  " = text "ELF Header:" ++ ([10] ++ text " Magic:  ") := by
      decide
    have l2 : lit " Version:                           1 (current)\n" =
        text " Version:                           1 (current)" ++ [10] := by decide
    have l3 : lit " (bytes into file)\n" = text " (bytes into file)" ++ [10] := by decide
    have l4 : lit " (bytes)\n" = text " (bytes)" ++ [10] := by decide
    have l5 : lit "\n" = [10] := by decide
    have l6 : (fun b : Byte => lit " " ++ hex2 b) =
        (fun b => [32, digit (b.toNat / 16), digit (b.toNat % 16)]) := by
      funext b; revert b; decide +kernel
    have l7 : ∀ s, lit s = text s := fun _ => rfl
    simp only [l1, l2, l3, l4, l5, l6]
    simp only [l7, eiClass_eq, eiData_eq, eiOsabi_eq, eType_eq, eMachine_eq, ld_eq, lx_eq, dec_eq,
      unlines, headerLines, List.flatMap_cons, List.flatMap_nil, List.append_assoc, List.append_nil]
  · intro hm
    unfold printEhdr
    rw [if_pos]
    rw [ne_eq, ← magic_iff] at hm
    exact Bool.eq_false_iff.mpr hm

theorem ident_inj {f g : Fin 16 → Byte}
    (h : (List.ofFn f).flatMap (fun b => [32, digit (b.toNat / 16), digit (b.toNat % 16)]) =
      (List.ofFn g).flatMap (fun b => [32, digit (b.toNat / 16), digit (b.toNat % 16)])) : f = g := by
  have dig : ∀ a b : Byte, [32, digit (a.toNat / 16), digit (a.toNat % 16)] =
      [32, digit (b.toNat / 16), digit (b.toNat % 16)] → a = b := by
    have d : ∀ m n : Fin 16, digit m.val = digit n.val → m = n := by decide +kernel
    intro a b e
    simp only [List.cons.injEq, and_true, true_and] at e
    have h1 := d ⟨a.toNat / 16, by omega⟩ ⟨b.toNat / 16, by omega⟩ e.1
    have h2 := d ⟨a.toNat % 16, by omega⟩ ⟨b.toNat % 16, by omega⟩ e.2
    simp only [Fin.mk.injEq] at h1 h2
    apply BitVec.eq_of_toNat_eq; omega
  have key : ∀ (l m : List Byte), l.length = m.length →
      l.flatMap (fun b => [32, digit (b.toNat / 16), digit (b.toNat % 16)]) =
      m.flatMap (fun b => [32, digit (b.toNat / 16), digit (b.toNat % 16)]) → l = m := by
    intro l
    induction l with
    | nil => intro m hl _; exact (List.length_eq_zero_iff.mp hl.symm).symm
    | cons a l ih =>
      intro m hl h
      cases m with
      | nil => simp at hl
      | cons b m =>
        rw [List.flatMap_cons, List.flatMap_cons] at h
        obtain ⟨h1, h2⟩ := List.append_inj h rfl
        rw [dig a b h1, ih m (by simpa using hl) h2]
  have hl := key _ _ (by simp) h
  funext i
  have h1 : (List.ofFn f)[i.val]? = some (f i) := by
    rw [List.getElem?_ofFn, dif_pos i.isLt]
  have h2 : (List.ofFn g)[i.val]? = some (g i) := by
    rw [List.getElem?_ofFn, dif_pos i.isLt]
  rw [hl, h2] at h1
  exact (Option.some.inj h1).symm

/-- **C110.**  What is shown tells the header: two headers with the same text agree in the
identification, the version, the entry point, the places, sizes and numbers of the tables and the
flags; type and machine have the same names. -/
theorem C110_ehdr_reads (g h : Ehdr)
    (hg : [g.ident 0, g.ident 1, g.ident 2, g.ident 3] = 0x7f :: text "ELF")
    (hh : [h.ident 0, h.ident 1, h.ident 2, h.ident 3] = 0x7f :: text "ELF")
    (he : printEhdr g = printEhdr h) :
    g.ident = h.ident ∧ g.version = h.version ∧ g.entry = h.entry ∧ g.phoff = h.phoff ∧
    g.shoff = h.shoff ∧ g.flags = h.flags ∧ g.ehsize = h.ehsize ∧ g.phentsize = h.phentsize ∧
    g.phnum = h.phnum ∧ g.shentsize = h.shentsize ∧ g.shnum = h.shnum ∧ g.shstrndx = h.shstrndx ∧
    text (nameIn "Unknown" fileTypes g.type.toNat) = text (nameIn "Unknown" fileTypes h.type.toNat) ∧
    text (nameIn "Unknown" machines g.machine.toNat) =
      text (nameIn "Unknown" machines h.machine.toNat) := by
  rw [(C110_ehdr g).1 hg, (C110_ehdr h).1 hh] at he
  have he := unlines_inj (header_no_nl g) (header_no_nl h) (congrArg Prod.snd he)
  simp only [headerLines, List.cons.injEq, true_and, and_true, List.append_assoc] at he
  obtain ⟨h1, -, -, -, -, h6, h7, h8, h9, h10, h11, h12, h13, h14, h15, h16, h17, h18⟩ := he
  have hx : ∀ {w : Nat} {x y : BitVec w} {a : List Byte}, a ++ hex x.toNat = a ++ hex y.toNat → x = y :=
    fun e => BitVec.eq_of_toNat_eq (hex_inj (List.append_cancel_left e))
  have dx : ∀ {w : Nat} {x y : BitVec w} {a : List Byte}, a ++ decimal x.toNat = a ++ decimal y.toNat →
      x = y := fun e => BitVec.eq_of_toNat_eq (decimal_inj (List.append_cancel_left e))
  have ds : ∀ {w : Nat} {x y : BitVec w} {a b : List Byte},
      a ++ (decimal x.toNat ++ b) = a ++ (decimal y.toNat ++ b) → x = y :=
    fun e => BitVec.eq_of_toNat_eq (decimal_inj (List.append_cancel_right (List.append_cancel_left e)))
  have ss : ∀ {x y : BitVec 64} {a b : List Byte}, a ++ (signed x ++ b) = a ++ (signed y ++ b) → x = y :=
    fun e => signed_inj (List.append_cancel_right (List.append_cancel_left e))
  exact ⟨ident_inj (List.append_cancel_left h1), hx h8, hx h9, ss h10, ss h11, hx h12, ds h13, ds h14,
    dx h15, ds h16, dx h17, dx h18, List.append_cancel_left h6, List.append_cancel_left h7⟩

/-- **Finding.**  The version in the identification of the file is not looked at: it is shown as 1
whatever it is. -/
theorem C110_version (h : Ehdr)
    (hh : [h.ident 0, h.ident 1, h.ident 2, h.ident 3] = 0x7f :: text "ELF") :
    ∃ a b : List (List Byte), printEhdr h = (0, unlines
      (a ++ [text " Version:                           1 (current)"] ++ b)) :=
  ⟨(headerLines h).take 4, (headerLines h).drop 5, by rw [(C110_ehdr h).1 hh]; rfl⟩

/-- **C110.**  A program header is shown in two lines, below two lines that name the columns if
it is the first. -/
theorem C110_phdr (p : Phdr) (first : Bool) :
    printPhdr [] p first =
      unlines ((if first then segmentHead else []) ++ segmentLines p) := by
  have e : ∀ (t : List Byte) (w : Nat), leftCol w t = ListingSpec.left w t := fun _ _ => rfl
  have e2 : leftCol 16 (lit "") = ListingSpec.spaces 16 := rfl
  have hd : lit "  " ++ leftCol 16 (lit "Type") ++ lit " " ++ leftCol 18 (lit "Offset") ++ lit " " ++
      leftCol 18 (lit "VirtAddr") ++ lit " " ++ leftCol 16 (lit "PhysAddr") ++ lit "\n" ++
      (lit "  " ++ leftCol 16 (lit "") ++ lit " " ++ leftCol 18 (lit "FileSize") ++ lit " " ++
      leftCol 18 (lit "MemSize") ++ lit " " ++ leftCol 8 (lit "Flags") ++ lit " " ++
      leftCol 8 (lit "Align") ++ lit "\n") = unlines segmentHead := by decide +kernel
  have tl : unlines (segmentLines p) = lit "  " ++ leftCol 16 (lit (phdrType p)) ++ lit " " ++
      altHex18 p.offset.toNat ++ lit " " ++ altHex18 p.vaddr.toNat ++ lit " " ++ lx16 p.paddr.toNat ++
      lit "\n" ++ (lit "  " ++ leftCol 16 (lit "") ++ lit " " ++ altHex18 p.filesz.toNat ++ lit " " ++
      altHex18 p.memsz.toNat ++ lit " " ++ leftCol 8 (phdrFlags p) ++ lit " " ++
      lx8 p.align.toNat ++ lit "\n") := by
    simp only [e2, e, altHex18_eq, lx16_eq, lx8_eq, flags_eq, phdrType_eq, unlines, segmentLines,
      List.flatMap_cons, List.flatMap_nil, List.append_assoc, List.append_nil]
    rfl
  have un : ∀ a b : List (List Byte), unlines (a ++ b) = unlines a ++ unlines b := by
    intro a b; simp [unlines]
  rw [un, tl]
  unfold printPhdr
  cases first
  · simp only [Bool.false_eq_true, if_false, List.nil_append, List.append_assoc]
    rfl
  · simp only [if_true, ← hd, List.nil_append, List.append_assoc]

/-- The headers of the segments that are loaded. -/
def loads (l : List Phdr) : List Phdr := l.filter fun p => p.type = 1

theorem loadLoop_false : ∀ l : List Phdr, loadLoop false l = unlines ((loads l).flatMap segmentLines)
  | [] => rfl
  | p :: l => by
    rw [loadLoop, loads]
    by_cases hp : p.type = 1
    · rw [if_neg (by simpa using hp), C110_phdr, loadLoop_false l,
        List.filter_cons_of_pos (by simpa using hp)]
      simp [unlines, loads]
    · rw [if_pos hp, loadLoop_false l, List.filter_cons_of_neg (by simpa using hp)]
      rfl

theorem loadLoop_true : ∀ l : List Phdr, loadLoop true l =
    unlines ((if loads l = [] then [] else segmentHead) ++ (loads l).flatMap segmentLines)
  | [] => rfl
  | p :: l => by
    rw [loadLoop]
    by_cases hp : p.type = 1
    · have e : loads (p :: l) = p :: loads l := List.filter_cons_of_pos (by simpa using hp)
      rw [if_neg (by simpa using hp), C110_phdr, loadLoop_false l, e, if_neg (List.cons_ne_nil _ _),
        if_pos rfl]
      simp [unlines]
    · have e : loads (p :: l) = loads l := List.filter_cons_of_neg (by simpa using hp)
      rw [if_pos hp, loadLoop_true l, e]

/-- **C110.**  The details of a mapping of an ELF file: where it is loaded, its header, the headers
of the segments that are loaded in their order under one line of column names, and the header of
the segment that the mapping is of.  On a terminal they are written in grey. -/
theorem C110_detail (e : VmaElf) (m : Option Phdr)
    (he : [e.ehdr.ident 0, e.ehdr.ident 1, e.ehdr.ident 2, e.ehdr.ident 3] = 0x7f :: text "ELF") :
    vmaDetail false (some e) m = unlines
      ([text "            load_addr = 0x" ++ hex e.loadAddr.toNat] ++ headerLines e.ehdr ++
       (if loads e.phdrs = [] then [] else segmentHead) ++ (loads e.phdrs).flatMap segmentLines ++
       (match m with | some p => segmentHead ++ segmentLines p | none => [])) ∧
    vmaDetail true (some e) m = 27 :: text "[2m" ++ vmaDetail false (some e) m ++ 27 :: text "[0m" := by
  constructor
  · unfold vmaDetail
    have un : ∀ a b : List (List Byte), unlines (a ++ b) = unlines a ++ unlines b := by
      intro a b; simp [unlines]
    have e1 : unlines [text "            load_addr = 0x" ++ hex e.loadAddr.toNat] =
        rightCol 10 [] ++ lit "  load_addr = 0x" ++ lx e.loadAddr.toNat ++ lit "\n" := by
      simp only [unlines, List.flatMap_cons, List.flatMap_nil, List.append_nil, lx_eq]
      rfl
    rw [List.append_assoc _ (if loads e.phdrs = [] then [] else segmentHead), un, un, un, e1,
      ← loadLoop_true]
    dsimp only
    rw [(C110_ehdr e.ehdr).1 he]
    cases m with
    | none => simp [unlines]
    | some p =>
      dsimp only
      rw [C110_phdr]
      simp
  · simp [vmaDetail]
    rfl

/-! ### C111 -/

/-- **C111.**  A symbol is shown with its value, size, type, binding, section and name (and
version, if it is given).  Full claim: and with its visibility, the two low bits of `other`; the
code shows the low bits of `info` instead (see `C111_visibility`). -/
theorem C111_symbol_partial (s : Sym) (name : List Byte) (first : Bool) :
    fprintSym [] s name none first =
      unlines ((if first then [symbolHead] else []) ++
        [symbolLine s (s.info.extractLsb' 0 2) name]) ∧
    ∀ v : List Byte, fprintSym [] s name (some v) first =
      unlines ((if first then [symbolHead] else []) ++
        [symbolLine s (s.info.extractLsb' 0 2) (name ++ text "@" ++ v)]) := by
  have e : ∀ (t : List Byte) (w : Nat), leftCol w t = ListingSpec.left w t := fun _ _ => rfl
  have hd : lit " " ++ leftCol 18 (lit "Value") ++ lit " " ++ leftCol 7 (lit "Size") ++ lit " " ++
      leftCol 8 (lit "Type") ++ lit " " ++ leftCol 8 (lit "Bind") ++ lit " " ++
      leftCol 12 (lit "Vis") ++ lit " " ++ leftCol 4 (lit "Ndx") ++ lit " " ++
      leftCol 8 (lit "Name") ++ lit "\n" = unlines [symbolHead] := by decide +kernel
  have un : ∀ a b : List (List Byte), unlines (a ++ b) = unlines a ++ unlines b := by
    intro a b; simp [unlines]
  have tl : ∀ n : List Byte, unlines [symbolLine s (s.info.extractLsb' 0 2) n] =
      lit " " ++ altHex18 s.value.toNat ++ lit " " ++ leftCol 7 (ld s.size) ++ lit " " ++
    leftCol 8 (lit (stType s)) ++ lit " " ++ leftCol 8 (lit (stBind s)) ++ lit " " ++
    leftCol 12 (lit (stVisibility s)) ++ lit " " ++ leftCol 4 (VmaType.dec s.shndx.toNat) ++ lit " " ++
    n ++ lit "\n" := by
    intro n
    simp only [e, altHex18_eq, ld_eq, stType_eq, stBind_eq, stVisibility_eq, dec_eq, unlines, symbolLine,
      List.flatMap_cons, List.flatMap_nil, List.append_assoc, List.append_nil]
    rfl
  constructor
  · rw [un, tl]
    unfold fprintSym
    cases first
    · simp only [Bool.false_eq_true, if_false, List.nil_append, List.append_assoc]
      rfl
    · simp only [if_true, ← hd, List.nil_append, List.append_assoc]
  · intro v
    rw [un, tl]
    unfold fprintSym
    cases first
    · simp only [Bool.false_eq_true, if_false, List.nil_append, List.append_assoc]
      rfl
    · simp only [if_true, ← hd, List.nil_append, List.append_assoc]
      rfl

/-- **C111.**  The visibility is right for the symbols whose two low bits of `info` happen to be
those of `other`. -/
theorem C111_lucky_partial (s : Sym) (name : List Byte)
    (h : s.info.extractLsb' 0 2 = s.other.extractLsb' 0 2) :
    fprintSym [] s name none false = unlines [symbolLine s (s.other.extractLsb' 0 2) name] := by
  rw [(C111_symbol_partial s name false).1, h]; rfl

/-- **Finding.**  Every function of default visibility is shown as hidden, and every object as
internal. -/
theorem C111_visibility (s : Sym) (name : List Byte) (hv : s.other = 0) :
    s.other.extractLsb' 0 2 = 0 ∧
    (s.info.extractLsb' 0 4 = 2 → fprintSym [] s name none false = unlines [symbolLine s 2 name]) ∧
    (s.info.extractLsb' 0 4 = 1 → fprintSym [] s name none false = unlines [symbolLine s 1 name]) ∧
    text (nameIn "UNKNOWN" visibilities 0) = text "DEFAULT" ∧
    text (nameIn "UNKNOWN" visibilities 2) = text "HIDDEN" ∧
    text (nameIn "UNKNOWN" visibilities 1) = text "INTERNAL" := by
  have k2 : ∀ x : BitVec 8, x.extractLsb' 0 4 = 2 → x.extractLsb' 0 2 = 2 := by decide +kernel
  have k1 : ∀ x : BitVec 8, x.extractLsb' 0 4 = 1 → x.extractLsb' 0 2 = 1 := by decide +kernel
  refine ⟨by rw [hv]; decide, fun h => ?_, fun h => ?_, rfl, rfl, rfl⟩
  · rw [(C111_symbol_partial s name false).1, k2 _ h]; rfl
  · rw [(C111_symbol_partial s name false).1, k1 _ h]; rfl

/-! ### Examples -/

/-- The header of a program for x86_64. -/
def exEhdr : Ehdr where
  ident i := if i = 0 then 0x7f else if i = 1 then 69 else if i = 2 then 76 else if i = 3 then 70
    else if i = 4 then 2 else if i = 5 then 1 else if i = 6 then 1 else 0
  type := 3
  machine := 62
  version := 1
  entry := 0x1040
  phoff := 64
  shoff := 13976
  flags := 0
  ehsize := 64
  phentsize := 56
  phnum := 2
  shentsize := 64
  shnum := 31
  shstrndx := 30

def exPhdrs : List Phdr :=
  [⟨6, 4, 64, 64, 64, 728, 728, 8⟩, ⟨1, 5, 0x1000, 0x1000, 0x1000, 0x1c5, 0x1c5, 0x1000⟩]

example : (printEhdr exEhdr).1 = 0 ∧
    ((printEhdr exEhdr).2.splitOn 10)[1]? =
      some (lit " Magic:   7f 45 4c 46 02 01 01 00 00 00 00 00 00 00 00 00") ∧
    ((printEhdr exEhdr).2.splitOn 10)[11]? =
      some (lit " Start of program headers:          64 (bytes into file)") := by decide +kernel

example : ((vmaDetail false (some ⟨0x555555554000, exEhdr, exPhdrs⟩) none).splitOn 10)[23]? =
    some (lit "  LOAD             0x0000000000001000 0x0000000000001000 0000000000001000") := by
  decide +kernel

example : fprintSym [] ⟨0x12, 0, 13, 0x1139, 22⟩ (lit "main") none false =
    lit " 0x0000000000001139 22      FUNC     GLOBAL   HIDDEN       13   main\n" := by decide +kernel

end Ulp.ElfShow
