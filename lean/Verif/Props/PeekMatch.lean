/-
C122: the program header and the address shown with a mapping.  C123: which mappings are
shown as shared libraries.
-/
import Verif.Props.PeekElf
import Verif.Props.Align
import Verif.Spec.Segment
namespace Ulp.Peek
open Ulp.VmaType (isInterpException)
open Ulp.Load (lit)
open Ulp.Str (startswith)
open Ulp.VmaType (VmaType)
open Ulp.Align
open Ulp.ElfHdr

/-- The condition of `match_vma_phdr`. -/
def tells (shift : Nat) (vma : Area) (phdr : Phdr) (load : BitVec 64) (relro : Option Phdr) : Prop :=
  (pageStart shift (load + phdr.vaddr) = vma.start ∧
    pageStart shift (load + phdr.vaddr) + pageAlign shift (phdr.filesz + pageOffset shift phdr.vaddr) = vma.stop ∧
    phdr.flags &&& (PF_R ||| PF_W ||| PF_X) = prot2flags vma.prot) ∨
  (phdr.type = PT_LOAD ∧ ∃ r, relro = some r ∧ pageDown shift (load + r.vaddr + r.memsz) = vma.start)

noncomputable instance (shift : Nat) (vma : Area) (phdr : Phdr) (load : BitVec 64) (relro : Option Phdr) :
    Decidable (tells shift vma phdr load relro) := Classical.propDecidable _

theorem match_tells (shift : Nat) (v : Area) (p : Phdr) (load : BitVec 64) (relro : Option Phdr) :
    matchVmaPhdr shift v p load relro = if tells shift v p load relro then { v with matched := some p } else v := by
  unfold matchVmaPhdr
  dsimp only
  generalize hb : (decide (pageStart shift (load + p.vaddr) = v.start) &&
      decide (pageStart shift (load + p.vaddr) + pageAlign shift (p.filesz + pageOffset shift p.vaddr) = v.stop) &&
      decide (p.flags &&& (PF_R ||| PF_W ||| PF_X) = prot2flags v.prot)) = b
  have hb' : b = true ↔ (pageStart shift (load + p.vaddr) = v.start ∧
    pageStart shift (load + p.vaddr) + pageAlign shift (p.filesz + pageOffset shift p.vaddr) = v.stop ∧
    p.flags &&& (PF_R ||| PF_W ||| PF_X) = prot2flags v.prot) := by
    rw [← hb]; simp [and_assoc]
  by_cases ht : tells shift v p load relro
  · rw [if_pos ht, if_pos]
    cases b with
    | true => rfl
    | false =>
      rcases ht with ht | ⟨h1, r, rfl, h2⟩
      · exact absurd (hb'.2 ht) (by decide)
      · simp [h1, relroDlMprotect, h2]
  · rw [if_neg ht, if_neg]
    intro h
    cases b with
    | true => exact ht (.inl (hb'.1 rfl))
    | false =>
      by_cases h1 : p.type = PT_LOAD
      · cases relro with
        | none => simp at h
        | some r =>
          simp [h1, relroDlMprotect] at h
          exact ht (.inr ⟨h1, r, rfl, h⟩)
      · simp [h1] at h

/-- One header of the second loop, for one mapping. -/
def step (shift : Nat) (load : BitVec 64) (relro : Option Phdr) (v : Area) (p : Phdr) : Area :=
  if p.type = PT_LOAD ∨ p.type = PT_GNU_RELRO then matchVmaPhdr shift v p load relro else v

theorem matchPhdrs_fold (shift : Nat) (load : BitVec 64) (relro : Option Phdr) :
    ∀ (ps : List Phdr) (v : Area) (sibs : List Area), matchPhdrs shift load relro ps v sibs =
      (ps.foldl (step shift load relro) v, sibs.map fun s => ps.foldl (step shift load relro) s)
  | [], v, sibs => by simp [matchPhdrs]
  | p :: ps, v, sibs => by
    rw [matchPhdrs]
    by_cases h : p.type = PT_LOAD ∨ p.type = PT_GNU_RELRO
    · rw [if_pos h, matchPhdrs_fold]
      simp only [List.foldl_cons, List.map_map]
      congr 1
      · rw [step, if_pos h]
      · apply List.map_congr_left
        intro s _
        rw [Function.comp, step, if_pos h]
    · rw [if_neg h, matchPhdrs_fold]
      simp only [List.foldl_cons]
      congr 1
      · rw [step, if_neg h]
      · apply List.map_congr_left
        intro s _
        rw [step, if_neg h]

/-- The mapping keeps everything but the header it is shown with. -/
theorem fold_step (shift : Nat) (load : BitVec 64) (relro : Option Phdr) :
    ∀ (ps : List Phdr) (v : Area), ∃ m, ps.foldl (step shift load relro) v = { v with matched := m } ∧
      (∀ p, LastOf (fun p => (p.type = PT_LOAD ∨ p.type = PT_GNU_RELRO) ∧ tells shift v p load relro) ps p → m = some p) ∧
      ((∀ p ∈ ps, ¬ ((p.type = PT_LOAD ∨ p.type = PT_GNU_RELRO) ∧ tells shift v p load relro)) → m = v.matched)
  | [], v => by
    refine ⟨v.matched, rfl, ?_, fun _ => rfl⟩
    rintro p ⟨a, b, h, _⟩
    simp at h
  | p :: ps, v => by
    obtain ⟨m, h1, h2, h3⟩ := fold_step shift load relro ps (step shift load relro v p)
    have hs : step shift load relro v p = v ∨
        (step shift load relro v p = { v with matched := some p } ∧
          (p.type = PT_LOAD ∨ p.type = PT_GNU_RELRO) ∧ tells shift v p load relro) := by
      unfold step
      by_cases h : p.type = PT_LOAD ∨ p.type = PT_GNU_RELRO
      · rw [if_pos h, match_tells]
        by_cases ht : tells shift v p load relro
        · rw [if_pos ht]; exact .inr ⟨rfl, h, ht⟩
        · rw [if_neg ht]; exact .inl rfl
      · rw [if_neg h]; exact .inl rfl
    have ht : ∀ q, tells shift (step shift load relro v p) q load relro ↔ tells shift v q load relro := by
      intro q
      rcases hs with h | ⟨h, _⟩ <;> rw [h] <;> rfl
    simp only [ht] at h2 h3
    rw [List.foldl_cons]
    refine ⟨m, ?_, ?_, ?_⟩
    · rw [h1]
      rcases hs with h | ⟨h, _⟩ <;> rw [h]
    · rintro q ⟨a, b, hab, hq, hb⟩
      cases a with
      | nil =>
        simp only [List.nil_append, List.cons.injEq] at hab
        obtain ⟨rfl, rfl⟩ := hab
        rw [h3 hb]
        unfold step
        rw [if_pos hq.1, match_tells, if_pos hq.2]
      | cons x a =>
        simp only [List.cons_append, List.cons.injEq] at hab
        exact h2 q ⟨a, b, hab.2, hq, hb⟩
    · intro hn
      rw [h3 fun q hq => hn q (List.mem_cons_of_mem _ hq)]
      rcases hs with h | ⟨h, hp⟩
      · rw [h]
      · exact absurd hp (hn p List.mem_cons_self)

/-- One header of the first loop, for one of the other mappings of the file. -/
def vstep (shift : Nat) (prot : BitVec 32) (s : Area) (p : Phdr) : Area :=
  if p.type = PT_LOAD ∧ prot ≠ 0 ∧ BitVec.shiftLeft s.pgoff shift = alignDown p.vaddr p.align then
    { s with voffset := p.vaddr } else s

theorem scan_fold (shift : Nat) (prot : BitVec 32) :
    ∀ (ps : List Phdr) (low : BitVec 64) (relro : Option Phdr) (sibs : List Area),
      (scanPhdrs shift prot ps low relro sibs).2.2 = sibs.map (fun s => ps.foldl (vstep shift prot) s) ∧
      (∀ p, LastOf (fun p => p.type = PT_LOAD ∨ p.type = PT_GNU_RELRO) ps p →
        (scanPhdrs shift prot ps low relro sibs).2.1 = some p) ∧
      ((∀ p ∈ ps, ¬ (p.type = PT_LOAD ∨ p.type = PT_GNU_RELRO)) →
        (scanPhdrs shift prot ps low relro sibs).2.1 = relro)
  | [], low, relro, sibs => by
    refine ⟨by simp [scanPhdrs], ?_, fun _ => rfl⟩
    rintro p ⟨a, b, h, _⟩
    simp at h
  | p :: ps, low, relro, sibs => by
    have tail : ∀ low' relro' sibs', (p.type = PT_LOAD ∨ p.type = PT_GNU_RELRO → relro' = some p) →
        (¬ (p.type = PT_LOAD ∨ p.type = PT_GNU_RELRO) → relro' = relro) →
        (sibs' = sibs.map fun s => vstep shift prot s p) →
        (scanPhdrs shift prot ps low' relro' sibs').2.2 = sibs.map (fun s => (p :: ps).foldl (vstep shift prot) s) ∧
        (∀ q, LastOf (fun p => p.type = PT_LOAD ∨ p.type = PT_GNU_RELRO) (p :: ps) q →
          (scanPhdrs shift prot ps low' relro' sibs').2.1 = some q) ∧
        ((∀ q ∈ p :: ps, ¬ (q.type = PT_LOAD ∨ q.type = PT_GNU_RELRO)) →
          (scanPhdrs shift prot ps low' relro' sibs').2.1 = relro) := by
      intro low' relro' sibs' e1 e2 e3
      obtain ⟨h1, h2, h3⟩ := scan_fold shift prot ps low' relro' sibs'
      refine ⟨?_, ?_, ?_⟩
      · rw [h1, e3, List.map_map]; rfl
      · rintro q ⟨a, b, hab, hq, hb⟩
        cases a with
        | nil =>
          simp only [List.nil_append, List.cons.injEq] at hab
          obtain ⟨rfl, rfl⟩ := hab
          rw [h3 hb, e1 hq]
        | cons x a =>
          simp only [List.cons_append, List.cons.injEq] at hab
          exact h2 q ⟨a, b, hab.2, hq, hb⟩
      · intro hn
        rw [h3 fun q hq => hn q (List.mem_cons_of_mem _ hq), e2 (hn p List.mem_cons_self)]
    rw [scanPhdrs]
    by_cases hl : p.type = PT_LOAD
    · rw [if_pos hl]
      dsimp only
      refine tail _ _ _ (fun _ => rfl) (fun h => absurd (.inl hl) h) ?_
      apply List.map_congr_left
      intro s _
      unfold vstep
      by_cases hp : prot = 0
      · rw [if_pos hp, if_neg fun h => h.2.1 hp]
      · rw [if_neg hp]
        by_cases hv : BitVec.shiftLeft s.pgoff shift = alignDown p.vaddr p.align
        · rw [if_pos hv, if_pos ⟨hl, hp, hv⟩]
        · rw [if_neg hv, if_neg fun h => hv h.2.2]
    · have hvs : sibs = sibs.map fun s => vstep shift prot s p := by
        conv => lhs; rw [← List.map_id sibs]
        apply List.map_congr_left
        intro s _
        unfold vstep
        rw [if_neg fun h => hl h.1]; rfl
      rw [if_neg hl]
      by_cases hr : p.type = PT_GNU_RELRO
      · rw [if_pos hr]
        exact tail _ _ _ (fun _ => rfl) (fun h => absurd (.inr hr) h) hvs
      · rw [if_neg hr]
        exact tail _ _ _ (fun h => by rcases h with h | h <;> contradiction) (fun _ => rfl) hvs

theorem pageOf_iff {k x a : Nat} : PageOf k x a ↔ a = x / 2 ^ k * 2 ^ k := by
  have hp : 0 < 2 ^ k := Nat.pow_pos (by omega)
  constructor
  · rintro ⟨⟨c, rfl⟩, h1, h2⟩
    have : x / 2 ^ k = c := by
      apply (Nat.div_eq_iff hp).2
      rw [Nat.mul_comm]
      omega
    rw [this, Nat.mul_comm]
  · rintro rfl
    refine ⟨⟨_, Nat.mul_comm _ _⟩, Nat.div_mul_le_self _ _, ?_⟩
    have := Nat.div_add_mod x (2 ^ k)
    have h2 := Nat.mod_lt x hp
    rw [Nat.mul_comm] at this
    omega

theorem pageEnd_iff {k x b : Nat} : PageEnd k x b ↔ b = (x + 2 ^ k - 1) / 2 ^ k * 2 ^ k := by
  have hp : 0 < 2 ^ k := Nat.pow_pos (by omega)
  rw [← pageOf_iff]
  unfold PageEnd PageOf
  omega

theorem pageStart_nat {k : Nat} (h : k < 64) (v : BitVec 64) : (pageStart k v).toNat = v.toNat / 2 ^ k * 2 ^ k := by
  unfold pageStart
  rw [pageSize_eq]
  exact and_not_mask h v

theorem pageAlign_nat {k : Nat} (h : k < 64) (v : BitVec 64) (hv : v.toNat + 2 ^ k ≤ 2 ^ 64) :
    (pageAlign k v).toNat = (v.toNat + 2 ^ k - 1) / 2 ^ k * 2 ^ k := by
  have : pageAlign k v = roundUp v (BitVec.twoPow 64 k) := by
    unfold pageAlign roundUp
    rw [pageSize_eq]
  have hp : 0 < 2 ^ k := Nat.pow_pos (by omega)
  rw [this, roundUp_toNat h, Nat.mod_eq_of_lt (by omega)]

theorem pageOffset_nat {k : Nat} (h : k < 64) (v : BitVec 64) : (pageOffset k v).toNat = v.toNat % 2 ^ k := by
  have := and_mask h v
  rw [← pageSize_eq] at this
  exact this

theorem flags_iff (f p : BitVec 32) : f &&& (PF_R ||| PF_W ||| PF_X) = prot2flags p ↔
    f.getLsbD 2 = p.getLsbD 0 ∧ f.getLsbD 1 = p.getLsbD 1 ∧ f.getLsbD 0 = p.getLsbD 2 := by
  have h7 : ∀ i, (PF_R ||| PF_W ||| PF_X : BitVec 32).getLsbD i = decide (i < 3) := by
    intro i
    have : (PF_R ||| PF_W ||| PF_X : BitVec 32) = BitVec.twoPow 32 3 - 1#32 := by decide
    rw [this, mask_getLsbD (by omega)]
  have hf := C44_flags p
  constructor
  · intro h
    have hb : ∀ i, (f &&& (PF_R ||| PF_W ||| PF_X)).getLsbD i = (prot2flags p).getLsbD i := by intro i; rw [h]
    have h0 := hb 0
    have h1 := hb 1
    have h2 := hb 2
    rw [BitVec.getLsbD_and, h7, hf] at h0 h1 h2
    simp at h0 h1 h2
    exact ⟨h2, h1, h0⟩
  · rintro ⟨h2, h1, h0⟩
    apply BitVec.eq_of_getLsbD_eq
    intro i hi
    rw [BitVec.getLsbD_and, h7, hf]
    match i, hi with
    | 0, _ => rw [h0]; simp
    | 1, _ => rw [h1]; simp
    | 2, _ => rw [h2]; simp
    | n + 3, _ => simp

/-- The program header `s` of the table tells where the memory `start` to `stop` with the
protection `prot` is from: it is a loadable segment, or the part that is protected after
relocation, and has these pages and this protection; or it is a loadable segment and the
memory is what follows the part that is protected.  That part is told by the last header
of the two kinds. -/
def Tells (k bias : Nat) (segs : List Seg) (start stop : Nat) (prot : BitVec 32) (s : Seg) : Prop :=
  (s.loadable ∨ s.relro) ∧
    ((s.Pages k bias start stop ∧ s.Prot prot) ∨
     (s.loadable ∧ ∃ q, LastOf (fun q : Seg => q.loadable ∨ q.relro) segs q ∧
       PageOf k (bias + q.vaddr.toNat + q.memsz.toNat) start))

/-- No address of the two kinds of segments is too large for 64 bits. -/
def Fits (k bias : Nat) (segs : List Seg) : Prop :=
  ∀ s ∈ segs, s.loadable ∨ s.relro → bias + s.vaddr.toNat + s.filesz.toNat + 2 ^ k ≤ 2 ^ 64 ∧
    bias + s.vaddr.toNat + s.memsz.toNat < 2 ^ 64

theorem ofSeg_load (s : Seg) : (ofSeg s).type = PT_LOAD ↔ s.loadable := by
  constructor
  · intro h; exact BitVec.eq_of_toNat_eq h
  · intro h; rw [Seg.loadable] at h; simp [ofSeg, h, PT_LOAD]

theorem ofSeg_relro (s : Seg) : (ofSeg s).type = PT_GNU_RELRO ↔ s.relro := by
  constructor
  · intro h; exact BitVec.eq_of_toNat_eq h
  · intro h; rw [Seg.relro] at h; simp [ofSeg, h, PT_GNU_RELRO]

theorem LastOf.map {α β : Type} {f : α → β} {P : β → Prop} {Q : α → Prop} {l : List α} {b : β}
    (hpq : ∀ a ∈ l, P (f a) ↔ Q a) (h : LastOf P (l.map f) b) : ∃ a, b = f a ∧ LastOf Q l a := by
  obtain ⟨x, y, h1, h2, h3⟩ := h
  obtain ⟨x', y', rfl, rfl, h4⟩ := List.map_eq_append_iff.1 h1
  obtain ⟨a, y', rfl, rfl, rfl⟩ := List.map_eq_cons_iff.1 h4
  refine ⟨a, rfl, x', y', rfl, (hpq a (by simp)).1 h2, ?_⟩
  intro t ht hq
  exact h3 (f t) (List.mem_map_of_mem ht) ((hpq t (by simp [ht])).2 hq)

theorem LastOf.map' {α β : Type} {f : α → β} {P : β → Prop} {Q : α → Prop} {l : List α} {a : α}
    (hpq : ∀ a ∈ l, P (f a) ↔ Q a) (h : LastOf Q l a) : LastOf P (l.map f) (f a) := by
  obtain ⟨x, y, rfl, h2, h3⟩ := h
  refine ⟨x.map f, y.map f, by simp, (hpq a (by simp)).2 h2, ?_⟩
  intro t ht hp
  obtain ⟨u, hu, rfl⟩ := List.mem_map.1 ht
  exact h3 u hu ((hpq u (by simp [hu])).1 hp)

theorem LastOf.unique {α : Type} {P : α → Prop} : ∀ {l : List α} {a b : α}, LastOf P l a → LastOf P l b → a = b
  | [], _, _, ⟨x, y, h, _⟩, _ => by simp at h
  | c :: l, a, b, ⟨x, y, h, hp, hn⟩, ⟨x', y', h', hp', hn'⟩ => by
    cases x with
    | nil =>
      simp only [List.nil_append, List.cons.injEq] at h
      obtain ⟨rfl, rfl⟩ := h
      cases x' with
      | nil => simp only [List.nil_append, List.cons.injEq] at h'; exact h'.1
      | cons z x' =>
        simp only [List.cons_append, List.cons.injEq] at h'
        exact absurd hp' (hn b (by rw [h'.2]; simp))
    | cons z x =>
      simp only [List.cons_append, List.cons.injEq] at h
      cases x' with
      | nil =>
        simp only [List.nil_append, List.cons.injEq] at h'
        obtain ⟨rfl, rfl⟩ := h'
        exact absurd hp (hn' a (by rw [h.2]; simp))
      | cons z' x' =>
        simp only [List.cons_append, List.cons.injEq] at h'
        exact LastOf.unique ⟨x, y, h.2, hp, hn⟩ ⟨x', y', h'.2, hp', hn'⟩

theorem LastOf.exists {α : Type} {P : α → Prop} : ∀ {l : List α} {a : α}, a ∈ l → P a → ∃ b, LastOf P l b
  | c :: l, a, h, hp => by
    by_cases hl : ∃ b ∈ l, P b
    · obtain ⟨b, hb, hpb⟩ := hl
      obtain ⟨d, x, y, rfl, h2⟩ := LastOf.exists hb hpb
      exact ⟨d, c :: x, y, rfl, h2⟩
    · rcases List.mem_cons.1 h with rfl | h
      · exact ⟨a, [], l, rfl, hp, fun t ht hpt => hl ⟨t, ht, hpt⟩⟩
      · exact absurd ⟨a, h, hp⟩ hl

theorem LastOf.mem {α : Type} {P : α → Prop} {l : List α} {a : α} (h : LastOf P l a) : a ∈ l ∧ P a := by
  obtain ⟨x, y, rfl, h, _⟩ := h
  exact ⟨by simp, h⟩

theorem tells_iff {k : Nat} (hk : k < 64) {load : BitVec 64} {segs : List Seg} {relro : Option Phdr} (v : Area)
    (hb : 2 ^ k ∣ load.toNat) (hfit : Fits k load.toNat segs)
    (hrel : ∀ q, LastOf (fun q : Seg => q.loadable ∨ q.relro) segs q → relro = some (ofSeg q))
    {s : Seg} (hs : s ∈ segs) :
    ((ofSeg s).type = PT_LOAD ∨ (ofSeg s).type = PT_GNU_RELRO) ∧ tells k v (ofSeg s) load relro ↔
      Tells k load.toNat segs v.start.toNat v.stop.toNat v.prot s := by
  rw [ofSeg_load, ofSeg_relro]
  unfold Tells
  apply and_congr_right
  intro hkind
  obtain ⟨f1, _⟩ := hfit s hs hkind
  have hp : 0 < 2 ^ k := Nat.pow_pos (by omega)
  obtain ⟨c, hc⟩ := hb
  unfold tells
  have e1 : (load + (ofSeg s).vaddr).toNat = load.toNat + s.vaddr.toNat := by
    rw [BitVec.toNat_add]; exact Nat.mod_eq_of_lt (show load.toNat + s.vaddr.toNat < 2 ^ 64 by omega)
  have hmod : (load.toNat + s.vaddr.toNat) % 2 ^ k = s.vaddr.toNat % 2 ^ k := by
    rw [hc, Nat.add_comm, Nat.add_mul_mod_self_left]
  have hdm := Nat.div_add_mod (load.toNat + s.vaddr.toNat) (2 ^ k)
  have hml := Nat.mod_lt s.vaddr.toNat hp
  have hmle : s.vaddr.toNat % 2 ^ k ≤ s.vaddr.toNat := Nat.mod_le _ _
  have e2 : ((ofSeg s).filesz + pageOffset k (ofSeg s).vaddr).toNat = s.filesz.toNat + s.vaddr.toNat % 2 ^ k := by
    rw [BitVec.toNat_add, pageOffset_nat hk]
    exact Nat.mod_eq_of_lt (show s.filesz.toNat + s.vaddr.toNat % 2 ^ k < 2 ^ 64 by omega)
  have e3 : (pageAlign k ((ofSeg s).filesz + pageOffset k (ofSeg s).vaddr)).toNat =
      (s.filesz.toNat + s.vaddr.toNat % 2 ^ k + 2 ^ k - 1) / 2 ^ k * 2 ^ k := by
    rw [pageAlign_nat hk _ (by rw [e2]; omega), e2]
  have e4 : (load.toNat + s.vaddr.toNat + s.filesz.toNat + 2 ^ k - 1) / 2 ^ k * 2 ^ k =
      (load.toNat + s.vaddr.toNat) / 2 ^ k * 2 ^ k +
        (s.filesz.toNat + s.vaddr.toNat % 2 ^ k + 2 ^ k - 1) / 2 ^ k * 2 ^ k := by
    rw [hmod] at hdm
    rw [show load.toNat + s.vaddr.toNat + s.filesz.toNat + 2 ^ k - 1 =
      (s.filesz.toNat + s.vaddr.toNat % 2 ^ k + 2 ^ k - 1) + 2 ^ k * ((load.toNat + s.vaddr.toNat) / 2 ^ k) by omega,
      Nat.add_mul_div_left _ _ hp, Nat.add_mul, Nat.add_comm]
  have hceil := Nat.div_mul_le_self (load.toNat + s.vaddr.toNat + s.filesz.toNat + 2 ^ k - 1) (2 ^ k)
  have e5 : (pageStart k (load + (ofSeg s).vaddr) +
      pageAlign k ((ofSeg s).filesz + pageOffset k (ofSeg s).vaddr)).toNat =
      (load.toNat + s.vaddr.toNat + s.filesz.toNat + 2 ^ k - 1) / 2 ^ k * 2 ^ k := by
    rw [BitVec.toNat_add, pageStart_nat hk, e1, e3, ← e4]
    exact Nat.mod_eq_of_lt (by omega)
  apply or_congr
  · rw [flags_iff, ← and_assoc]
    apply and_congr
    · unfold Seg.Pages
      rw [pageOf_iff, pageEnd_iff]
      apply and_congr
      · rw [← BitVec.toNat_inj, pageStart_nat hk, e1]; exact eq_comm
      · rw [← BitVec.toNat_inj, e5]; exact eq_comm
    · exact Iff.rfl
  · rw [ofSeg_load]
    apply and_congr_right
    intro _
    obtain ⟨q, hq⟩ := LastOf.exists (P := fun q : Seg => q.loadable ∨ q.relro) hs hkind
    obtain ⟨hqm, hqk⟩ := LastOf.mem hq
    obtain ⟨_, f2⟩ := hfit q hqm hqk
    have e6 : (pageDown k (load + (ofSeg q).vaddr + (ofSeg q).memsz)).toNat =
        (load.toNat + q.vaddr.toNat + q.memsz.toNat) / 2 ^ k * 2 ^ k := by
      rw [(C42_pages hk _).2.2.2.2.1, pageStart_nat hk]
      congr 2
      rw [BitVec.toNat_add, BitVec.toNat_add]
      rw [Nat.mod_add_mod]
      exact Nat.mod_eq_of_lt f2
    constructor
    · rintro ⟨r, h1, h2⟩
      rw [hrel q hq] at h1; cases h1
      exact ⟨q, hq, pageOf_iff.2 (by rw [← e6, h2])⟩
    · rintro ⟨q', hq', h2⟩
      cases LastOf.unique hq hq'
      refine ⟨ofSeg q, hrel q hq, ?_⟩
      apply BitVec.eq_of_toNat_eq
      rw [e6, pageOf_iff.1 h2]

/-- The mapping `m` of the file is shown as `m'`: with the last header of the table that
tells where it is from, or as before if there is none. -/
structure Shown (k bias : Nat) (segs : List Seg) (m m' : Area) : Prop where
  start : m'.start = m.start
  stop : m'.stop = m.stop
  prot : m'.prot = m.prot
  last : ∀ s, LastOf (Tells k bias segs m.start.toNat m.stop.toNat m.prot) segs s → m'.matched = some (ofSeg s)
  none : (∀ s ∈ segs, ¬ Tells k bias segs m.start.toNat m.stop.toNat m.prot s) → m'.matched = m.matched

theorem fold_vstep (shift : Nat) (prot : BitVec 32) : ∀ (ps : List Phdr) (s : Area), ∃ o,
    ps.foldl (vstep shift prot) s = { s with voffset := o } ∧
      (∀ p, LastOf (fun p => p.type = PT_LOAD ∧ prot ≠ 0 ∧
        BitVec.shiftLeft s.pgoff shift = alignDown p.vaddr p.align) ps p → o = p.vaddr) ∧
      ((∀ p ∈ ps, ¬ (p.type = PT_LOAD ∧ prot ≠ 0 ∧
        BitVec.shiftLeft s.pgoff shift = alignDown p.vaddr p.align)) → o = s.voffset)
  | [], s => by
    refine ⟨s.voffset, rfl, ?_, fun _ => rfl⟩
    rintro p ⟨a, b, h, _⟩
    simp at h
  | p :: ps, s => by
    obtain ⟨m, h1, h2, h3⟩ := fold_vstep shift prot ps (vstep shift prot s p)
    have hpg : (vstep shift prot s p).pgoff = s.pgoff := by unfold vstep; split <;> rfl
    rw [hpg] at h2 h3
    rw [List.foldl_cons]
    refine ⟨m, ?_, ?_, ?_⟩
    · rw [h1]; unfold vstep; split <;> rfl
    · rintro q ⟨a, b, hab, hq, hb⟩
      cases a with
      | nil =>
        simp only [List.nil_append, List.cons.injEq] at hab
        obtain ⟨rfl, rfl⟩ := hab
        rw [h3 hb]
        unfold vstep
        rw [if_pos hq]
      | cons x a =>
        simp only [List.cons_append, List.cons.injEq] at hab
        exact h2 q ⟨a, b, hab.2, hq, hb⟩
    · intro hn
      rw [h3 fun q hq => hn q (List.mem_cons_of_mem _ hq)]
      unfold vstep
      rw [if_neg (hn p List.mem_cons_self)]

/-- What `vma_peek_elf_hdrs` does with a file that has a loadable segment. -/
theorem peek_result (shift : Nat) (rd : BitVec 64 → Nat → Rd) (ulp : Int) (v : Area) (sibs : List Area)
    (h : Hdr) (segs : List Seg) (low : BitVec 64) (hf : Fresh v) (hs : Shows rd v h segs)
    (hlow : Lowest segs low) (hmax : low ≠ BitVec.allOnes 64) :
    ∃ relro, (∀ q, LastOf (fun q : Seg => q.loadable ∨ q.relro) segs q → relro = some (ofSeg q)) ∧
      peekElfHdrs shift rd true true ulp v sibs = some
        ⟨0, (segs.map ofSeg).foldl (step shift (v.start - low) relro)
            { v with isElf := true, isShareLib := shareLib { v with isElf := true } (parseEhdr h.bytes) (segs.map ofSeg),
                     elf := .live ⟨parseEhdr h.bytes, segs.map ofSeg, v.start - low⟩ },
          sibs.map fun s => (segs.map ofSeg).foldl (step shift (v.start - low) relro)
            ((segs.map ofSeg).foldl (vstep shift v.prot) s),
          if v.type = .self then some (decide (h.type = 3)) else none⟩ := by
  have hlo := hlow
  obtain ⟨⟨s, hsm, hsl, hsv⟩, hmin⟩ := hlow
  have hne : segs ≠ [] := by intro e; rw [e] at hsm; simp at hsm
  rw [peek_eq shift rd ulp v sibs h segs hf hs hne]
  have hr := scan_low shift v.prot (segs.map ofSeg) (BitVec.allOnes 64) none sibs
  dsimp only at hr
  obtain ⟨-, hr2, hr3⟩ := hr
  have hlow : (scanPhdrs shift v.prot (segs.map ofSeg) (BitVec.allOnes 64) none sibs).1 = low := by
    have h1 := hr2 (ofSeg s) (List.mem_map.2 ⟨s, hsm, rfl⟩) (by rw [Seg.loadable] at hsl; simp [ofSeg, hsl])
    have h1 : (scanPhdrs shift v.prot (segs.map ofSeg) (BitVec.allOnes 64) none sibs).1 ≤ low := by
      rw [← hsv]; exact h1
    rcases hr3 with h2 | ⟨p, hp, hpt, hpv⟩
    · exfalso
      rw [h2] at h1
      apply hmax
      apply BitVec.eq_of_toNat_eq
      have := low.isLt
      simp only [BitVec.le_def, BitVec.toNat_allOnes] at h1 ⊢
      omega
    · obtain ⟨q, hq, rfl⟩ := List.mem_map.1 hp
      have hql : q.loadable := by
        rw [Seg.loadable]
        apply BitVec.eq_of_toNat_eq
        exact hpt
      have h3 := hmin q hq hql
      rw [hpv]
      rw [hpv] at h1
      exact BitVec.le_antisymm h1 h3
  obtain ⟨g1, g2, _⟩ := scan_fold shift v.prot (segs.map ofSeg) (BitVec.allOnes 64) none sibs
  refine ⟨(scanPhdrs shift v.prot (segs.map ofSeg) (BitVec.allOnes 64) none sibs).2.1, ?_, ?_⟩
  · intro q hq
    refine g2 (ofSeg q) (LastOf.map' (fun a _ => ?_) hq)
    rw [ofSeg_load, ofSeg_relro]
  · unfold peekDone
    dsimp only
    rw [hlow, if_neg hmax, matchPhdrs_fold, g1, List.map_map]
    rfl

/-- C122.  For every file with loadable segments in a process, on a machine with pages of
`2 ^ k` bytes: each of its mappings is shown with the last header that tells where it is
from, and with none if no header does. -/
theorem C122_header {k : Nat} (hk : k < 64) (rd : BitVec 64 → Nat → Rd) (ulp : Int) (v : Area) (sibs : List Area)
    (h : Hdr) (segs : List Seg) (low : BitVec 64) (hf : Fresh v) (hs : Shows rd v h segs)
    (hlow : Lowest segs low) (hmax : low ≠ BitVec.allOnes 64) (hb : 2 ^ k ∣ (v.start - low).toNat)
    (hfit : Fits k (v.start - low).toNat segs) :
    ∃ r, peekElfHdrs k rd true true ulp v sibs = some r ∧ r.ret = 0 ∧
      Shown k (v.start - low).toNat segs v r.vma ∧ r.sibs.length = sibs.length ∧
      ∀ (i : Nat) (m m' : Area), sibs[i]? = some m → r.sibs[i]? = some m' →
        Shown k (v.start - low).toNat segs m m' := by
  obtain ⟨relro, hrel, he⟩ := peek_result k rd ulp v sibs h segs low hf hs hlow hmax
  have key : ∀ m, Shown k (v.start - low).toNat segs m ((segs.map ofSeg).foldl (step k (v.start - low) relro) m) := by
    intro m
    obtain ⟨x, h1, h2, h3⟩ := fold_step k (v.start - low) relro (segs.map ofSeg) m
    rw [h1]
    refine ⟨rfl, rfl, rfl, ?_, ?_⟩
    · intro s hl
      exact h2 (ofSeg s) (LastOf.map' (fun a ha => tells_iff hk m hb hfit hrel ha) hl)
    · intro hn
      refine h3 fun p hp => ?_
      obtain ⟨s, hsm, rfl⟩ := List.mem_map.1 hp
      rw [tells_iff hk m hb hfit hrel hsm]
      exact hn s hsm
  refine ⟨_, he, rfl, ?_, by simp, ?_⟩
  · have := key { v with isElf := true, isShareLib := shareLib { v with isElf := true } (parseEhdr h.bytes) (segs.map ofSeg), elf := .live ⟨parseEhdr h.bytes, segs.map ofSeg, v.start - low⟩ }
    exact ⟨this.start, this.stop, this.prot, this.last, this.none⟩
  · intro i m m' h1 h2
    rw [List.getElem?_map, h1] at h2
    cases h2
    obtain ⟨o, ho, _⟩ := fold_vstep k v.prot (segs.map ofSeg) m
    dsimp only
    rw [ho]
    have := key { m with voffset := o }
    exact ⟨this.start, this.stop, this.prot, this.last, this.none⟩

/-- A file as the GNU linker makes it: `d` is the last loadable segment; behind `d` there are no more loadable segments, but the header `q` of the
part that is protected after relocation, the only one; `q` is inside `d` and cannot be
written; and the loadable segments have pages of their own, in ascending order. -/
structure GnuLayout (k bias : Nat) (segs : List Seg) (d q : Seg) : Prop where
  load : d.loadable
  last : ∃ a b c, segs = a ++ d :: b ++ q :: c ∧ (∀ s ∈ b ++ c, ¬ s.loadable ∧ ¬ s.relro) ∧ (∀ s ∈ a, ¬ s.relro) ∧
    ∀ s ∈ a, s.loadable → (bias + s.vaddr.toNat) / 2 ^ k < (bias + d.vaddr.toNat) / 2 ^ k
  relro : q.relro
  inside : d.vaddr ≤ q.vaddr
  noWrite : q.flags.getLsbD 1 = false
  apart : ∀ s ∈ segs, ∀ t ∈ segs, s.loadable → t.loadable →
    (bias + s.vaddr.toNat) / 2 ^ k = (bias + t.vaddr.toNat) / 2 ^ k → s = t

/-- C122, for files as the GNU linker makes them.  The mapping of a loadable segment other
than the last one is shown with that segment; the memory behind the protected part, if it
can be written, is shown with the last loadable segment; and the mapping of the protected
part is shown with its header, if no loadable segment has exactly the same pages and
protection. -/
theorem C122_gnu {k bias : Nat} {segs : List Seg} {d q : Seg} (g : GnuLayout k bias segs d q) {m m' : Area}
    (hm : Shown k bias segs m m') :
    (∀ s ∈ segs, s.loadable → s ≠ d → s.Pages k bias m.start.toNat m.stop.toNat → s.Prot m.prot →
      m'.matched = some (ofSeg s)) ∧
    (PageOf k (bias + q.vaddr.toNat + q.memsz.toNat) m.start.toNat → m.prot.getLsbD 1 = true →
      m'.matched = some (ofSeg d)) ∧
    (q.Pages k bias m.start.toNat m.stop.toNat → q.Prot m.prot → m'.matched = some (ofSeg q)) := by
  obtain ⟨a, b, c, rfl, hbc, ha, hlt⟩ := g.last
  have hp : 0 < 2 ^ k := Nat.pow_pos (by omega)
  have hql : ¬ q.loadable := by
    have := g.relro
    unfold Seg.relro at this
    unfold Seg.loadable
    rw [this]; decide
  have hdr : ¬ d.relro := by
    have := g.load
    unfold Seg.loadable at this
    unfold Seg.relro
    rw [this]; decide
  have hlast : LastOf (fun q : Seg => q.loadable ∨ q.relro) (a ++ d :: b ++ q :: c) q :=
    ⟨a ++ d :: b, c, rfl, .inr g.relro, fun t ht h => by
      obtain ⟨h1, h2⟩ := hbc t (List.mem_append_right _ ht)
      exact h.elim h1 h2⟩
  have hnobc : ∀ t ∈ b ++ c, ∀ x y z, ¬ Tells k bias (a ++ d :: b ++ q :: c) x y z t := by
    intro t ht x y z h
    obtain ⟨h1, h2⟩ := hbc t ht
    exact h.1.elim h1 h2
  have hge : (bias + d.vaddr.toNat) / 2 ^ k ≤ (bias + q.vaddr.toNat) / 2 ^ k :=
    Nat.div_le_div_right (by have := g.inside; simp only [BitVec.le_def] at this; omega)
  have hge2 : (bias + q.vaddr.toNat) / 2 ^ k ≤ (bias + q.vaddr.toNat + q.memsz.toNat) / 2 ^ k :=
    Nat.div_le_div_right (by omega)
  refine ⟨?_, ?_, ?_⟩
  · intro s hs hsl hsd hpg hpr
    have hsa : s ∈ a := by
      simp only [List.mem_append, List.mem_cons] at hs
      rcases hs with (h | h | h) | h | h
      · exact h
      · exact absurd h hsd
      · exact absurd hsl (hbc s (by simp [h])).1
      · exact absurd (h ▸ hsl) hql
      · exact absurd hsl (hbc s (by simp [h])).1
    have hsmall := hlt s hsa hsl
    have hstart := pageOf_iff.1 hpg.1
    have honly : ∀ t ∈ a ++ d :: b ++ q :: c,
        Tells k bias (a ++ d :: b ++ q :: c) m.start.toNat m.stop.toNat m.prot t → t = s := by
      rintro t ht ⟨hk, ⟨h1, h2⟩ | ⟨h1, q', hq', h2⟩⟩
      · have h3 := pageOf_iff.1 h1.1
        rw [hstart] at h3
        have h3 := Nat.eq_of_mul_eq_mul_right hp h3
        rcases hk with hk | hk
        · exact g.apart t ht s hs hk hsl h3.symm
        · exfalso
          simp only [List.mem_append, List.mem_cons] at ht
          rcases ht with (h | h | h) | h | h
          · exact ha t h hk
          · exact hdr (h ▸ hk)
          · exact (hbc t (by simp [h])).2 hk
          · subst h; omega
          · exact (hbc t (by simp [h])).2 hk
      · exfalso
        cases LastOf.unique hlast hq'
        have h3 := pageOf_iff.1 h2
        rw [hstart] at h3
        have h3 := Nat.eq_of_mul_eq_mul_right hp h3
        omega
    obtain ⟨z, hz⟩ := LastOf.exists (P := Tells k bias (a ++ d :: b ++ q :: c) m.start.toNat m.stop.toNat m.prot) hs
      ⟨.inl hsl, .inl ⟨hpg, hpr⟩⟩
    have := honly z (LastOf.mem hz).1 (LastOf.mem hz).2
    subst this
    exact hm.last _ hz
  · intro hpg hw
    refine hm.last d ⟨a, b ++ q :: c, by simp, ⟨.inl g.load, .inr ⟨g.load, q, hlast, hpg⟩⟩, ?_⟩
    intro t ht h
    simp only [List.mem_append, List.mem_cons] at ht
    rcases ht with h' | h' | h'
    · exact hnobc t (by simp [h']) _ _ _ h
    · subst h'
      rcases h.2 with ⟨_, h2⟩ | ⟨h1, _⟩
      · have := h2.2.1
        rw [g.noWrite, hw] at this
        cases this
      · exact hql h1
    · exact hnobc t (by simp [h']) _ _ _ h
  · intro hpg hpr
    refine hm.last q ⟨a ++ d :: b, c, rfl, ⟨.inr g.relro, .inl ⟨hpg, hpr⟩⟩, ?_⟩
    intro t ht h
    exact hnobc t (by simp [ht]) _ _ _ h

/-- C122, the column `Voffset`, exactly.  It is only given for the mappings other than the
first one of the file, and only if the first one can be used at all: the address of the last
loadable segment whose address, rounded down to its alignment, is the offset in the file that
is mapped. -/
theorem C122_voffset {k : Nat} (rd : BitVec 64 → Nat → Rd) (ulp : Int) (v : Area) (sibs : List Area)
    (h : Hdr) (segs : List Seg) (low : BitVec 64) (hf : Fresh v) (hs : Shows rd v h segs)
    (hlow : Lowest segs low) (hmax : low ≠ BitVec.allOnes 64) :
    ∃ r, peekElfHdrs k rd true true ulp v sibs = some r ∧ r.vma.voffset = v.voffset ∧
      r.sibs.length = sibs.length ∧
      ∀ (i : Nat) (m m' : Area), sibs[i]? = some m → r.sibs[i]? = some m' →
        (v.prot = 0 → m'.voffset = m.voffset) ∧
        (v.prot ≠ 0 → ∀ s, LastOf (fun s : Seg => s.loadable ∧ m.pgoff <<< k = roundDown s.vaddr s.align) segs s →
          m'.voffset = s.vaddr) ∧
        ((∀ s ∈ segs, s.loadable → m.pgoff <<< k ≠ roundDown s.vaddr s.align) → m'.voffset = m.voffset) := by
  obtain ⟨relro, -, he⟩ := peek_result k rd ulp v sibs h segs low hf hs hlow hmax
  refine ⟨_, he, ?_, by simp, ?_⟩
  · obtain ⟨x, h1, -, -⟩ := fold_step k (v.start - low) relro (segs.map ofSeg)
      { v with isElf := true, isShareLib := shareLib { v with isElf := true } (parseEhdr h.bytes) (segs.map ofSeg), elf := .live ⟨parseEhdr h.bytes, segs.map ofSeg, v.start - low⟩ }
    dsimp only
    rw [h1]
  · intro i m m' h1 h2
    rw [List.getElem?_map, h1] at h2
    cases h2
    obtain ⟨o, ho, hl, hn⟩ := fold_vstep k v.prot (segs.map ofSeg) m
    dsimp only
    rw [ho]
    obtain ⟨x, h1, -, -⟩ := fold_step k (v.start - low) relro (segs.map ofSeg) { m with voffset := o }
    rw [h1]
    dsimp only
    refine ⟨?_, ?_, ?_⟩
    · intro h0
      exact hn fun p _ hp => hp.2.1 h0
    · intro h0 s hls
      refine hl (ofSeg s) (LastOf.map' (fun a _ => ?_) hls)
      rw [ofSeg_load, (C42_align _ _).2]
      exact ⟨fun h => ⟨h.1, h.2.2⟩, fun h => ⟨h.1, h0, h.2⟩⟩
    · intro hno
      refine hn fun p hp hq => ?_
      obtain ⟨s, hsm, rfl⟩ := List.mem_map.1 hp
      rw [ofSeg_load, (C42_align _ _).2] at hq
      exact hno s hsm hq.1 hq.2.2

/-- C122, the part of the claim on `Voffset` that holds.  If the segments of the file are
aligned to pages and mapped where they are in the file, the mapping of the segment `s` is
shown with the address of `s`. -/
theorem C122_voffset_partial {k : Nat} (hk : k < 64) (rd : BitVec 64 → Nat → Rd) (ulp : Int) (v : Area) (sibs : List Area)
    (h : Hdr) (segs : List Seg) (low : BitVec 64) (hf : Fresh v) (hs : Shows rd v h segs)
    (hlow : Lowest segs low) (hmax : low ≠ BitVec.allOnes 64) (hp : v.prot ≠ 0)
    (halign : ∀ s ∈ segs, s.loadable → s.align = BitVec.twoPow 64 k)
    (hsame : ∀ s ∈ segs, s.loadable → s.offset.toNat / 2 ^ k = s.vaddr.toNat / 2 ^ k)
    (hapart : ∀ s ∈ segs, ∀ t ∈ segs, s.loadable → t.loadable → s.vaddr.toNat / 2 ^ k = t.vaddr.toNat / 2 ^ k → s = t) :
    ∃ r, peekElfHdrs k rd true true ulp v sibs = some r ∧
      ∀ (i : Nat) (m m' : Area), sibs[i]? = some m → r.sibs[i]? = some m' →
        ∀ s ∈ segs, s.loadable → PageOf k s.offset.toNat (m.pgoff.toNat * 2 ^ k) → m'.voffset = s.vaddr := by
  obtain ⟨r, h1, -, -, h2⟩ := C122_voffset (k := k) rd ulp v sibs h segs low hf hs hlow hmax
  refine ⟨r, h1, ?_⟩
  intro i m m' hm hm' s hsm hsl hpg
  obtain ⟨-, h3, -⟩ := h2 i m m' hm hm'
  have h3 := h3 hp
  have hpos : 0 < 2 ^ k := Nat.pow_pos (by omega)
  have e1 := pageOf_iff.1 hpg
  have hlt : m.pgoff.toNat * 2 ^ k < 2 ^ 64 := by
    rw [e1]
    exact Nat.lt_of_le_of_lt (Nat.div_mul_le_self _ _) s.offset.isLt
  have hiff : ∀ t ∈ segs, t.loadable → (m.pgoff <<< k = roundDown t.vaddr t.align ↔ t = s) := by
    intro t ht htl
    rw [halign t ht htl, ← BitVec.toNat_inj, BitVec.toNat_shiftLeft, Nat.shiftLeft_eq, Nat.mod_eq_of_lt hlt]
    have e2 : (roundDown t.vaddr (BitVec.twoPow 64 k)).toNat = t.vaddr.toNat / 2 ^ k * 2 ^ k := and_not_mask hk _
    rw [e2, e1, hsame s hsm hsl]
    constructor
    · intro h
      exact hapart t ht s hsm htl hsl (Nat.eq_of_mul_eq_mul_right hpos h).symm
    · rintro rfl; rfl
  obtain ⟨z, hz⟩ := LastOf.exists (P := fun s : Seg => s.loadable ∧ m.pgoff <<< k = roundDown s.vaddr s.align) hsm
    ⟨hsl, (hiff s hsm hsl).2 rfl⟩
  have := (hiff z (LastOf.mem hz).1 (LastOf.mem hz).2.1).1 (LastOf.mem hz).2.2
  subst this
  exact h3 _ hz

/-! A program as the GNU linker makes it, position independent, loaded at
0x555555554000. -/

def guHdr : Hdr :=
  ⟨List.replicate 10 0, 3, 62, List.replicate 8 0, 64, List.replicate 16 0, 5, List.replicate 6 0,
    rfl, rfl, rfl, rfl⟩

def guText : Seg := ⟨1, 5, 0x1000, 0x1000, 0, 0x1234, 0x1234, 0x1000⟩
def guData : Seg := ⟨1, 6, 0x2df0, 0x3df0, 0, 0x220, 0x228, 0x1000⟩
def guRelro : Seg := ⟨0x6474e552, 4, 0x2df0, 0x3df0, 0, 0x210, 0x210, 1⟩

def guSegs : List Seg :=
  [⟨3, 4, 0x238, 0x238, 0, 0x1c, 0x1c, 1⟩, ⟨1, 4, 0, 0, 0, 0x6f0, 0x6f0, 0x1000⟩, guText, guData, guRelro]

/-- The memory of a process that has the file with the header `h` and the table `segs` at
0x555555554000. -/
def guRd (h : Hdr) (segs : List Seg) (a : BitVec 64) (n : Nat) : Rd :=
  if a = 0x555555554000 ∧ n = 64 then .got h.bytes
  else if a = 0x555555554040 ∧ n = segs.length * 56 then .got (table segs)
  else .failed

/-- The mapping of the pages from `a` to `b` of the program, with what is at the offset `off`
of the file. -/
def guArea (name : List Byte) (type : VmaType) (a b off : BitVec 64) (prot : BitVec 32) : Area :=
  ⟨0x555555554000 + a, 0x555555554000 + b, off, prot, name, type, false, false, none, .null, 0⟩

def guFirst : Area := guArea (lit "/bin/prog") .self 0 0x1000 0 1

/-- The text, the protected part of the data, and the rest of it. -/
def guSibs : List Area :=
  [guArea (lit "/bin/prog") .self 0x1000 0x3000 1 5, guArea (lit "/bin/prog") .self 0x3000 0x4000 2 1,
   guArea (lit "/bin/prog") .self 0x4000 0x5000 3 3]

theorem guFresh : Fresh guFirst :=
  ⟨rfl, rfl,
    fun h => absurd (List.isPrefixOf_iff_prefix.2 h)
      (show ¬ (lit "/etc").isPrefixOf (lit "/bin/prog") = true by decide),
    fun h => absurd (List.isPrefixOf_iff_prefix.2 h)
      (show ¬ (lit "/sys").isPrefixOf (lit "/bin/prog") = true by decide), Or.inr (Or.inl rfl)⟩

/-- The hypotheses of `C122_header`, `C122_gnu` and `C122_voffset` are met. -/
example : Fresh guFirst ∧ Shows (guRd guHdr guSegs) guFirst guHdr guSegs ∧ Lowest guSegs 0 ∧
    2 ^ 12 ∣ (guFirst.start - 0).toNat ∧ Fits 12 (guFirst.start - 0).toNat guSegs ∧
    GnuLayout 12 (guFirst.start - 0).toNat guSegs guData guRelro := by
  refine ⟨guFresh, ⟨rfl, rfl, rfl, by decide, by decide⟩, ⟨⟨_, List.mem_cons_of_mem _ List.mem_cons_self, rfl, rfl⟩, ?_⟩,
    by decide, ?_, ?_⟩
  · intro s _ _
    show (0 : BitVec 64).toNat ≤ _
    exact Nat.zero_le _
  · intro s hs _
    simp only [guSegs, guText, guData, guRelro, List.mem_cons, List.not_mem_nil, or_false] at hs
    rcases hs with rfl | rfl | rfl | rfl | rfl <;> exact ⟨by decide, by decide⟩
  · refine ⟨rfl, ⟨guSegs.take 3, [], [], rfl, by simp, ?_, ?_⟩, rfl, by decide, by decide, ?_⟩
    · intro s hs
      simp only [guSegs, guText, List.take, List.mem_cons, List.not_mem_nil, or_false] at hs
      rcases hs with rfl | rfl | rfl <;> (unfold Seg.relro; decide)
    · intro s hs _
      simp only [guSegs, guText, List.take, List.mem_cons, List.not_mem_nil, or_false] at hs
      rcases hs with rfl | rfl | rfl <;> decide
    · intro s hs t ht hsl htl he
      simp only [guSegs, List.mem_cons, List.not_mem_nil, or_false] at hs ht
      rcases hs with rfl | rfl | rfl | rfl | rfl <;> rcases ht with rfl | rfl | rfl | rfl | rfl <;>
        first
          | rfl
          | (exfalso; revert hsl; unfold Seg.loadable; decide)
          | (exfalso; revert htl; unfold Seg.loadable; decide)
          | (exfalso; revert he; decide)

/-- All four mappings of the program are shown with the right header. -/
example : (peekElfHdrs 12 (guRd guHdr guSegs) true true 0 guFirst guSibs).map (fun r => (r.ret, r.sibs.map (·.matched))) =
    some (0, [some (ofSeg guText), some (ofSeg guRelro), some (ofSeg guData)]) := by decide +kernel

/-- **Finding on C122**: `Voffset` of the data, protected part or not, is not its address
0x3df0, because the address is compared with the offset in the file: the protected part, at
offset 0x2000 of the file, is shown with 0, and the rest of it, which is at offset 0x3000, is
shown with the address of the protected part. -/
theorem C122_voffset_violated :
    PageOf 12 guData.offset.toNat (2 * 2 ^ 12) ∧
    (peekElfHdrs 12 (guRd guHdr guSegs) true true 0 guFirst guSibs).map (fun r => r.sibs.map (fun m => (m.pgoff, m.voffset))) =
      some [(1, 0x1000), (2, 0), (3, 0x3df0)] :=
  ⟨⟨by decide, by decide, by decide⟩, by decide +kernel⟩

/-- **Finding on C122**: a mapping that is a part of a segment, because the process changed
the protection of another page of it, is shown without header. -/
theorem C122_split :
    (peekElfHdrs 12 (guRd guHdr guSegs) true true 0 guFirst
      [guArea (lit "/bin/prog") .self 0x1000 0x2000 1 5, guArea (lit "/bin/prog") .self 0x2000 0x3000 2 7]).map
      (fun r => r.sibs.map (·.matched)) = some [none, none] := by decide +kernel

/-- A file whose protected part has a loadable segment of its own, as the LLVM linker makes
it. -/
def llRelro : Seg := ⟨1, 6, 0xdf0, 0x2df0, 0, 0x208, 0x208, 0x1000⟩
def llData : Seg := ⟨1, 6, 0xff8, 0x3ff8, 0, 0x10, 0x10, 0x1000⟩
def llSegs : List Seg :=
  [⟨1, 4, 0, 0, 0, 0x6f0, 0x6f0, 0x1000⟩, ⟨1, 5, 0x6f0, 0x16f0, 0, 0x100, 0x100, 0x1000⟩, llRelro, llData,
   ⟨0x6474e552, 4, 0xdf0, 0x2df0, 0, 0x208, 0x208, 1⟩]

/-- **Finding on C122**: before the dynamic linker has protected its first data segment,
the mapping of that segment is shown with the header of the second one, although it has
exactly the pages and the protection of the first one and not those of the second. -/
theorem C122_violated :
    llRelro.Pages 12 0x555555554000 0x555555556000 0x555555557000 ∧ llRelro.Prot 3 ∧
    ¬ llData.Pages 12 0x555555554000 0x555555556000 0x555555557000 ∧
    (peekElfHdrs 12 (guRd guHdr llSegs) true true 0 guFirst [guArea (lit "/bin/prog") .self 0x2000 0x3000 0 3]).map
      (fun r => r.sibs.map (·.matched)) = some [some (ofSeg llData)] := by
  refine ⟨⟨⟨by decide, by decide, by decide⟩, ⟨by decide, by decide, by decide⟩⟩, ⟨rfl, rfl, rfl⟩, ?_, by decide +kernel⟩
  rintro ⟨⟨-, -, h⟩, -⟩
  revert h
  decide

/-- The same program, linked so that its segments have the addresses that they have in the
file. -/
def coSegs : List Seg :=
  [⟨3, 4, 0x238, 0x238, 0, 0x1c, 0x1c, 1⟩, ⟨1, 4, 0, 0, 0, 0x6f0, 0x6f0, 0x1000⟩, guText,
   ⟨1, 6, 0x3df0, 0x3df0, 0, 0x220, 0x228, 0x1000⟩, ⟨4, 4, 0x254, 0x254, 0, 0x20, 0x20, 4⟩]

/-- The hypotheses of `C122_voffset_partial` are met, and its conclusion is about something. -/
example : Shows (guRd guHdr coSegs) guFirst guHdr coSegs ∧ Lowest coSegs 0 ∧ guFirst.prot ≠ 0 ∧
    (∀ s ∈ coSegs, s.loadable → s.align = BitVec.twoPow 64 12) ∧
    (∀ s ∈ coSegs, s.loadable → s.offset.toNat / 2 ^ 12 = s.vaddr.toNat / 2 ^ 12) ∧
    (∀ s ∈ coSegs, ∀ t ∈ coSegs, s.loadable → t.loadable → s.vaddr.toNat / 2 ^ 12 = t.vaddr.toNat / 2 ^ 12 → s = t) ∧
    PageOf 12 (0x3df0 : BitVec 64).toNat ((3 : BitVec 64).toNat * 2 ^ 12) := by
  refine ⟨⟨rfl, rfl, rfl, by decide, by decide⟩, ⟨⟨_, List.mem_cons_of_mem _ List.mem_cons_self, rfl, rfl⟩, ?_⟩,
    by decide, ?_, ?_, ?_, ⟨by decide, by decide, by decide⟩⟩
  · intro s _ _
    show (0 : BitVec 64).toNat ≤ _
    exact Nat.zero_le _
  · intro s hs hl
    simp only [coSegs, guText, List.mem_cons, List.not_mem_nil, or_false] at hs
    rcases hs with rfl | rfl | rfl | rfl | rfl <;>
      first
        | rfl
        | (exfalso; revert hl; unfold Seg.loadable; decide)
  · intro s hs _
    simp only [coSegs, guText, List.mem_cons, List.not_mem_nil, or_false] at hs
    rcases hs with rfl | rfl | rfl | rfl | rfl <;> decide
  · intro s hs t ht hsl htl he
    simp only [coSegs, guText, List.mem_cons, List.not_mem_nil, or_false] at hs ht
    rcases hs with rfl | rfl | rfl | rfl | rfl <;> rcases ht with rfl | rfl | rfl | rfl | rfl <;>
      first
        | rfl
        | (exfalso; revert hsl; unfold Seg.loadable; decide)
        | (exfalso; revert htl; unfold Seg.loadable; decide)
        | (exfalso; revert he; decide)

/-! C123 -/

/-- The names of files that are libraries although they ask for an interpreter. -/
def Runs (name : List Byte) : Prop :=
  lit "libssp" <+: name ∨
    (lit ".so" <:+ name ∧ (lit "libc" <+: name ∨ lit "libpthread" <+: name ∨ lit "libdl" <+: name))

theorem exception_iff (name : List Byte) : isInterpException name = true ↔ Runs name := by
  have hp : ∀ pre : List Byte, startswith name pre = true ↔ pre <+: name := fun _ => List.isPrefixOf_iff_prefix
  have hd : name.drop (name.length - 3) = lit ".so" ↔ lit ".so" <:+ name :=
    ⟨fun e => by rw [← e]; exact List.drop_suffix _ _, fun h => (List.suffix_iff_eq_drop.1 h).symm⟩
  unfold isInterpException Runs
  simp only [Bool.or_eq_true, Bool.and_eq_true, decide_eq_true_eq, hp, hd]
  constructor
  · rintro (((⟨h1, h2⟩ | h) | ⟨h1, h2⟩) | ⟨h1, h2⟩)
    · exact .inr ⟨h2, .inl h1⟩
    · exact .inl h
    · exact .inr ⟨h2, .inr (.inl h1)⟩
    · exact .inr ⟨h2, .inr (.inr h1)⟩
  · rintro (h | ⟨h2, h1 | h1 | h1⟩)
    · exact .inl (.inl (.inr h))
    · exact .inl (.inl (.inl ⟨h1, h2⟩))
    · exact .inl (.inr ⟨h1, h2⟩)
    · exact .inr ⟨h1, h2⟩

/-- C123, for all names of the mapping: the first mapping of a file is shown as a shared library exactly if it
is named like a library, or it is not the program itself, its file is of the dynamic kind, and asks for no
interpreter or has one of the names `Runs`. -/
theorem C123_library_any (shift : Nat) (rd : BitVec 64 → Nat → Rd) (ulp : Int) (v : Area) (sibs : List Area)
    (h : Hdr) (segs : List Seg) (low : BitVec 64) (hf : Fresh v) (hs : Shows rd v h segs)
    (hlow : Lowest segs low) (hmax : low ≠ BitVec.allOnes 64) :
    ∃ r, peekElfHdrs shift rd true true ulp v sibs = some r ∧ r.vma.isElf = true ∧
      (r.vma.isShareLib = true ↔
        v.type = .libc ∨ v.type = .libUnknown ∨
          (h.type = 3 ∧ v.type ≠ .self ∧ ((∀ s ∈ segs, s.type ≠ 3) ∨ Runs v.name))) ∧
      r.sibs.map (·.isShareLib) = sibs.map (·.isShareLib) ∧ r.sibs.map (·.isElf) = sibs.map (·.isElf) := by
  obtain ⟨relro, -, he⟩ := peek_result shift rd ulp v sibs h segs low hf hs hlow hmax
  refine ⟨_, he, ?_, ?_, ?_, ?_⟩
  · obtain ⟨x, h1, -, -⟩ := fold_step shift (v.start - low) relro (segs.map ofSeg)
      { v with isElf := true, isShareLib := shareLib { v with isElf := true } (parseEhdr h.bytes) (segs.map ofSeg), elf := .live ⟨parseEhdr h.bytes, segs.map ofSeg, v.start - low⟩ }
    dsimp only
    rw [h1]
  · obtain ⟨x, h1, -, -⟩ := fold_step shift (v.start - low) relro (segs.map ofSeg)
      { v with isElf := true, isShareLib := shareLib { v with isElf := true } (parseEhdr h.bytes) (segs.map ofSeg), elf := .live ⟨parseEhdr h.bytes, segs.map ofSeg, v.start - low⟩ }
    dsimp only
    rw [h1]
    unfold shareLib
    dsimp only
    rw [(Hdr_parse h).2.1]
    have hany : (segs.map ofSeg).any (fun p => decide (p.type = PT_INTERP) && !isInterpException v.name) = true ↔
        (∃ s ∈ segs, s.type = 3) ∧ ¬ Runs v.name := by
      simp only [List.any_map, List.any_eq_true, Function.comp_apply, Bool.and_eq_true, decide_eq_true_eq,
        Bool.not_eq_true', ← Bool.not_eq_true, exception_iff]
      constructor
      · rintro ⟨s, h1, h2, h3⟩
        exact ⟨⟨s, h1, BitVec.eq_of_toNat_eq h2⟩, h3⟩
      · rintro ⟨⟨s, h1, h2⟩, h3⟩
        exact ⟨s, h1, by simp [ofSeg, h2, PT_INTERP], h3⟩
    have ht : h.type.toNat = ET_DYN ↔ h.type = 3 :=
      ⟨fun e => BitVec.eq_of_toNat_eq e, fun e => by rw [e]; rfl⟩
    by_cases hc : h.type.toNat ≠ ET_DYN ∨ v.type = .self
    · rw [if_pos hc]
      simp only [Bool.false_or, Bool.or_eq_true, decide_eq_true_eq]
      constructor
      · rintro (h | h)
        · exact .inl h
        · exact .inr (.inl h)
      · rintro (h | h | ⟨h2, h3, -⟩)
        · exact .inl h
        · exact .inr h
        · exact absurd hc fun hc => hc.elim (fun e => e (ht.2 h2)) h3
    · rw [if_neg hc]
      have hc : h.type = 3 ∧ v.type ≠ .self :=
        ⟨ht.1 (Classical.not_not.1 fun e => hc (.inl e)), fun e => hc (.inr e)⟩
      simp only [Bool.or_eq_true, decide_eq_true_eq, Bool.not_eq_true']
      rw [← Bool.not_eq_true, hany]
      constructor
      · rintro ((h | h) | h)
        · exact .inr (.inr ⟨hc.1, hc.2, (Classical.em (Runs v.name)).symm.imp (fun n s hs e => h ⟨⟨s, hs, e⟩, n⟩) id⟩)
        · exact .inl h
        · exact .inr (.inl h)
      · rintro (h | h | ⟨-, -, h⟩)
        · exact .inl (.inr h)
        · exact .inr h
        · exact .inl (.inl fun ⟨⟨s, hs, e⟩, n⟩ => h.elim (fun h => h s hs e) n)
  all_goals
    dsimp only
    rw [List.map_map]
    apply List.map_congr_left
    intro m _
    obtain ⟨o, ho, -, -⟩ := fold_vstep shift v.prot (segs.map ofSeg) m
    dsimp only [Function.comp_apply]
    rw [ho]
    obtain ⟨x, h1, -, -⟩ := fold_step shift (v.start - low) relro (segs.map ofSeg) { m with voffset := o }
    rw [h1]

/-- C123.  For every file with loadable segments in a process: its first mapping is shown as
a shared library exactly if it is named like a library, or it is not the program itself and
its file is of the dynamic kind and asks for no interpreter.  The names that may ask for an
interpreter all the same, which start with `l`, are never found: the name is a path. -/
theorem C123_library (shift : Nat) (rd : BitVec 64 → Nat → Rd) (ulp : Int) (v : Area) (sibs : List Area)
    (h : Hdr) (segs : List Seg) (low : BitVec 64) (hf : Fresh v) (hs : Shows rd v h segs)
    (hlow : Lowest segs low) (hmax : low ≠ BitVec.allOnes 64) (hname : v.name.head? ≠ some 0x6c) :
    ∃ r, peekElfHdrs shift rd true true ulp v sibs = some r ∧ r.vma.isElf = true ∧
      (r.vma.isShareLib = true ↔
        v.type = .libc ∨ v.type = .libUnknown ∨
          (h.type = 3 ∧ v.type ≠ .self ∧ ∀ s ∈ segs, s.type ≠ 3)) ∧
      r.sibs.map (·.isShareLib) = sibs.map (·.isShareLib) ∧ r.sibs.map (·.isElf) = sibs.map (·.isElf) := by
  have hx : isInterpException v.name = false := by
    have key : ∀ pre : List Byte, pre.head? = some 0x6c → startswith v.name pre = false := by
      intro pre hp
      unfold startswith
      rw [Bool.eq_false_iff]
      intro hc
      obtain ⟨t, ht⟩ := List.isPrefixOf_iff_prefix.1 hc
      apply hname
      rw [← ht]
      cases pre with
      | nil => simp at hp
      | cons a l => simpa using hp
    unfold isInterpException
    rw [key (lit "libc") (by decide), key (lit "libssp") (by decide), key (lit "libpthread") (by decide),
      key (lit "libdl") (by decide)]
    rfl
  obtain ⟨r, h1, h2, h3, h4⟩ := C123_library_any shift rd ulp v sibs h segs low hf hs hlow hmax
  have hr : ¬ Runs v.name := fun hc => by rw [(exception_iff _).2 hc] at hx; cases hx
  refine ⟨r, h1, h2, ?_, h4⟩
  rw [h3]
  simp only [hr, or_false]

/-- The hypothesis on the name is met by every path, and so by the program above. -/
example : guFirst.name.head? ≠ some 0x6c ∧ Lowest guSegs 0 ∧ Shows (guRd guHdr guSegs) guFirst guHdr guSegs := by
  refine ⟨by decide, ⟨⟨_, List.mem_cons_of_mem _ List.mem_cons_self, rfl, rfl⟩, fun s _ _ => ?_⟩, rfl, rfl, rfl, by decide, by decide⟩
  show (0 : BitVec 64).toNat ≤ _
  exact Nat.zero_le _

/-- C123_library_any: a file named `libssp.so.0`, if the kernel gave only its name. -/
example : Runs (lit "libssp.so.0") ∧ Runs (lit "libdl-2.28.so") ∧ ¬ Runs (lit "/usr/lib/libssp.so.0") ∧ ¬ Runs (lit "libdl.so.2") := by
  unfold Runs
  exact ⟨.inl (by decide), .inr (by decide), by decide, by decide⟩

/-- **Finding on C123**: a program that cannot be a shared library (its file is of the kind
that has a fixed address), and asks for an interpreter, is shown as one if its name is like
that of a library. -/
theorem C123_violated :
    (peekElfHdrs 12 (guRd exHdr [guSegs[0], guText]) true true 0
      (guArea (lit "/opt/lib.so-tool") .libUnknown 0 0x1000 0 1) []).map (fun r => (r.ret, r.vma.isShareLib)) =
      some (0, true) ∧ exHdr.type = 2 := ⟨by decide +kernel, rfl⟩

/-- **Finding on C123**: a shared library that asks for an interpreter (such libraries can be
run) and is not named like one is not shown, although `libssp` is in the list of exceptions:
the list is compared with the path. -/
theorem C123_exception :
    (peekElfHdrs 12 (guRd guHdr guSegs) true true 0
      (guArea (lit "/usr/lib/libssp") .none 0 0x1000 0 1) []).map (fun r => (r.ret, r.vma.isShareLib)) =
      some (0, false) ∧ isInterpException (lit "libssp") = true := ⟨by decide +kernel, by decide⟩

end Ulp.Peek
