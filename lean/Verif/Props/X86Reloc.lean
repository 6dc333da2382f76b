/-
C10-C12: relocating a patch image on x86_64.
-/
import Verif.Proof.X86Reloc
namespace Ulp.X86Reloc

/-- The place `P` of a relocation: the address of its field in the target. -/
def target (c : RelaCtx) (r : Rela) : Addr := c.secAddr + r.offset

/-- Where the host keeps the byte that is at `a` in the target. -/
def host (c : RelaCtx) (a : Addr) : Addr := a + (c.hdr - c.targetHdr)

theorem loc_eq (c : RelaCtx) (r : Rela) : loc c r = host c (target c r) := by
  unfold loc host target
  rw [BitVec.add_assoc, BitVec.add_comm (c.hdr - c.targetHdr), ← BitVec.add_assoc]

/-- The fields of two relocations have no byte in common. -/
def FieldsApart (c : RelaCtx) (r r' : Rela) : Prop :=
  ∀ i j, i < Psabi.x86Width r.type → j < Psabi.x86Width r'.type →
    host c (target c r) + BitVec.ofNat 64 i ≠ host c (target c r') + BitVec.ofNat 64 j

theorem apart_of (c : RelaCtx) {rs : List Rela} (h : rs.Pairwise (FieldsApart c)) :
    rs.Pairwise (Apart c) :=
  h.imp fun {a b} hab => by
    unfold Apart Disjoint; rw [loc_eq, loc_eq]; exact hab

theorem psabi_width {type S A P w v} (h : Psabi.x86 type S A P = some (w, v)) :
    w = Psabi.x86Width type := by
  unfold Psabi.x86 at h
  split at h <;> first | (injection h with h; injection h with h _; subst h; rfl) | cases h

theorem psabi_wval {c first r s w v}
    (h : Psabi.x86 r.type s.value r.addend (target c r) = some (w, v)) : v = wval c first r s := by
  unfold Psabi.x86 at h
  unfold wval
  generalize r.type = t at *
  split at h <;>
    first | (injection h with h; injection h with _ h; subst h; rfl) | cases h

/-- C10.  If relocating a section succeeds, then every field of a supported type
holds the psABI value for the target address of the field, and every byte of
the image outside the fields is unchanged. -/
theorem C10_x86_values (c : RelaCtx) (m m' : Mem) (hap : c.rels.Pairwise (FieldsApart c))
    (h : relocate c m = some (m', 0)) :
    (∀ r ∈ c.rels, ∃ s, c.syms[r.sym]? = some s ∧
      ∀ w v, Psabi.x86 r.type s.value r.addend (target c r) = some (w, v) →
        Psabi.Holds m' (host c (target c r)) w v) ∧
    (∀ x, (∀ r ∈ c.rels, ∀ i, i < Psabi.x86Width r.type → x ≠ host c (target c r) + BitVec.ofNat 64 i) →
      m' x = m x) := by
  obtain ⟨first, he, _⟩ := relocate_eq c m
  rw [he] at h
  constructor
  · intro r hr
    obtain ⟨s, hs, _, _, hv⟩ := applyAll_values _ h (apart_of c hap) r hr
    refine ⟨s, hs, fun w v hwv => ?_⟩
    rw [psabi_width hwv, psabi_wval (first := first) hwv, ← loc_eq]
    exact hv
  · intro x hx
    refine applyAll_frame _ h x fun r hr i hi => ?_
    rw [loc_eq]; exact hx r hr i hi

/-- The GOT-relative types: the value stored is `S + A - P` (so the symbol table
must hold the address of a GOT slot) unless the symbol is a defined TLS one. -/
theorem C10_x86_got_values (c : RelaCtx) (m m' : Mem) (hap : c.rels.Pairwise (FieldsApart c))
    (h : relocate c m = some (m', 0)) (r : Rela) (hr : r ∈ c.rels)
    (ht : r.type = 9 ∨ r.type = 22 ∨ r.type = 41 ∨ r.type = 42) :
    ∃ s, c.syms[r.sym]? = some s ∧ ((s.type ≠ 6 ∨ s.shndx = 0) →
      Psabi.Holds m' (host c (target c r)) 4 (s.value + r.addend - target c r)) := by
  obtain ⟨first, he, _⟩ := relocate_eq c m
  rw [he] at h
  obtain ⟨s, hs, _, _, hv⟩ := applyAll_values _ h (apart_of c hap) r hr
  refine ⟨s, hs, fun hn => ?_⟩
  have hw : wval c first r s = s.value + r.addend - target c r := by
    have hn' : ¬ (isUndef s = false ∧ s.type = STT_TLS) := by
      rintro ⟨h1, h2⟩
      rcases hn with h | h
      · exact h h2
      · simp [isUndef, h] at h1
    rcases ht with ht | ht | ht | ht <;> rw [wval, ht] <;> exact if_neg hn'
  rw [← hw, ← loc_eq]
  rcases ht with ht | ht | ht | ht <;> rw [ht] at hv <;> exact hv

/-- Finding: for a defined TLS symbol the addend of the *first* entry of the
section is used, whatever the entry's own addend and symbol are
(src/arch/x86_64/patch.c:156 writes `rel->r_addend`, not `rel[i].r_addend`). -/
theorem C10_tls_uses_first_addend (c : RelaCtx) (m m' : Mem) (hap : c.rels.Pairwise (FieldsApart c))
    (h : relocate c m = some (m', 0)) (r0 : Rela) (rs : List Rela) (hc : c.rels = r0 :: rs)
    (r : Rela) (hr : r ∈ c.rels) (ht : r.type = 22) (s : Sym) (hs : c.syms[r.sym]? = some s)
    (htls : s.type = 6) (hdef : 0 < s.shndx ∧ s.shndx < 0xff00) :
    Psabi.Holds m' (host c (target c r)) 4 (r0.addend + c.targetHdr - 4 - target c r) := by
  obtain ⟨first, he, hf⟩ := relocate_eq c m
  rw [he] at h
  obtain ⟨s', hs', _, _, hv⟩ := applyAll_values _ h (apart_of c hap) r hr
  rw [hs] at hs'; injection hs' with hs'; subst hs'
  have hw : wval c first r s = r0.addend + c.targetHdr - 4 - target c r := by
    rw [wval, ht, ← hf r0 rs hc]
    exact if_pos ⟨by simp [isUndef]; omega, htls⟩
  rw [← hw, ← loc_eq]
  rw [ht] at hv; exact hv

/-- Finding: `TPOFF32`/`TPOFF64` entries are reported as applied although nothing
is written. -/
theorem C10_tpoff_ignored (c : RelaCtx) (m : Mem) (first : BitVec 64) (r : Rela) (s : Sym)
    (ht : r.type = 18 ∨ r.type = 23) : applyOne c first m r s = (m, 0) := by
  rcases ht with ht | ht <;> simp [applyOne, ht, RType.ofNat]

/-! ### C11 -/

/-- C11.  If any byte of any field is not zero, relocation does not succeed. -/
theorem C11_x86_nonzero_refused (c : RelaCtx) (m m' : Mem) (r : Rela) (hr : r ∈ c.rels) (i : Nat)
    (hi : i < Psabi.x86Width r.type) (hnz : m (host c (target c r) + BitVec.ofNat 64 i) ≠ 0) :
    relocate c m ≠ some (m', 0) := by
  intro h
  obtain ⟨first, he, _⟩ := relocate_eq c m
  rw [he] at h
  have := applyAll_zero _ h r hr i hi
  rw [loc_eq] at this
  exact hnz this

/-- C11.  Relocating twice: if the first run succeeds and stored a non-zero
value in some field, the second run fails. -/
theorem C11_x86_twice_refused (c : RelaCtx) (m m' m'' : Mem)
    (h : relocate c m = some (m', 0)) (hap : c.rels.Pairwise (FieldsApart c))
    (r : Rela) (hr : r ∈ c.rels) (s : Sym) (hs : c.syms[r.sym]? = some s) (w : Nat) (v : BitVec 64)
    (hv : Psabi.x86 r.type s.value r.addend (target c r) = some (w, v))
    (hnz : v.toNat % 2 ^ (8 * w) ≠ 0) :
    relocate c m' ≠ some (m'', 0) := by
  intro h2
  obtain ⟨s', hs', hh⟩ := (C10_x86_values c m m' hap h).1 r hr
  rw [hs] at hs'; injection hs' with hs'; subst hs'
  have hold := hh w v hv
  have hw := psabi_width hv
  have hw8 : w ≤ 8 := by rw [hw]; exact width_le _
  apply hnz
  have hz : ∀ i, i < w → (v >>> (8 * i)).setWidth 8 = (0 : Byte) := by
    intro i hi
    apply Classical.byContradiction
    intro hne
    refine C11_x86_nonzero_refused c m' m'' r hr i (by rw [← hw]; exact hi) ?_ h2
    rw [hold i hi]; exact hne
  have h0 : leNat (leBytes w v) = 0 := by
    rw [leNat_eq_zero]
    intro b hb
    simp only [leBytes, List.mem_map, List.mem_range] at hb
    obtain ⟨i, hi, rfl⟩ := hb
    exact hz i hi
  rw [leNat_leBytes] at h0
  rw [show (2:Nat) ^ (8 * w) = 256 ^ w by rw [Nat.pow_mul]]
  exact h0

/-- C11.  A refused non-zero field keeps its value: the entry writes nothing. -/
theorem C11_x86_refusal_keeps_field (c : RelaCtx) (first : BitVec 64) (m : Mem) (r : Rela) (s : Sym)
    (i : Nat) (hi : i < Psabi.x86Width r.type)
    (hnz : m (host c (target c r) + BitVec.ofNat 64 i) ≠ 0) :
    applyOne c first m r s = (m, RELOC_ENOEXEC) := by
  have hz : ¬ Zero m (loc c r) (Psabi.x86Width r.type) := by
    rw [loc_eq]; exact fun hz => hnz (hz i hi)
  rcases applyOne_cases c first m r s with ⟨_, h⟩ | ⟨_, _, h⟩ | ⟨_, h, _⟩ | ⟨_, h, _⟩
  · exact h
  · exact h
  · exact absurd h hz
  · exact absurd h hz

/-! ### C12 -/

theorem applyAll_fits {c first} (rs : List Rela) : ∀ {m m'},
    applyAll c first rs m = some (m', 0) → ∀ r ∈ rs, ∃ s, c.syms[r.sym]? = some s ∧
      accepted r.type = true ∧ ¬ rejects r.type (wval c first r s) := by
  induction rs with
  | nil => intro _ _ _ r hr; cases hr
  | cons r rs ih =>
    intro m m' h r' hr'
    obtain ⟨s, hs, hok, hrest⟩ := applyAll_cons_ok h
    rcases List.mem_cons.1 hr' with rfl | hr'
    · exact ⟨s, hs, hok.acc, hok.fits⟩
    · exact ih hrest r' hr'

/-- C12 for the absolute types: a value that does not fit makes relocation fail.
Missing: `PC32`/`PLT32`, see `C12_pc32_truncated`. -/
theorem C12_x86_overflow_refused_partial (c : RelaCtx) (m m' : Mem) (r : Rela) (hr : r ∈ c.rels)
    (ht : r.type = 10 ∨ r.type = 11) (s : Sym) (hs : c.syms[r.sym]? = some s)
    (hv : ¬ Psabi.x86Fits r.type (s.value + r.addend)) : relocate c m ≠ some (m', 0) := by
  intro h
  obtain ⟨first, he, _⟩ := relocate_eq c m
  rw [he] at h
  obtain ⟨s', hs', _, hrej⟩ := applyAll_fits _ h r hr
  rw [hs] at hs'; injection hs' with hs'; subst hs'
  apply hrej
  rcases ht with ht | ht <;> rw [ht] at hv <;> rw [rejects, wval, ht] <;> exact hv

/-- C12, other direction: if every entry is of a supported type, its value fits,
its field is zero and the fields are apart, relocation succeeds. -/
theorem C12_x86_fitting_accepted (c : RelaCtx) (m : Mem)
    (hsup : ∀ r ∈ c.rels, ∃ s w v, c.syms[r.sym]? = some s ∧
      Psabi.x86 r.type s.value r.addend (target c r) = some (w, v) ∧ Psabi.x86Fits r.type v)
    (hz : ∀ r ∈ c.rels, ∀ i, i < Psabi.x86Width r.type →
      m (host c (target c r) + BitVec.ofNat 64 i) = 0)
    (hap : c.rels.Pairwise (FieldsApart c)) :
    ∃ m', relocate c m = some (m', 0) := by
  obtain ⟨first, he, _⟩ := relocate_eq c m
  rw [he]
  refine applyAll_complete _ ?_ ?_ (apart_of c hap)
  · intro r hr
    obtain ⟨s, w, v, hs, hv, hf⟩ := hsup r hr
    refine ⟨s, hs, ?_, ?_⟩
    · unfold Psabi.x86 at hv
      generalize r.type = t at *
      split at hv <;> first | rfl | cases hv
    · rw [← psabi_wval (first := first) hv]
      unfold Psabi.x86 at hv
      generalize r.type = t at *
      split at hv <;> first | exact id | exact not_not_intro hf | cases hv
  · intro r hr i hi
    rw [loc_eq]; exact hz r hr i hi

/-- Violation of C12: a `PC32` or `PLT32` entry with a zero field is always
accepted; when the displacement does not fit, the stored field reaches a
different address. -/
theorem C12_pc32_truncated (c : RelaCtx) (first : BitVec 64) (m : Mem) (r : Rela) (s : Sym)
    (ht : r.type = 2 ∨ r.type = 4)
    (hz : ∀ i, i < 4 → m (host c (target c r) + BitVec.ofNat 64 i) = 0) :
    ∃ m', applyOne c first m r s = (m', 0) ∧
      (¬ Psabi.x86Fits r.type (s.value + r.addend - target c r) →
        target c r + loadS32 m' (host c (target c r)) ≠ s.value + r.addend) := by
  refine ⟨m.write (loc c r) (leBytes 4 (s.value + r.addend - (c.secAddr + r.offset))), ?_, ?_⟩
  · have : applyPc32 c m r (s.value + r.addend) =
        (m.write (loc c r) (leBytes 4 (s.value + r.addend - (c.secAddr + r.offset))), 0) := by
      rcases applyPc32_eq c m r (s.value + r.addend) with ⟨_, h⟩ | ⟨h, _⟩
      · exact absurd (by rw [loc_eq]; exact hz) h
      · exact h
    rcases ht with ht | ht <;> simpa [applyOne, ht, RType.ofNat] using this
  · intro hnf heq
    rw [← loc_eq, loadS32_write] at heq
    have h1 : (s.value + r.addend - target c r) =
        ((s.value + r.addend - target c r).setWidth 32).signExtend 64 := by
      conv => lhs; rw [← heq]
      rw [BitVec.add_comm, BitVec.add_sub_cancel]; rfl
    apply hnf
    have := (fits32s _).1 h1
    rcases ht with ht | ht <;> rw [ht] <;> exact this

/-! ### A concrete case -/

/-- Image at 0x7f0000000000 in the host, 0x10000000 in the target; a call and a
64-bit pointer in a section at offset 0x40. -/
def exCtx : RelaCtx where
  hdr := 0x7f0000000000
  targetHdr := 0x10000000
  secAddr := 0x10000040
  rels := [⟨1, 1, 4, -4⟩, ⟨8, 1, 1, 0x10⟩, ⟨16, 1, 11, 0⟩]
  syms := [⟨0, 0, 0⟩, ⟨0x401000, 2, 0⟩]

example : ∃ m', relocate exCtx (fun _ => 0) = some (m', 0) ∧
    (m'.read 0x7f0000000041 4 = [0xbb, 0x0f, 0x40, 0xf0]) ∧
    m'.read 0x7f0000000048 8 = [0x10, 0x10, 0x40, 0, 0, 0, 0, 0] := by
  exact ⟨_, rfl, by decide, by decide⟩

example : exCtx.rels.Pairwise (FieldsApart exCtx) := by
  have key : ∀ (a b : Addr) (n k : Nat), a.toNat + n ≤ b.toNat → b.toNat + k < 2^64 →
      ∀ i j, i < n → j < k → a + BitVec.ofNat 64 i ≠ b + BitVec.ofNat 64 j := by
    intro a b n k h1 h2 i j hi hj he
    have := congrArg BitVec.toNat he
    simp only [BitVec.toNat_add, BitVec.toNat_ofNat] at this
    omega
  simp only [exCtx, List.pairwise_cons, List.mem_cons, List.not_mem_nil, or_false, forall_eq_or_imp,
    forall_eq]
  refine ⟨⟨?_, ?_⟩, ?_, ?_⟩
  · exact key _ _ _ _ (by decide) (by decide)
  · exact key _ _ _ _ (by decide) (by decide)
  · exact key _ _ _ _ (by decide) (by decide)
  · simp

/-- C12: a 32S value that does not fit, and a PC32 displacement that does not. -/
example : ¬ Psabi.x86Fits 11 (0x80000000 : BitVec 64) ∧ Psabi.x86Fits 11 (-0x80000000 : BitVec 64) ∧
    ¬ Psabi.x86Fits 2 (0x7f0000000000 - 0x10000000 : BitVec 64) := by
  refine ⟨?_, ?_, ?_⟩ <;> simp only [Psabi.x86Fits] <;> decide

end Ulp.X86Reloc
