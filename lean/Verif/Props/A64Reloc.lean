/-
C15 and C16: relocating a patch image on aarch64.
-/
import Verif.Proof.A64Reloc
import Verif.Spec.Psabi
namespace Ulp.A64Reloc
open A64Insn A64

/-- The place of a relocation: the address of its field in the target. -/
def target (c : RelaCtx) (r : Rela) : Addr := c.secAddr + r.offset

/-- Host minus target address of the image. -/
def off (c : RelaCtx) : BitVec 64 := c.hdr - c.targetHdr

/-- Where the host keeps the byte that is at `a` in the target. -/
def host (c : RelaCtx) (a : Addr) : Addr := a + off c

theorem loc_eq (c : RelaCtx) (r : Rela) : loc c r = host c (target c r) := by
  unfold loc host target off
  rw [BitVec.add_assoc, BitVec.add_comm (c.hdr - c.targetHdr), ← BitVec.add_assoc]

/-- The fields of two relocations have no byte in common. -/
def FieldsApart (c : RelaCtx) (r r' : Rela) : Prop :=
  ∀ i j, i < Psabi.a64Width r.type → j < Psabi.a64Width r'.type →
    host c (target c r) + BitVec.ofNat 64 i ≠ host c (target c r') + BitVec.ofNat 64 j

/-- The section was relocated successfully, `m` before and `m'` after; `junk`
is whatever the uninitialised variable `overflow_check` held. -/
structure Done (c : RelaCtx) (junk : Bool) (m m' : Mem) : Prop where
  ok : relocate c junk m = some (m', 0)
  apart : c.rels.Pairwise (FieldsApart c)

/-- `r` is an entry of the table, referring to symbol value + addend `SA`. -/
def Entry (c : RelaCtx) (r : Rela) (SA : BitVec 64) : Prop :=
  r ∈ c.rels ∧ ∃ s, c.syms[r.sym]? = some s ∧ SA = s.value + r.addend

/-- A CPU of the target process is at the place of `r`, and sees there the
instruction that the host's image contains. -/
structure At (c : RelaCtx) (m' : Mem) (r : Rela) (s : Cpu) : Prop where
  pc : s.pc = target c r
  code : fetch s.mem s.pc = fetch m' (host c (target c r))

theorem apart_of (c : RelaCtx) {rs : List Rela} (h : rs.Pairwise (FieldsApart c)) :
    rs.Pairwise (Apart c) :=
  h.imp fun {a b} hab => by
    unfold Apart Disjoint; rw [loc_eq, loc_eq]; exact hab

theorem Done.value {c junk m m' r SA} (h : Done c junk m m') (he : Entry c r SA) :
    ∃ a nc, table r.type = some (a, nc) ∧
      m'.read (host c (target c r)) (Psabi.a64Width r.type) =
        bytesOf a (host c (target c r)) SA (word m (host c (target c r))) := by
  obtain ⟨hr, s, hs, rfl⟩ := he
  obtain ⟨s', a, nc, hs', ht, hv⟩ := applyAll_values _ h.ok (apart_of c h.apart) r hr
  rw [hs] at hs'; injection hs' with hs'; subst hs'
  rw [loc_eq] at hv
  exact ⟨a, nc, ht, hv⟩

theorem Done.imm {c junk m m' r SA op lsb len t nc} (h : Done c junk m m') (he : Entry c r SA)
    (ht : table r.type = some (.imm op lsb len t, nc)) :
    fetch m' (host c (target c r)) =
      (relocImm op (host c (target c r)) SA lsb len t (fetch m (host c (target c r)))).1 := by
  obtain ⟨a, nc', ht', hv⟩ := h.value he
  rw [ht] at ht'; injection ht' with ht'; injection ht' with ht' _; subst ht'
  rw [← width_table ht] at hv
  exact word_of_read hv

theorem Done.movw {c junk m m' r SA op lsb nz nc} (h : Done c junk m m') (he : Entry c r SA)
    (ht : table r.type = some (.movw op lsb nz, nc)) :
    fetch m' (host c (target c r)) =
      (relocMovw op (host c (target c r)) SA lsb nz (fetch m (host c (target c r)))).1 := by
  obtain ⟨a, nc', ht', hv⟩ := h.value he
  rw [ht] at ht'; injection ht' with ht'; injection ht' with ht' _; subst ht'
  rw [← width_table ht] at hv
  exact word_of_read hv

/-! ### Scaled immediates -/

theorem scaled26 (x : BitVec 64) (hx : x &&& 3 = 0) (h1 : -2^27 ≤ x.toInt) (h2 : x.toInt < 2^27) :
    ((x.sshiftRight 2).setWidth 26 ++ (0 : BitVec 2) : BitVec 28).signExtend 64 = x := by
  have e : ((x.sshiftRight 2).setWidth 26 ++ (0 : BitVec 2) : BitVec 28) = x.setWidth 28 :=
    scale_append x 26 2 (by omega) (aligned4_low hx)
  rw [e]; exact ((fitsS28 x).2 ⟨h1, h2⟩).symm

theorem scaled19 (x : BitVec 64) (hx : x &&& 3 = 0) (h1 : -2^20 ≤ x.toInt) (h2 : x.toInt < 2^20) :
    ((x.sshiftRight 2).setWidth 19 ++ (0 : BitVec 2) : BitVec 21).signExtend 64 = x := by
  have e : ((x.sshiftRight 2).setWidth 19 ++ (0 : BitVec 2) : BitVec 21) = x.setWidth 21 :=
    scale_append x 19 2 (by omega) (aligned4_low hx)
  rw [e]; exact ((fitsS21 x).2 ⟨h1, h2⟩).symm

theorem fitsS16 (v : BitVec 64) :
    v = (v.setWidth 16).signExtend 64 ↔ (-2^15 ≤ v.toInt ∧ v.toInt < 2^15) := by
  rw [← BitVec.toInt_inj, BitVec.toInt_signExtend, show min 64 16 = 16 from rfl]
  have := v.isLt; fitsS

theorem scaled14 (x : BitVec 64) (hx : x &&& 3 = 0) (h1 : -2^15 ≤ x.toInt) (h2 : x.toInt < 2^15) :
    ((x.sshiftRight 2).setWidth 14 ++ (0 : BitVec 2) : BitVec 16).signExtend 64 = x := by
  have e : ((x.sshiftRight 2).setWidth 14 ++ (0 : BitVec 2) : BitVec 16) = x.setWidth 16 :=
    scale_append x 14 2 (by omega) (aligned4_low hx)
  rw [e]; exact ((fitsS16 x).2 ⟨h1, h2⟩).symm

theorem page_low (a : BitVec 64) (i : Nat) (hi : i < 12) : (page a).getLsbD i = false := by
  unfold page
  refine Eq.trans (BitVec.getLsbD_append ..) ?_
  rw [if_pos hi]; simp

theorem page_toNat (a : BitVec 64) : (page a).toNat = a.toNat - a.toNat % 4096 := by
  unfold page
  rw [BitVec.toNat_append]
  have h0 : (0 : BitVec 12).toNat = 0 := rfl
  have := a.isLt
  rw [BitVec.extractLsb'_toNat, h0, Nat.or_zero, Nat.shiftLeft_eq, Nat.shiftRight_eq_div_pow]
  omega

theorem and_not_page (a : BitVec 64) : a &&& ~~~ 0xfff = page a := by
  apply BitVec.eq_of_getLsbD_eq
  intro i hi
  have hm : ∀ i, i < 64 → (0xfff : BitVec 64).getLsbD i = decide (i < 12) := by decide
  rw [BitVec.getLsbD_and, BitVec.getLsbD_not, hm i hi]
  refine Eq.trans ?_ (BitVec.getLsbD_append ..).symm
  by_cases h : i < 12
  · simp [h]
  · rw [if_neg h, BitVec.getLsbD_extractLsb']
    have e : 12 + (i - 12) = i := by omega
    have e2 : i - 12 < 52 := by omega
    simp [h, hi, e, e2]

theorem mod4096_sub (a b : BitVec 64) (ha : a.toNat % 4096 = 0) (hb : b.toNat % 4096 = 0) (i : Nat)
    (hi : i < 12) : (a - b).getLsbD i = false := by
  have h : (a - b).toNat % 2^12 = 0 := by
    rw [BitVec.toNat_sub]
    have := a.isLt; have := b.isLt
    omega
  have := congrArg (Nat.testBit · i) h
  simp only [Nat.testBit_mod_two_pow, hi, decide_true, Bool.true_and, Nat.zero_testBit] at this
  exact this

theorem scaledPage (v p : BitVec 64) (h1 : -2^32 ≤ (page v - page p).toInt)
    (h2 : (page v - page p).toInt < 2^32) :
    (((page v - page p).sshiftRight 12).setWidth 21 ++ (0 : BitVec 12) : BitVec 33).signExtend 64 =
      page v - page p := by
  have hv : (page v).toNat % 4096 = 0 := by rw [page_toNat]; omega
  have hp : (page p).toNat % 4096 = 0 := by rw [page_toNat]; omega
  have e : (((page v - page p).sshiftRight 12).setWidth 21 ++ (0 : BitVec 12) : BitVec 33) =
      (page v - page p).setWidth 33 :=
    scale_append _ 21 12 (by omega) (fun i hi => mod4096_sub _ _ hv hp i hi)
  rw [e]; exact ((fitsS33 _).2 ⟨h1, h2⟩).symm

/-- Host-relative displacement applied at the target. -/
theorem shift_back (c : RelaCtx) (T V : BitVec 64) : T + (V - host c T) = V - off c := by
  unfold host
  rw [BitVec.sub_eq_add_neg, BitVec.sub_eq_add_neg, BitVec.neg_add, BitVec.sub_eq_add_neg]
  rw [BitVec.add_comm T, BitVec.add_assoc V, BitVec.add_comm (-T), BitVec.add_assoc (-off c),
    BitVec.add_comm (-T) T, BitVec.add_right_neg, BitVec.add_zero]

theorem off_zero {c : RelaCtx} (h : c.hdr = c.targetHdr) : off c = 0 := by
  unfold off; rw [h, BitVec.sub_self]; rfl

theorem sub_ne {a b : BitVec 64} (h : b ≠ 0) : a - b ≠ a := by
  intro e
  apply h
  apply BitVec.eq_of_toNat_eq
  have := congrArg BitVec.toNat e
  rw [BitVec.toNat_sub] at this
  have h1 := a.isLt; have h2 := b.isLt
  have h0 : (0 : BitVec 64).toNat = 0 := rfl
  omega

theorem host_zero {c : RelaCtx} (h : c.hdr = c.targetHdr) (a : Addr) : host c a = a := by
  unfold host; rw [off_zero h]; simp

/-! ### C15: branches -/

/-- What a relocated `B`/`BL` really does: it reaches `S+A` minus the distance
between the host's and the target's mapping of the image. -/
theorem C15_a64_branch_destination (c : RelaCtx) (junk : Bool) (m m' : Mem) (hd : Done c junk m m')
    (r : Rela) (SA : BitVec 64) (he : Entry c r SA) (ht : r.type = 282 ∨ r.type = 283)
    (s : Cpu) (hat : At c m' r s)
    (hal : SA - host c (target c r) &&& 3 = 0)
    (h1 : -2^27 ≤ (SA - host c (target c r)).toInt) (h2 : (SA - host c (target c r)).toInt < 2^27) :
    ((fetch m (host c (target c r))).extractLsb' 26 6 = 0b000101 →
      ∃ s', step s = some s' ∧ s'.pc = SA - off c ∧ s'.x = s.x ∧ s'.mem = s.mem) ∧
    ((fetch m (host c (target c r))).extractLsb' 26 6 = 0b100101 →
      ∃ s', step s = some s' ∧ s'.pc = SA - off c ∧ s'.x 30 = s.pc + 4 ∧ s'.mem = s.mem) := by
  have htab : table r.type = some (.imm .prel 2 26 .i26, false) := by rcases ht with ht | ht <;> rw [ht] <;> rfl
  have hw := hd.imm he htab
  have hdest : s.pc + (((SA - host c (target c r)).sshiftRight 2).setWidth 26 ++ (0 : BitVec 2) : BitVec 28).signExtend 64
      = SA - off c := by
    rw [scaled26 _ hal h1 h2, hat.pc, shift_back]
  generalize fetch m (host c (target c r)) = w at *
  have hfield : ∀ (hne : w ≠ BREAK_FAULT),
      (relocImm .prel (host c (target c r)) SA 2 26 .i26 w).1.extractLsb' 0 26 =
        ((SA - host c (target c r)).sshiftRight 2).setWidth 26 := by
    intro hne
    rw [relocImm_field (t := .i26) (lo := 0) (n := 26) rfl _ _ _ _ _ (by omega) _ hne]
    simp only [BitVec.setWidth_eq, doReloc]
  constructor
  · intro hcls
    have hne : w ≠ BREAK_FAULT := ne_of_ext hcls _ (by decide)
    have hk := relocImm_keep (t := .i26) (lo := 0) (n := 26) rfl .prel (host c (target c r)) SA 2 26
      (by omega) w hne 26 6 (by omega) (by omega)
    have hdec := decode_b (hk.trans hcls)
    rw [hfield hne] at hdec
    refine ⟨⟨SA - off c, s.x, s.mem⟩, ?_, rfl, rfl, rfl⟩
    unfold step
    rw [hat.code, hw, hdec]
    show exec s (.b _) = _
    unfold exec
    dsimp only
    rw [hdest]
  · intro hcls
    have hne : w ≠ BREAK_FAULT := ne_of_ext hcls _ (by decide)
    have hk := relocImm_keep (t := .i26) (lo := 0) (n := 26) rfl .prel (host c (target c r)) SA 2 26
      (by omega) w hne 26 6 (by omega) (by omega)
    have hdec := decode_bl (hk.trans hcls)
    rw [hfield hne] at hdec
    refine ⟨{ s.set 30 (s.pc + 4) with pc := SA - off c }, ?_, rfl,
      (if_pos (by decide) : (if (30 : Fin 31).val = (30 : BitVec 5).toNat then s.pc + 4 else s.x 30) = _), rfl⟩
    unfold step
    rw [hat.code, hw, hdec]
    show exec s (.bl _) = _
    unfold exec
    dsimp only
    rw [hdest]

/-- C15, branches: a relocated `B`/`BL` reaches `S+A`.  Partial: needs the image
at the same address in host and target. -/
theorem C15_a64_branch_partial (c : RelaCtx) (junk : Bool) (m m' : Mem) (hd : Done c junk m m')
    (hsame : c.hdr = c.targetHdr)
    (r : Rela) (SA : BitVec 64) (he : Entry c r SA) (ht : r.type = 282 ∨ r.type = 283)
    (s : Cpu) (hat : At c m' r s) (hSA : SA &&& 3 = 0) (hP : target c r &&& 3 = 0)
    (h1 : -2^27 ≤ (SA - target c r).toInt) (h2 : (SA - target c r).toInt < 2^27) :
    ((fetch m (host c (target c r))).extractLsb' 26 6 = 0b000101 →
      ∃ s', step s = some s' ∧ s'.pc = SA ∧ s'.x = s.x ∧ s'.mem = s.mem) ∧
    ((fetch m (host c (target c r))).extractLsb' 26 6 = 0b100101 →
      ∃ s', step s = some s' ∧ s'.pc = SA ∧ s'.x 30 = s.pc + 4 ∧ s'.mem = s.mem) := by
  have e := host_zero hsame (target c r)
  have := C15_a64_branch_destination c junk m m' hd r SA he ht s hat
    (by rw [e]; exact aligned4_sub hSA hP) (by rw [e]; exact h1) (by rw [e]; exact h2)
  rw [off_zero hsame] at this
  simpa using this

/-- Violation of C15: when the image is at different addresses in host and
target (which is what happens: the two mappings are created independently), an
in-range relocated branch never reaches `S+A`. -/
theorem C15_a64_branch_wrong (c : RelaCtx) (junk : Bool) (m m' : Mem) (hd : Done c junk m m')
    (hdiff : c.hdr ≠ c.targetHdr)
    (r : Rela) (SA : BitVec 64) (he : Entry c r SA) (ht : r.type = 282 ∨ r.type = 283)
    (s : Cpu) (hat : At c m' r s)
    (hal : SA - host c (target c r) &&& 3 = 0)
    (h1 : -2^27 ≤ (SA - host c (target c r)).toInt) (h2 : (SA - host c (target c r)).toInt < 2^27)
    (hcls : (fetch m (host c (target c r))).extractLsb' 26 6 = 0b100101) :
    ∃ s', step s = some s' ∧ s'.pc ≠ SA := by
  obtain ⟨s', h, hp, _⟩ := (C15_a64_branch_destination c junk m m' hd r SA he ht s hat hal h1 h2).2 hcls
  refine ⟨s', h, ?_⟩
  rw [hp]
  apply sub_ne
  intro h0
  apply hdiff
  unfold off at h0
  have := congrArg (· + c.targetHdr) h0
  simpa [BitVec.sub_add_cancel] using this

/-! ### C15: addresses -/

theorem set_get (s : Cpu) (r : BitVec 5) (v : BitVec 64) (h : r ≠ 31) : (s.set r v).get r = v := by
  have hr : r.toNat < 31 := by
    have h1 := r.isLt
    have h2 : r.toNat ≠ 31 := fun k => h (BitVec.eq_of_toNat_eq (by simpa using k))
    omega
  unfold Cpu.get Cpu.set
  simp [hr]

theorem pc_get (s : Cpu) (p : BitVec 64) (r : BitVec 5) : ({ s with pc := p } : Cpu).get r = s.get r := rfl

/-- `ADR Xd, sym`. -/
theorem C15_a64_adr_partial (c : RelaCtx) (junk : Bool) (m m' : Mem) (hd : Done c junk m m')
    (hsame : c.hdr = c.targetHdr)
    (r : Rela) (SA : BitVec 64) (he : Entry c r SA) (ht : r.type = 274)
    (s : Cpu) (hat : At c m' r s)
    (hcls : (fetch m (host c (target c r))).extractLsb' 24 5 = 0b10000)
    (hadr : (fetch m (host c (target c r))).extractLsb' 31 1 = 0)
    (h1 : -2^20 ≤ (SA - target c r).toInt) (h2 : (SA - target c r).toInt < 2^20) :
    ∃ s', step s = some s' ∧ s'.pc = s.pc + 4 ∧ s'.mem = s.mem ∧
      ∀ rd, rd = (fetch m (host c (target c r))).extractLsb' 0 5 → rd ≠ 31 → s'.get rd = SA := by
  have htab : table r.type = some (.imm .prel 0 21 .adr, false) := by rw [ht]; rfl
  have hw := hd.imm he htab
  have e := host_zero hsame (target c r)
  rw [e] at hw hcls hadr ⊢
  have hcode := hat.code
  rw [e, hw] at hcode
  generalize fetch m (target c r) = w at *
  have hne : w ≠ BREAK_FAULT := ne_of_ext hcls _ (by decide)
  have k1 := relocAdr_keep .prel (target c r) SA 0 (by omega) w hne 24 5 (by omega) (by omega)
  have k2 := relocAdr_keep .prel (target c r) SA 0 (by omega) w hne 31 1 (by omega) (by omega)
  have k3 := relocAdr_keep .prel (target c r) SA 0 (by omega) w hne 0 5 (by omega) (by omega)
  have kf := relocAdr_field .prel (target c r) SA 0 (by omega) w hne
  have hdec := adr_class (k1.trans hcls)
  rw [if_pos (k2.trans hadr), kf, k3] at hdec
  have hx : (((doReloc .prel (target c r) SA).sshiftRight 0).setWidth 21).signExtend 64 = SA - target c r := by
    have e0 : ((doReloc .prel (target c r) SA).sshiftRight 0) = SA - target c r := by
      simp [doReloc]
    rw [e0]; exact ((fitsS21 _).2 ⟨h1, h2⟩).symm
  refine ⟨{ s.set (w.extractLsb' 0 5) SA with pc := s.pc + 4 }, ?_, rfl, rfl, ?_⟩
  · unfold step
    rw [hcode, hdec]
    show exec s (.adr _ _) = _
    unfold exec
    dsimp only
    rw [hx, hat.pc, BitVec.add_comm (target c r) (SA - target c r), BitVec.sub_add_cancel]
  · intro rd hrd h31
    subst hrd
    rw [pc_get]
    exact set_get s _ _ h31

/-- `LDR Xt, =literal`: the load reads the quadword at `S+A`. -/
theorem C15_a64_ldr_literal_partial (c : RelaCtx) (junk : Bool) (m m' : Mem) (hd : Done c junk m m')
    (hsame : c.hdr = c.targetHdr)
    (r : Rela) (SA : BitVec 64) (he : Entry c r SA) (ht : r.type = 273)
    (s : Cpu) (hat : At c m' r s)
    (hcls : (fetch m (host c (target c r))).extractLsb' 24 8 = 0x58)
    (hSA : SA &&& 3 = 0) (hP : target c r &&& 3 = 0)
    (h1 : -2^20 ≤ (SA - target c r).toInt) (h2 : (SA - target c r).toInt < 2^20) :
    ∃ s', step s = some s' ∧ s'.pc = s.pc + 4 ∧ s'.mem = s.mem ∧
      ∀ rt, rt = (fetch m (host c (target c r))).extractLsb' 0 5 → rt ≠ 31 →
        s'.get rt = quad s.mem SA := by
  have htab : table r.type = some (.imm .prel 2 19 .i19, false) := by rw [ht]; rfl
  have hw := hd.imm he htab
  have e := host_zero hsame (target c r)
  rw [e] at hw hcls ⊢
  have hcode := hat.code
  rw [e, hw] at hcode
  generalize fetch m (target c r) = w at *
  have hne : w ≠ BREAK_FAULT := ne_of_ext hcls _ (by decide)
  have k1 := relocImm_keep (t := .i19) (lo := 5) (n := 19) rfl .prel (target c r) SA 2 19 (by omega) w hne 24 8 (by omega) (by omega)
  have k3 := relocImm_keep (t := .i19) (lo := 5) (n := 19) rfl .prel (target c r) SA 2 19 (by omega) w hne 0 5 (by omega) (by omega)
  have kf := relocImm_field (t := .i19) (lo := 5) (n := 19) rfl .prel (target c r) SA 2 19 (by omega) w hne
  have hdec := decode_ldr (k1.trans hcls)
  rw [kf, k3] at hdec
  have hx : ((((((doReloc .prel (target c r) SA).sshiftRight 2).setWidth 19).setWidth 19) ++ (0 : BitVec 2)).signExtend 64 : BitVec 64) = SA - target c r := by
    rw [BitVec.setWidth_eq]
    exact scaled19 (SA - target c r) (aligned4_sub hSA hP) h1 h2
  refine ⟨{ s.set (w.extractLsb' 0 5) (quad s.mem SA) with pc := s.pc + 4 }, ?_, rfl, rfl, ?_⟩
  · unfold step
    rw [hcode, hdec]
    show exec s (.ldrLit _ _) = _
    unfold exec
    dsimp only
    rw [hx, hat.pc, BitVec.add_comm (target c r) (SA - target c r), BitVec.sub_add_cancel]
  · intro rd hrd h31
    subst hrd
    rw [pc_get]
    exact set_get s _ _ h31

theorem page_add_low (v : BitVec 64) : page v + (v.setWidth 12).setWidth 64 = v := by
  apply BitVec.eq_of_toNat_eq
  rw [BitVec.toNat_add, page_toNat]
  simp only [BitVec.toNat_setWidth]
  have := v.isLt
  omega

/-- `ADRP Xd, sym` computes the page of `S+A`. -/
theorem C15_a64_adrp_partial (c : RelaCtx) (junk : Bool) (m m' : Mem) (hd : Done c junk m m')
    (hsame : c.hdr = c.targetHdr)
    (r : Rela) (SA : BitVec 64) (he : Entry c r SA) (ht : r.type = 275 ∨ r.type = 276)
    (s : Cpu) (hat : At c m' r s)
    (hcls : (fetch m (host c (target c r))).extractLsb' 24 5 = 0b10000)
    (hadrp : (fetch m (host c (target c r))).extractLsb' 31 1 = 1)
    (h1 : -2^32 ≤ (page SA - page (target c r)).toInt) (h2 : (page SA - page (target c r)).toInt < 2^32) :
    step s = some { s.set ((fetch m (host c (target c r))).extractLsb' 0 5) (page SA) with pc := s.pc + 4 } := by
  have htab : ∃ nc, table r.type = some (.imm .page 12 21 .adr, nc) := by
    rcases ht with ht | ht <;> rw [ht] <;> exact ⟨_, rfl⟩
  obtain ⟨nc, htab⟩ := htab
  have hw := hd.imm he htab
  have e := host_zero hsame (target c r)
  rw [e] at hw hcls hadrp ⊢
  have hcode := hat.code
  rw [e, hw] at hcode
  generalize fetch m (target c r) = w at *
  have hne : w ≠ BREAK_FAULT := ne_of_ext hcls _ (by decide)
  have k1 := relocAdr_keep .page (target c r) SA 12 (by omega) w hne 24 5 (by omega) (by omega)
  have k2 := relocAdr_keep .page (target c r) SA 12 (by omega) w hne 31 1 (by omega) (by omega)
  have k3 := relocAdr_keep .page (target c r) SA 12 (by omega) w hne 0 5 (by omega) (by omega)
  have kf := relocAdr_field .page (target c r) SA 12 (by omega) w hne
  have hdec := adr_class (k1.trans hcls)
  rw [if_neg (by rw [k2.trans hadrp]; decide), kf, k3] at hdec
  have hx : ((((doReloc .page (target c r) SA).sshiftRight 12).setWidth 21 ++ (0 : BitVec 12)).signExtend 64 : BitVec 64) = page SA - page (target c r) := by
    simp only [doReloc, and_not_page]
    exact scaledPage SA (target c r) h1 h2
  unfold step
  rw [hcode, hdec]
  show exec s (.adrp _ _) = _
  unfold exec
  dsimp only
  rw [hx, hat.pc, BitVec.add_comm (page (target c r)), BitVec.sub_add_cancel]

/-- `ADD Xd, Xn, #:lo12:sym` adds the low 12 bits of `S+A`; this one does not
depend on the place. -/
theorem C15_a64_add_lo12 (c : RelaCtx) (junk : Bool) (m m' : Mem) (hd : Done c junk m m')
    (r : Rela) (SA : BitVec 64) (he : Entry c r SA) (ht : r.type = 277)
    (s : Cpu) (hat : At c m' r s) (rd rn : BitVec 5)
    (hcls : (fetch m (host c (target c r))).extractLsb' 22 10 = 0b1001000100)
    (hrd : (fetch m (host c (target c r))).extractLsb' 0 5 = rd)
    (hrn : (fetch m (host c (target c r))).extractLsb' 5 5 = rn) (h31 : rd ≠ 31) (h31n : rn ≠ 31) :
    step s = some { s.set rd (s.get rn + (SA.setWidth 12).setWidth 64) with pc := s.pc + 4 } := by
  have htab : table r.type = some (.imm .abs 0 12 .i12, true) := by rw [ht]; rfl
  have hw := hd.imm he htab
  have hcode := hat.code
  rw [hw] at hcode
  generalize fetch m (host c (target c r)) = w at *
  have hne : w ≠ BREAK_FAULT := ne_of_ext hcls _ (by decide)
  have k1 := relocImm_keep (t := .i12) (lo := 10) (n := 12) rfl .abs (host c (target c r)) SA 0 12 (by omega) w hne 22 10 (by omega) (by omega)
  have k2 := relocImm_keep (t := .i12) (lo := 10) (n := 12) rfl .abs (host c (target c r)) SA 0 12 (by omega) w hne 0 5 (by omega) (by omega)
  have k3 := relocImm_keep (t := .i12) (lo := 10) (n := 12) rfl .abs (host c (target c r)) SA 0 12 (by omega) w hne 5 5 (by omega) (by omega)
  have kf := relocImm_field (t := .i12) (lo := 10) (n := 12) rfl .abs (host c (target c r)) SA 0 12 (by omega) w hne
  have hdec := decode_add (k1.trans hcls)
  rw [kf, k2, k3, hrd, hrn] at hdec
  unfold step
  rw [hcode, hdec]
  show exec s (.addImm _ _ _) = _
  unfold exec
  dsimp only
  rw [if_neg (by rintro (h | h) <;> contradiction)]
  simp [doReloc]

/-- C15: the `ADRP Xd; ADD Xd', Xd` pair computes `S+A`. -/
theorem C15_a64_adrp_add_partial (c : RelaCtx) (junk : Bool) (m m' : Mem) (hd : Done c junk m m')
    (hsame : c.hdr = c.targetHdr)
    (r1 r2 : Rela) (SA : BitVec 64) (he1 : Entry c r1 SA) (he2 : Entry c r2 SA)
    (ht1 : r1.type = 275 ∨ r1.type = 276) (ht2 : r2.type = 277) (hnext : target c r2 = target c r1 + 4)
    (s : Cpu) (hat : At c m' r1 s)
    (hcode2 : fetch s.mem (s.pc + 4) = fetch m' (host c (target c r2)))
    (rd rd2 : BitVec 5) (h31 : rd ≠ 31) (h31' : rd2 ≠ 31)
    (hcls : (fetch m (host c (target c r1))).extractLsb' 24 5 = 0b10000)
    (hadrp : (fetch m (host c (target c r1))).extractLsb' 31 1 = 1)
    (hrd : (fetch m (host c (target c r1))).extractLsb' 0 5 = rd)
    (hcls2 : (fetch m (host c (target c r2))).extractLsb' 22 10 = 0b1001000100)
    (hrn2 : (fetch m (host c (target c r2))).extractLsb' 5 5 = rd)
    (hrd2 : (fetch m (host c (target c r2))).extractLsb' 0 5 = rd2)
    (h1 : -2^32 ≤ (page SA - page (target c r1)).toInt) (h2 : (page SA - page (target c r1)).toInt < 2^32) :
    ∃ s', steps 2 s = some s' ∧ s'.pc = s.pc + 8 ∧ s'.mem = s.mem ∧ s'.get rd2 = SA := by
  have e1 := C15_a64_adrp_partial c junk m m' hd hsame r1 SA he1 ht1 s hat hcls hadrp h1 h2
  rw [hrd] at e1
  have hat2 : At c m' r2 { s.set rd (page SA) with pc := s.pc + 4 } :=
    ⟨by show s.pc + 4 = _; rw [hnext, hat.pc], hcode2⟩
  have e2 := C15_a64_add_lo12 c junk m m' hd r2 SA he2 ht2 _ hat2 rd2 rd hcls2 hrd2 hrn2 h31' h31
  rw [pc_get, set_get _ _ _ h31, page_add_low] at e2
  refine ⟨{ (s.set rd (page SA)).set rd2 SA with pc := s.pc + 8 }, ?_, rfl, rfl, ?_⟩
  · unfold steps
    rw [e1]
    show steps 1 _ = _
    unfold steps
    rw [e2]
    show some _ = _
    congr 1
    show Cpu.mk _ _ _ = Cpu.mk _ _ _
    congr 1
    show s.pc + 4 + 4 = _
    rw [BitVec.add_assoc]; rfl
  · rw [pc_get]; exact set_get _ _ _ h31'

/-! ### C15: conditional branches and load/store offsets, at field level -/

/-- `B.cond`/`CBZ`/`CBNZ` (19-bit field) and `TBZ`/`TBNZ` (14-bit field): the
displacement field, scaled and sign-extended, leads from the place to `S+A`; the
other bits of the instruction are kept. -/
theorem C15_a64_cond_branch_partial (c : RelaCtx) (junk : Bool) (m m' : Mem) (hd : Done c junk m m')
    (hsame : c.hdr = c.targetHdr) (r : Rela) (SA : BitVec 64) (he : Entry c r SA)
    (hne : fetch m (host c (target c r)) ≠ 0xd4202000)
    (hSA : SA &&& 3 = 0) (hP : target c r &&& 3 = 0) :
    (r.type = 280 → -2^20 ≤ (SA - target c r).toInt → (SA - target c r).toInt < 2^20 →
      target c r + ((fetch m' (host c (target c r))).extractLsb' 5 19 ++ (0 : BitVec 2)).signExtend 64 = SA ∧
      ∀ j, j < 32 → ¬ (5 ≤ j ∧ j < 24) →
        (fetch m' (host c (target c r))).getLsbD j = (fetch m (host c (target c r))).getLsbD j) ∧
    (r.type = 279 → -2^15 ≤ (SA - target c r).toInt → (SA - target c r).toInt < 2^15 →
      target c r + ((fetch m' (host c (target c r))).extractLsb' 5 14 ++ (0 : BitVec 2)).signExtend 64 = SA ∧
      ∀ j, j < 32 → ¬ (5 ≤ j ∧ j < 19) →
        (fetch m' (host c (target c r))).getLsbD j = (fetch m (host c (target c r))).getLsbD j) := by
  have hne' : fetch m (host c (target c r)) ≠ BREAK_FAULT := hne
  have e := host_zero hsame (target c r)
  constructor
  · intro ht h1 h2
    have htab : table r.type = some (.imm .prel 2 19 .i19, false) := by rw [ht]; rfl
    rw [hd.imm he htab]
    rw [relocImm_field (t := .i19) (lo := 5) (n := 19) rfl _ _ _ _ _ (by omega) _ hne']
    constructor
    · rw [BitVec.setWidth_eq, e]
      have hx : ((((doReloc .prel (target c r) SA).sshiftRight 2).setWidth 19 ++ (0 : BitVec 2)).signExtend 64 : BitVec 64)
          = SA - target c r := scaled19 (SA - target c r) (aligned4_sub hSA hP) h1 h2
      rw [hx, BitVec.add_comm, BitVec.sub_add_cancel]
    · intro j hj hn
      rw [relocImm_bits (t := .i19) (lo := 5) (n := 19) rfl _ _ _ _ _ (by omega) _ hne' _ hj,
        if_neg (by omega)]
  · intro ht h1 h2
    have htab : table r.type = some (.imm .prel 2 14 .i14, false) := by rw [ht]; rfl
    rw [hd.imm he htab]
    rw [relocImm_field (t := .i14) (lo := 5) (n := 14) rfl _ _ _ _ _ (by omega) _ hne']
    constructor
    · rw [BitVec.setWidth_eq, e]
      have hx : ((((doReloc .prel (target c r) SA).sshiftRight 2).setWidth 14 ++ (0 : BitVec 2)).signExtend 64 : BitVec 64)
          = SA - target c r := scaled14 (SA - target c r) (aligned4_sub hSA hP) h1 h2
      rw [hx, BitVec.add_comm, BitVec.sub_add_cancel]
    · intro j hj hn
      rw [relocImm_bits (t := .i14) (lo := 5) (n := 14) rfl _ _ _ _ _ (by omega) _ hne' _ hj,
        if_neg (by omega)]

/-- log2 of the access size of an `LDSTn_ABS_LO12_NC` type. -/
def ldstScale (type : Nat) : Option Nat :=
  match type with
  | 278 => some 0 | 284 => some 1 | 285 => some 2 | 286 => some 3 | 299 => some 4
  | _ => none

/-- Load/store with unsigned scaled offset: the 12-bit field times the access
size is the page offset of `S+A` (which must be aligned to the access size). -/
theorem C15_a64_ldst_lo12 (c : RelaCtx) (junk : Bool) (m m' : Mem) (hd : Done c junk m m')
    (r : Rela) (SA : BitVec 64) (he : Entry c r SA) (k : Nat) (ht : ldstScale r.type = some k)
    (hne : fetch m (host c (target c r)) ≠ 0xd4202000) (hal : SA.toNat % 2^k = 0) :
    ((fetch m' (host c (target c r))).extractLsb' 10 12).toNat * 2^k = SA.toNat % 4096 ∧
    ∀ j, j < 32 → ¬ (10 ≤ j ∧ j < 22) →
      (fetch m' (host c (target c r))).getLsbD j = (fetch m (host c (target c r))).getLsbD j := by
  have hne' : fetch m (host c (target c r)) ≠ BREAK_FAULT := hne
  have hk : k ≤ 4 ∧ table r.type = some (.imm .abs k (12 - k) .i12, true) := by
    unfold ldstScale at ht
    generalize r.type = t at *
    split at ht <;> first
      | (injection ht with ht; subst ht; exact ⟨by decide, rfl⟩)
      | cases ht
  obtain ⟨hk4, htab⟩ := hk
  rw [hd.imm he htab]
  constructor
  · rw [relocImm_field (t := .i12) (lo := 10) (n := 12) rfl _ _ _ _ _ (by omega) _ hne']
    have e : ((doReloc .abs (host c (target c r)) SA).sshiftRight k).setWidth (12 - k) =
        (SA >>> k).setWidth (12 - k) := by
      apply BitVec.eq_of_getLsbD_eq
      intro i hi
      simp only [doReloc, BitVec.getLsbD_setWidth, BitVec.getLsbD_sshiftRight, BitVec.getLsbD_ushiftRight]
      rw [if_pos (by omega)]
      have : ¬ 64 ≤ i := by omega
      simp [this]
    rw [e]
    simp only [BitVec.toNat_setWidth, BitVec.toNat_ushiftRight, Nat.shiftRight_eq_div_pow]
    have : k = 0 ∨ k = 1 ∨ k = 2 ∨ k = 3 ∨ k = 4 := by omega
    rcases this with rfl | rfl | rfl | rfl | rfl <;> omega
  · intro j hj hn
    rw [relocImm_bits (t := .i12) (lo := 10) (n := 12) rfl _ _ _ _ _ (by omega) _ hne' _ hj,
      if_neg (by omega)]

/-! ### C15: move-wide sequences -/

/-- Group number of a `MOVW` type. -/
def group (type : Nat) : Nat :=
  if type = 263 ∨ type = 264 ∨ type = 270 ∨ type = 287 ∨ type = 288 then 0
  else if type = 265 ∨ type = 266 ∨ type = 271 ∨ type = 289 ∨ type = 290 then 1
  else if type = 267 ∨ type = 268 ∨ type = 272 ∨ type = 291 ∨ type = 292 then 2
  else 3

theorem movw_field {op p SA lsb w} (hcls : w.extractLsb' 23 6 = (0b100101 : BitVec 6)) :
    (relocMovw op p SA lsb false w).1.extractLsb' 5 16 = ((doReloc op p SA).sshiftRight lsb).setWidth 16 ∧
    ∀ a k, a + k ≤ 32 → (a + k ≤ 5 ∨ 21 ≤ a) →
      (relocMovw op p SA lsb false w).1.extractLsb' a k = w.extractLsb' a k := by
  constructor
  · apply BitVec.eq_of_getLsbD_eq
    intro i hi
    rw [BitVec.getLsbD_extractLsb', relocMovw_bits _ _ _ _ _ _ hcls _ (by omega), if_pos (by omega)]
    have e : 5 + i - 5 = i := by omega
    simp [hi, e]
  · intro a k hk hd
    apply BitVec.eq_of_getLsbD_eq
    intro i hi
    rw [BitVec.getLsbD_extractLsb', BitVec.getLsbD_extractLsb',
      relocMovw_bits _ _ _ _ _ _ hcls _ (by omega), if_neg (by omega), if_neg (by simp), if_neg (by simp)]

/-- Bits `[16g, 16g+16)` of `v`. -/
def Chunk (g : Nat) (x v : BitVec 64) : Prop :=
  ∀ i, 16 * g ≤ i → i < 16 * g + 16 → x.getLsbD i = v.getLsbD i

/-- An unsigned (or `_NC`) absolute group relocation on `MOVZ`/`MOVK` whose shift
matches the group. -/
theorem C15_a64_movzk (c : RelaCtx) (junk : Bool) (m m' : Mem) (hd : Done c junk m m')
    (r : Rela) (SA : BitVec 64) (he : Entry c r SA) (ht : 263 ≤ r.type ∧ r.type ≤ 269)
    (s : Cpu) (hat : At c m' r s) (rd : BitVec 5) (h31 : rd ≠ 31)
    (hcls : (fetch m (host c (target c r))).extractLsb' 23 6 = 0b100101)
    (hsf : (fetch m (host c (target c r))).extractLsb' 31 1 = 1)
    (hrd : (fetch m (host c (target c r))).extractLsb' 0 5 = rd)
    (hhw : ((fetch m (host c (target c r))).extractLsb' 21 2).toNat = group r.type)
    (hopc : (fetch m (host c (target c r))).extractLsb' 29 2 = 0b10 ∨
      (fetch m (host c (target c r))).extractLsb' 29 2 = 0b11) :
    ∃ s', step s = some s' ∧ s'.pc = s.pc + 4 ∧ s'.mem = s.mem ∧
      Chunk (group r.type) (s'.get rd) SA ∧
      (∀ g, g < 4 → g ≠ group r.type → Chunk g (s'.get rd)
        (if (fetch m (host c (target c r))).extractLsb' 29 2 = 0b10 then 0 else s.get rd)) := by
  have htab : ∃ nc, table r.type = some (.movw .abs (16 * group r.type) false, nc) := by
    have : ∀ n, n < 270 → 263 ≤ n → ∃ nc, table n = some (.movw .abs (16 * group n) false, nc) := by
      intro n h1 h2
      have : n = 263 ∨ n = 264 ∨ n = 265 ∨ n = 266 ∨ n = 267 ∨ n = 268 ∨ n = 269 := by omega
      rcases this with rfl | rfl | rfl | rfl | rfl | rfl | rfl <;> exact ⟨_, rfl⟩
    exact this _ (by omega) ht.1
  obtain ⟨nc, htab⟩ := htab
  have hg : group r.type < 4 := by unfold group; split; omega; split; omega; split <;> omega
  have hcode := hat.code
  rw [hd.movw he htab] at hcode
  generalize group r.type = g at *
  generalize fetch m (host c (target c r)) = w at *
  obtain ⟨kf, kk⟩ := @movw_field .abs (host c (target c r)) SA (16 * g) w hcls
  generalize (relocMovw .abs (host c (target c r)) SA (16 * g) false w).1 = w' at *
  have k1 := kk 23 6 (by omega) (by omega)
  have k2 := kk 31 1 (by omega) (by omega)
  have k3 := kk 29 2 (by omega) (by omega)
  have k4 := kk 21 2 (by omega) (by omega)
  have k5 := kk 0 5 (by omega) (by omega)
  have h31b : w'.getLsbD 31 = true := by
    have := ext_bit (k2.trans hsf) 0 (by decide)
    simpa using this
  have hdec := movw_class (k1.trans hcls) h31b
    (by rw [k3]; rcases hopc with h | h <;> rw [h] <;> decide)
  rw [k3, k5, k4, kf, hrd] at hdec
  have himm : ∀ i, i < 64 → ((((SA.sshiftRight (16 * g)).setWidth 16).setWidth 64) <<< (16 * g)).getLsbD i =
      (decide (16 * g ≤ i ∧ i < 16 * g + 16) && SA.getLsbD i) := by
    intro i hi
    rw [BitVec.getLsbD_shiftLeft]
    by_cases h1 : i < 16 * g
    · have : ¬ (16 * g ≤ i) := by omega
      simp [h1, this]
    · simp only [hi, decide_true, h1, decide_false, Bool.not_false, Bool.true_and,
        BitVec.getLsbD_setWidth]
      by_cases h2 : i < 16 * g + 16
      · have a1 : i - 16 * g < 64 := by omega
        have a2 : i - 16 * g < 16 := by omega
        have a3 : 16 * g ≤ i := by omega
        rw [BitVec.getLsbD_sshiftRight]
        have a4 : 16 * g + (i - 16 * g) = i := by omega
        have a5 : ¬ 64 ≤ i - 16 * g := by omega
        simp [a1, a2, a3, a4, h2, hi, a5]
      · have a2 : ¬ i - 16 * g < 16 := by omega
        simp [a2, h2]
  have himmz : ∀ i, ¬ i < 64 → ((((SA.sshiftRight (16 * g)).setWidth 16).setWidth 64) <<< (16 * g)).getLsbD i = false :=
    fun i hi => BitVec.getLsbD_of_ge _ _ (by omega)
  simp only [doReloc] at hdec
  rcases hopc with ho | ho
  · rw [if_pos ho] at hdec
    refine ⟨{ s.set rd ((((SA.sshiftRight (16 * g)).setWidth 16).setWidth 64) <<< (16 * g)) with pc := s.pc + 4 },
      ?_, rfl, rfl, ?_, ?_⟩
    · unfold step
      rw [hcode, hdec]
      show exec s (.movz _ _ _) = _
      unfold exec
      dsimp only
      rw [hhw]
    · intro i h1 h2
      rw [pc_get, set_get _ _ _ h31, himm i (by omega)]
      simp [h1, h2]
    · intro g' hg' hne i h1 h2
      rw [pc_get, set_get _ _ _ h31, himm i (by omega), if_pos ho]
      have : ¬ (16 * g ≤ i ∧ i < 16 * g + 16) := by omega
      simp [this]
  · rw [if_neg (by rw [ho]; decide), if_neg (by rw [ho]; decide)] at hdec
    refine ⟨{ s.set rd ((s.get rd &&& ~~~ ((0xffff : BitVec 64) <<< (16 * g))) |||
        ((((SA.sshiftRight (16 * g)).setWidth 16).setWidth 64) <<< (16 * g))) with pc := s.pc + 4 },
      ?_, rfl, rfl, ?_, ?_⟩
    · unfold step
      rw [hcode, hdec]
      show exec s (.movk _ _ _) = _
      unfold exec
      dsimp only
      rw [hhw]
    all_goals
      have hm : ∀ i, i < 64 → (~~~ ((0xffff : BitVec 64) <<< (16 * g))).getLsbD i =
          !decide (16 * g ≤ i ∧ i < 16 * g + 16) := by
        intro i hi
        rw [BitVec.getLsbD_not, BitVec.getLsbD_shiftLeft]
        have hf : (0xffff : BitVec 64).getLsbD (i - 16 * g) = decide (i - 16 * g < 16) := by
          have : ∀ k, k < 64 → (0xffff : BitVec 64).getLsbD k = decide (k < 16) := by decide
          exact this _ (by omega)
        rw [hf]
        by_cases h1 : i < 16 * g
        · have : ¬ 16 * g ≤ i := by omega
          simp [hi, h1, this]
        · have a : 16 * g ≤ i := by omega
          have b : (i - 16 * g < 16) ↔ i < 16 * g + 16 := by omega
          simp [hi, h1, a, b]
    · intro i h1 h2
      rw [pc_get, set_get _ _ _ h31, BitVec.getLsbD_or, BitVec.getLsbD_and, hm i (by omega), himm i (by omega)]
      simp [h1, h2]
    · intro g' hg' hne i h1 h2
      rw [pc_get, set_get _ _ _ h31, BitVec.getLsbD_or, BitVec.getLsbD_and, hm i (by omega),
        himm i (by omega), if_neg (by rw [ho]; decide)]
      have : ¬ (16 * g ≤ i ∧ i < 16 * g + 16) := by omega
      simp [this]

theorem chunks_eq {x v : BitVec 64} (h : ∀ g, g < 4 → Chunk g x v) : x = v := by
  apply BitVec.eq_of_getLsbD_eq
  intro i hi
  exact h (i / 16) (by omega) i (by omega) (by omega)

theorem Chunk.trans {g x y z} (h1 : Chunk g x y) (h2 : Chunk g y z) : Chunk g x z :=
  fun i a b => (h1 i a b).trans (h2 i a b)

/-- One instruction of a move-wide sequence, before relocation. -/
structure MovwInsn (w : BitVec 32) (opc : BitVec 2) (rd : BitVec 5) (g : Nat) : Prop where
  cls : w.extractLsb' 23 6 = 0b100101
  sf : w.extractLsb' 31 1 = 1
  opc : w.extractLsb' 29 2 = opc
  rd : w.extractLsb' 0 5 = rd
  hw : (w.extractLsb' 21 2).toNat = g

/-- C15: `MOVZ Xd, #:abs_g3:; MOVK Xd, #:abs_g2_nc:; MOVK Xd, #:abs_g1_nc:;
MOVK Xd, #:abs_g0_nc:` builds `S+A`, wherever host and target map the image. -/
theorem C15_a64_movw_sequence (c : RelaCtx) (junk : Bool) (m m' : Mem) (hd : Done c junk m m')
    (r3 r2 r1 r0 : Rela) (SA : BitVec 64)
    (he3 : Entry c r3 SA) (he2 : Entry c r2 SA) (he1 : Entry c r1 SA) (he0 : Entry c r0 SA)
    (t3 : r3.type = 269) (t2 : r2.type = 268) (t1 : r1.type = 266) (t0 : r0.type = 264)
    (rd : BitVec 5) (h31 : rd ≠ 31)
    (i3 : MovwInsn (fetch m (host c (target c r3))) 0b10 rd 3)
    (i2 : MovwInsn (fetch m (host c (target c r2))) 0b11 rd 2)
    (i1 : MovwInsn (fetch m (host c (target c r1))) 0b11 rd 1)
    (i0 : MovwInsn (fetch m (host c (target c r0))) 0b11 rd 0)
    (s : Cpu) (hp3 : s.pc = target c r3) (hp2 : s.pc + 4 = target c r2) (hp1 : s.pc + 8 = target c r1)
    (hp0 : s.pc + 12 = target c r0)
    (hcode : ∀ r, r = r3 ∨ r = r2 ∨ r = r1 ∨ r = r0 →
      fetch s.mem (target c r) = fetch m' (host c (target c r))) :
    ∃ s', steps 4 s = some s' ∧ s'.pc = s.pc + 16 ∧ s'.mem = s.mem ∧ s'.get rd = SA := by
  have g3 : group r3.type = 3 := by rw [t3]; rfl
  have g2 : group r2.type = 2 := by rw [t2]; rfl
  have g1 : group r1.type = 1 := by rw [t1]; rfl
  have g0 : group r0.type = 0 := by rw [t0]; rfl
  obtain ⟨s1, e1, p1, m1, c1, n1⟩ := C15_a64_movzk c junk m m' hd r3 SA he3 (by omega) s
    ⟨hp3, by rw [hp3]; exact hcode _ (.inl rfl)⟩ rd h31 i3.cls i3.sf i3.rd (by rw [i3.hw, g3]) (.inl i3.opc)
  have hp2' : s1.pc = target c r2 := by rw [p1, hp2]
  obtain ⟨s2, e2, p2, m2, c2, n2⟩ := C15_a64_movzk c junk m m' hd r2 SA he2 (by omega) s1
    ⟨hp2', by rw [m1, hp2']; exact hcode _ (.inr (.inl rfl))⟩ rd h31 i2.cls i2.sf i2.rd
    (by rw [i2.hw, g2]) (.inr i2.opc)
  have hp1' : s2.pc = target c r1 := by rw [p2, p1, ← hp1, BitVec.add_assoc]; rfl
  obtain ⟨s3, e3, p3, m3, c3, n3⟩ := C15_a64_movzk c junk m m' hd r1 SA he1 (by omega) s2
    ⟨hp1', by rw [m2, m1, hp1']; exact hcode _ (.inr (.inr (.inl rfl)))⟩ rd h31 i1.cls i1.sf i1.rd
    (by rw [i1.hw, g1]) (.inr i1.opc)
  have hp0' : s3.pc = target c r0 := by
    rw [p3, p2, p1, ← hp0, BitVec.add_assoc, BitVec.add_assoc]; rfl
  obtain ⟨s4, e4, p4, m4, c4, n4⟩ := C15_a64_movzk c junk m m' hd r0 SA he0 (by omega) s3
    ⟨hp0', by rw [m3, m2, m1, hp0']; exact hcode _ (.inr (.inr (.inr rfl)))⟩ rd h31 i0.cls i0.sf i0.rd
    (by rw [i0.hw, g0]) (.inr i0.opc)
  rw [g3] at c1 n1
  rw [g2, if_neg (by rw [i2.opc]; decide)] at n2
  rw [g1, if_neg (by rw [i1.opc]; decide)] at n3
  rw [g0, if_neg (by rw [i0.opc]; decide)] at n4
  rw [g2] at c2
  rw [g1] at c3
  rw [g0] at c4
  refine ⟨s4, ?_, ?_, by rw [m4, m3, m2, m1], ?_⟩
  · simp only [steps, e1, e2, e3, e4, Option.bind_some]
  · rw [p4, p3, p2, p1, BitVec.add_assoc, BitVec.add_assoc, BitVec.add_assoc]; rfl
  · apply chunks_eq
    intro g hg
    have : g = 0 ∨ g = 1 ∨ g = 2 ∨ g = 3 := by omega
    rcases this with rfl | rfl | rfl | rfl
    · exact c4
    · exact (n4 1 (by omega) (by omega)).trans c3
    · exact (n4 2 (by omega) (by omega)).trans ((n3 2 (by omega) (by omega)).trans c2)
    · exact (n4 3 (by omega) (by omega)).trans
        ((n3 3 (by omega) (by omega)).trans ((n2 3 (by omega) (by omega)).trans c1))

theorem high_bits_zero (v : BitVec 64) (n : Nat) (h0 : 0 ≤ v.toInt) (h : v.toInt < 2^n) (i : Nat)
    (hi : n ≤ i) : v.getLsbD i = false := by
  have hn : (v.toNat : Int) = v.toInt := by
    rw [BitVec.toInt_eq_toNat_bmod, Int.bmod_def] at *
    have := v.isLt
    omega
  have : v.toNat < 2^n := by
    have : (v.toNat : Int) < ((2^n : Nat) : Int) := by rw [hn]; push_cast; exact h
    exact Int.ofNat_lt.1 this
  exact Nat.testBit_lt_two_pow (Nat.lt_of_lt_of_le this (Nat.pow_le_pow_right (by omega) hi))

theorem high_bits_one (v : BitVec 64) (n : Nat) (h0 : v.toInt < 0) (h : -(2:Int)^n ≤ v.toInt) (i : Nat)
    (hi : n ≤ i) (h64 : i < 64) : v.getLsbD i = true := by
  have hn : (~~~ v).toInt = -v.toInt - 1 := by
    rw [BitVec.toInt_not, BitVec.toInt_eq_toNat_bmod, Int.bmod_def, Int.bmod_def]
    have := v.isLt
    omega
  have := high_bits_zero (~~~ v) n (by omega) (by omega) i hi
  rw [BitVec.getLsbD_not] at this
  simpa [h64] using this

/-- C15: a signed absolute group relocation turns the instruction into `MOVZ` or
`MOVN` and gives the register the bits of `S+A` from the group upwards
(completely, for group 0); below it leaves the sign, to be filled by `MOVK`s. -/
theorem C15_a64_movw_signed (c : RelaCtx) (junk : Bool) (m m' : Mem) (hd : Done c junk m m')
    (r : Rela) (SA : BitVec 64) (he : Entry c r SA) (ht : 270 ≤ r.type ∧ r.type ≤ 272)
    (s : Cpu) (hat : At c m' r s) (rd : BitVec 5) (h31 : rd ≠ 31)
    (hcls : (fetch m (host c (target c r))).extractLsb' 23 6 = 0b100101)
    (hsf : (fetch m (host c (target c r))).extractLsb' 31 1 = 1)
    (hrd : (fetch m (host c (target c r))).extractLsb' 0 5 = rd)
    (hhw : ((fetch m (host c (target c r))).extractLsb' 21 2).toNat = group r.type)
    (h1 : -2^(16 * group r.type + 16) ≤ SA.toInt) (h2 : SA.toInt < 2^(16 * group r.type + 16)) :
    ∃ s', step s = some s' ∧ s'.pc = s.pc + 4 ∧ s'.mem = s.mem ∧
      (∀ i, 16 * group r.type ≤ i → i < 64 → (s'.get rd).getLsbD i = SA.getLsbD i) ∧
      (r.type = 270 → s'.get rd = SA) := by
  have htab : table r.type = some (.movw .abs (16 * group r.type) true, false) := by
    have : r.type = 270 ∨ r.type = 271 ∨ r.type = 272 := by omega
    rcases this with h | h | h <;> rw [h] <;> rfl
  have hg : group r.type < 3 := by
    have : r.type = 270 ∨ r.type = 271 ∨ r.type = 272 := by omega
    rcases this with h | h | h <;> rw [h] <;> decide
  have hg0 : r.type = 270 → group r.type = 0 := by intro h; rw [h]; rfl
  have hcode := hat.code
  rw [hd.movw he htab] at hcode
  generalize group r.type = g at *
  generalize fetch m (host c (target c r)) = w at *
  have hb := relocMovw_bits .abs (host c (target c r)) SA (16 * g) true w hcls
  generalize (relocMovw .abs (host c (target c r)) SA (16 * g) true w).1 = w' at *
  have keep : ∀ a k, a + k ≤ 32 → (a + k ≤ 5 ∨ (21 ≤ a ∧ a + k ≤ 29) ∨ 31 ≤ a) →
      w'.extractLsb' a k = w.extractLsb' a k := by
    intro a k hk hdj
    apply BitVec.eq_of_getLsbD_eq
    intro i hi
    rw [BitVec.getLsbD_extractLsb', BitVec.getLsbD_extractLsb', hb _ (by omega), if_neg (by omega),
      if_neg (by omega), if_neg (by omega)]
  have hopc : w'.extractLsb' 29 2 = if 0 ≤ SA.toInt then 0b10 else 0b00 := by
    have b29 := hb 29 (by omega)
    have b30 := hb 30 (by omega)
    simp only [doReloc] at b29 b30
    rw [if_neg (by omega), if_neg (by omega), if_pos (by simp)] at b29
    rw [if_neg (by omega), if_pos (by simp)] at b30
    apply BitVec.eq_of_getLsbD_eq
    intro i hi
    rw [BitVec.getLsbD_extractLsb']
    have : i = 0 ∨ i = 1 := by omega
    rcases this with rfl | rfl
    · rw [b29]; by_cases hs : 0 ≤ SA.toInt <;> simp [hs]
    · rw [b30]; by_cases hs : 0 ≤ SA.toInt <;> simp [hs]
  have himm : ∀ i, i < 64 → (((w'.extractLsb' 5 16).setWidth 64) <<< (16 * g)).getLsbD i =
      (decide (16 * g ≤ i ∧ i < 16 * g + 16) && (SA.getLsbD i ^^ decide (SA.toInt < 0))) := by
    intro i hi
    rw [BitVec.getLsbD_shiftLeft]
    by_cases a1 : i < 16 * g
    · have : ¬ (16 * g ≤ i) := by omega
      simp [a1, this]
    · simp only [hi, decide_true, a1, decide_false, Bool.not_false, Bool.true_and,
        BitVec.getLsbD_setWidth, BitVec.getLsbD_extractLsb']
      by_cases a2 : i < 16 * g + 16
      · rw [hb _ (by omega), if_pos (by omega)]
        have e : 16 * g + (5 + (i - 16 * g) - 5) = i := by omega
        have e2 : ¬ 64 ≤ i - 16 * g := by omega
        have e3 : i - 16 * g < 64 := by omega
        have e4 : i - 16 * g < 16 := by omega
        have e5 : 16 * g ≤ i := by omega
        simp only [doReloc]
        rw [BitVec.getLsbD_sshiftRight, if_pos (by omega), e]
        simp [e2, e3, e4, e5, a2]
        rfl
      · have e4 : ¬ i - 16 * g < 16 := by omega
        simp [e4, a2]
  have h31b : w'.getLsbD 31 = true := by
    have := ext_bit ((keep 31 1 (by omega) (by omega)).trans hsf) 0 (by decide)
    simpa using this
  have hdec := movw_class ((keep 23 6 (by omega) (by omega)).trans hcls) h31b
    (by rw [hopc]; split <;> decide)
  rw [hopc, keep 0 5 (by omega) (by omega), keep 21 2 (by omega) (by omega), hrd] at hdec
  by_cases hs : 0 ≤ SA.toInt
  · rw [if_pos hs, if_pos rfl] at hdec
    have hl : ¬ SA.toInt < 0 := by omega
    have hbits : ∀ i, 16 * g ≤ i → i < 64 →
        (((w'.extractLsb' 5 16).setWidth 64) <<< (16 * g)).getLsbD i = SA.getLsbD i := by
      intro i a b
      rw [himm i b]
      by_cases a2 : i < 16 * g + 16
      · simp [a, a2, hl]
      · rw [high_bits_zero SA (16 * g + 16) hs h2 i (by omega)]
        simp [a2]
    refine ⟨{ s.set rd (((w'.extractLsb' 5 16).setWidth 64) <<< (16 * g)) with pc := s.pc + 4 },
      ?_, rfl, rfl, ?_, ?_⟩
    · unfold step
      rw [hcode, hdec]
      show exec s (.movz _ _ _) = _
      unfold exec
      dsimp only
      rw [hhw]
    · intro i a b
      rw [pc_get, set_get _ _ _ h31]
      exact hbits i a b
    · intro h270
      rw [pc_get, set_get _ _ _ h31]
      apply BitVec.eq_of_getLsbD_eq
      intro i hi
      exact hbits i (by rw [hg0 h270]; omega) hi
  · rw [if_neg hs, if_neg (by decide), if_pos rfl] at hdec
    have hl : SA.toInt < 0 := by omega
    have hbits : ∀ i, 16 * g ≤ i → i < 64 →
        (~~~ (((w'.extractLsb' 5 16).setWidth 64) <<< (16 * g))).getLsbD i = SA.getLsbD i := by
      intro i a b
      rw [BitVec.getLsbD_not, himm i b]
      by_cases a2 : i < 16 * g + 16
      · simp [a, a2, hl, b]
      · rw [high_bits_one SA (16 * g + 16) hl h1 i (by omega) b]
        simp [a2, b]
    refine ⟨{ s.set rd (~~~ (((w'.extractLsb' 5 16).setWidth 64) <<< (16 * g))) with pc := s.pc + 4 },
      ?_, rfl, rfl, ?_, ?_⟩
    · unfold step
      rw [hcode, hdec]
      show exec s (.movn _ _ _) = _
      unfold exec
      dsimp only
      rw [hhw]
    · intro i a b
      rw [pc_get, set_get _ _ _ h31]
      exact hbits i a b
    · intro h270
      rw [pc_get, set_get _ _ _ h31]
      apply BitVec.eq_of_getLsbD_eq
      intro i hi
      exact hbits i (by rw [hg0 h270]; omega) hi

/-! ### C15: data, frame -/

/-- C15: absolute data words hold `S+A`. -/
theorem C15_a64_data_abs (c : RelaCtx) (junk : Bool) (m m' : Mem) (hd : Done c junk m m')
    (r : Rela) (SA : BitVec 64) (he : Entry c r SA) (ht : r.type = 257 ∨ r.type = 258 ∨ r.type = 259) :
    Psabi.Holds m' (host c (target c r)) (Psabi.a64Width r.type) SA := by
  obtain ⟨a, nc, htab, hv⟩ := hd.value he
  intro i hi
  have := congrArg (·[i]?) hv
  simp only [Mem.read_getElem?, if_pos hi] at this
  have hb : bytesOf a (host c (target c r)) SA (word m (host c (target c r))) =
      leBytes (Psabi.a64Width r.type) SA := by
    rcases ht with ht | ht | ht <;> rw [ht] at htab ⊢ <;> injection htab with htab <;>
      injection htab with htab _ <;> subst htab <;> rfl
  rw [hb] at this
  simp only [leBytes, List.getElem?_map, List.getElem?_range hi, Option.map_some, Option.some.injEq] at this
  exact this

/-- Place-relative data words hold `S+A` minus their *host* address. -/
theorem C15_a64_data_rel_host (c : RelaCtx) (junk : Bool) (m m' : Mem) (hd : Done c junk m m')
    (r : Rela) (SA : BitVec 64) (he : Entry c r SA) (ht : r.type = 260 ∨ r.type = 261 ∨ r.type = 262) :
    Psabi.Holds m' (host c (target c r)) (Psabi.a64Width r.type) (SA - host c (target c r)) := by
  obtain ⟨a, nc, htab, hv⟩ := hd.value he
  intro i hi
  have := congrArg (·[i]?) hv
  simp only [Mem.read_getElem?, if_pos hi] at this
  have hb : bytesOf a (host c (target c r)) SA (word m (host c (target c r))) =
      leBytes (Psabi.a64Width r.type) (SA - host c (target c r)) := by
    rcases ht with ht | ht | ht <;> rw [ht] at htab ⊢ <;> injection htab with htab <;>
      injection htab with htab _ <;> subst htab <;> rfl
  rw [hb] at this
  simp only [leBytes, List.getElem?_map, List.getElem?_range hi, Option.map_some, Option.some.injEq] at this
  exact this

/-- C15: place-relative data words hold `S+A-P`.  Partial: same address in host
and target. -/
theorem C15_a64_data_rel_partial (c : RelaCtx) (junk : Bool) (m m' : Mem) (hd : Done c junk m m')
    (hsame : c.hdr = c.targetHdr)
    (r : Rela) (SA : BitVec 64) (he : Entry c r SA) (ht : r.type = 260 ∨ r.type = 261 ∨ r.type = 262) :
    Psabi.Holds m' (host c (target c r)) (Psabi.a64Width r.type) (SA - target c r) := by
  have := C15_a64_data_rel_host c junk m m' hd r SA he ht
  rw [host_zero hsame] at this ⊢
  exact this

/-- Violation of C15: with different addresses a `PREL64` word is never
`S+A-P`. -/
theorem C15_a64_data_rel_wrong (c : RelaCtx) (junk : Bool) (m m' : Mem) (hd : Done c junk m m')
    (hdiff : c.hdr ≠ c.targetHdr)
    (r : Rela) (SA : BitVec 64) (he : Entry c r SA) (ht : r.type = 260) :
    ¬ Psabi.Holds m' (host c (target c r)) 8 (SA - target c r) := by
  intro h
  have h' := C15_a64_data_rel_host c junk m m' hd r SA he (.inl ht)
  rw [ht] at h'
  have hb : leBytes 8 (SA - target c r) = leBytes 8 (SA - host c (target c r)) := by
    unfold leBytes
    apply List.map_congr_left
    intro i hi
    rw [List.mem_range] at hi
    exact (h i hi).symm.trans (h' i hi)
  have hn := congrArg leNat hb
  rw [leNat_leBytes, leNat_leBytes] at hn
  have : SA - target c r = SA - host c (target c r) := by
    apply BitVec.eq_of_toNat_eq
    have a := (SA - target c r).isLt
    have b := (SA - host c (target c r)).isLt
    omega
  apply hdiff
  have e : host c (target c r) = target c r := by
    apply BitVec.eq_of_toNat_eq
    have := congrArg BitVec.toNat this
    rw [BitVec.toNat_sub, BitVec.toNat_sub] at this
    have := (target c r).isLt; have := (host c (target c r)).isLt; have := SA.isLt
    omega
  unfold host off at e
  apply BitVec.eq_of_toNat_eq
  have := congrArg BitVec.toNat e
  rw [BitVec.toNat_add, BitVec.toNat_sub] at this
  have := (target c r).isLt; have := c.hdr.isLt; have := c.targetHdr.isLt
  omega

/-- C15: bytes outside the fields are unchanged. -/
theorem C15_a64_frame (c : RelaCtx) (junk : Bool) (m m' : Mem) (h : relocate c junk m = some (m', 0))
    (x : Addr) (hx : ∀ r ∈ c.rels, ∀ i, i < Psabi.a64Width r.type →
      x ≠ host c (target c r) + BitVec.ofNat 64 i) : m' x = m x :=
  applyAll_frame _ h x fun r hr i hi => by rw [loc_eq]; exact hx r hr i hi

/-! ### C16 -/

/-- The value whose range is checked, with the place the code uses (the host
address of the field). -/
def checkedValue (c : RelaCtx) (r : Rela) (SA : BitVec 64) : BitVec 64 :=
  match Psabi.a64Calc r.type with
  | some k => k.val SA (host c (target c r))
  | none => 0

/-- The checked range, narrowed for data words as documented in the source. -/
def limits (type : Nat) : Option (Int × Int) :=
  match Psabi.a64DataRange type with
  | some l => some l
  | none => Psabi.a64Range type

/-- The narrowed range is inside the psABI one. -/
theorem limits_within (type : Nat) (lo hi : Int) (h : limits type = some (lo, hi)) :
    ∃ lo' hi', Psabi.a64Range type = some (lo', hi') ∧ lo' ≤ lo ∧ hi ≤ hi' := by
  unfold limits Psabi.a64DataRange at h
  split at h
  · next h' =>
    split at h' <;> first
      | (injection h' with h'; injection h with h; subst h'; injection h with a b; subst a; subst b
         refine ⟨_, _, rfl, ?_, ?_⟩ <;> decide)
      | cases h'
  · exact ⟨lo, hi, h, Int.le_refl _, Int.le_refl _⟩

theorem ovf_iff {n : Nat} {a : Act} (h : table n = some (a, false)) (p : Addr) (v : BitVec 64) :
    (n = 0 ∧ ovfOf a p v = false) ∨ ∃ k lo hi, Psabi.a64Calc n = some k ∧ limits n = some (lo, hi) ∧
      (ovfOf a p v = false ↔ lo ≤ (k.val v p).toInt ∧ (k.val v p).toInt < hi) := by
  have hpage : (Psabi.Calc.page.val v p) = doReloc .page p v := by
    simp only [doReloc, and_not_page]; rfl
  unfold table at h
  split at h
  all_goals first
    | (exfalso; injection h with h; injection h with _ h; cases h; done)
    | (exfalso; cases h; done)
    | (injection h with h; injection h with h _; subst h)
  case h_1 => exact .inl ⟨rfl, rfl⟩
  all_goals
    refine .inr ⟨_, _, _, rfl, rfl, ?_⟩
    unfold ovfOf
    dsimp only
    first
      | exact (relocData_ovf _ _ _ _ (by decide))
      | exact (relocMovw_ovf _ _ _ _ _ _)
      | (rw [hpage]; exact (relocImm_ovf _ _ _ _ _ _ _ (by decide) (by decide)))
      | exact (relocImm_ovf _ _ _ _ _ _ _ (by decide) (by decide))

theorem nc_iff {n : Nat} {a : Act} {nc : Bool} (h : table n = some (a, nc)) :
    nc = true ↔ Psabi.a64Unchecked n := by
  unfold table at h
  split at h <;> first
    | (injection h with h; injection h with _ h; subst h; unfold Psabi.a64Unchecked; decide)
    | cases h

theorem applyAll_checked {c} (rs : List Rela) : ∀ {m m'} , applyAll c true rs m = some (m', 0) →
    ∀ (pre : List Rela) (r : Rela) (post : List Rela), rs = pre ++ r :: post →
      (∀ q ∈ pre, ¬ Psabi.a64Unchecked q.type) → ¬ Psabi.a64Unchecked r.type →
      ∃ s a, c.syms[r.sym]? = some s ∧ table r.type = some (a, false) ∧
        ovfOf a (loc c r) (s.value + r.addend) = false := by
  induction rs with
  | nil => intro m m' _ pre r post h; simp at h
  | cons q rs ih =>
    intro m m' h pre r post hsplit hpre hr
    obtain ⟨s, a, nc, hs, ht, hno, hrest⟩ := applyAll_cons_ok h
    cases pre with
    | nil =>
      simp only [List.nil_append, List.cons.injEq] at hsplit
      obtain ⟨rfl, rfl⟩ := hsplit
      have hnc : nc = false := by
        cases nc
        · rfl
        · exact absurd ((nc_iff ht).1 rfl) hr
      subst hnc
      refine ⟨s, a, hs, ht, ?_⟩
      simpa using hno
    | cons q' pre =>
      simp only [List.cons_append, List.cons.injEq] at hsplit
      obtain ⟨rfl, rfl⟩ := hsplit
      have hnc : nc = false := by
        cases nc
        · rfl
        · exact absurd ((nc_iff ht).1 rfl) (hpre q (List.mem_cons_self ..))
      subst hnc
      exact ih hrest pre r post rfl (fun q' hq' => hpre q' (List.mem_cons_of_mem _ hq')) hr

/-- C16, refusal.  Partial: needs the uninitialised `overflow_check` to start
out true, and no entry of an unchecked type before this one. -/
theorem C16_a64_overflow_refused_partial (c : RelaCtx) (m m' : Mem)
    (pre post : List Rela) (r : Rela) (hsplit : c.rels = pre ++ r :: post)
    (hpre : ∀ q ∈ pre, ¬ Psabi.a64Unchecked q.type)
    (s : Sym) (hs : c.syms[r.sym]? = some s) (lo hi : Int)
    (hrange : Psabi.a64Range r.type = some (lo, hi))
    (hout : ¬ (lo ≤ (checkedValue c r (s.value + r.addend)).toInt ∧
      (checkedValue c r (s.value + r.addend)).toInt < hi)) :
    relocate c true m ≠ some (m', 0) := by
  intro h
  have hunc : ¬ Psabi.a64Unchecked r.type := by
    intro hu
    unfold Psabi.a64Unchecked at hu
    rcases hu with h | h | h | h | h | h | h | h | h | h | h | h | h | h | h | h | h <;>
      rw [h] at hrange <;> cases hrange
  obtain ⟨s', a, hs', ht, hov⟩ := applyAll_checked _ h pre r post hsplit hpre hunc
  rw [hs] at hs'; injection hs' with hs'; subst hs'
  rcases ovf_iff ht (loc c r) (s.value + r.addend) with ⟨h0, _⟩ | ⟨k, lo', hi', hk, hl, hiff⟩
  · rw [h0] at hrange; cases hrange
  · apply hout
    obtain ⟨lo'', hi'', hr2, l1, l2⟩ := limits_within _ _ _ hl
    rw [hrange] at hr2; injection hr2 with hr2; injection hr2 with e1 e2; subst e1; subst e2
    have := hiff.1 hov
    unfold checkedValue
    rw [hk, ← loc_eq]
    dsimp only
    omega

theorem applyAll_complete {c} (rs : List Rela) : ∀ {chk m},
    (∀ r ∈ rs, ∃ s a nc, c.syms[r.sym]? = some s ∧ table r.type = some (a, nc) ∧
      (chk = true → nc = false → ovfOf a (loc c r) (s.value + r.addend) = false)) →
    ∃ m', applyAll c chk rs m = some (m', 0) := by
  induction rs with
  | nil => intro chk m _; exact ⟨m, rfl⟩
  | cons r rs ih =>
    intro chk m h
    obtain ⟨s, a, nc, hs, ht, ho⟩ := h r (List.mem_cons_self ..)
    obtain ⟨m', hm'⟩ := @ih (chk && !nc)
      (m.write (loc c r) (bytesOf a (loc c r) (s.value + r.addend) (word m (loc c r)))) (by
        intro r' hr'
        obtain ⟨s', a', nc', hs', ht', ho'⟩ := h r' (List.mem_cons_of_mem _ hr')
        refine ⟨s', a', nc', hs', ht', fun h1 => ho' ?_⟩
        simp only [Bool.and_eq_true] at h1
        exact h1.1)
    refine ⟨m', ?_⟩
    unfold applyAll
    rw [hs]
    dsimp only
    rw [ht]
    dsimp only
    rw [run_eq]
    dsimp only
    rw [if_neg]
    · exact hm'
    · intro hc
      simp only [Bool.and_eq_true, Bool.not_eq_true'] at hc
      rw [ho hc.1.1 hc.1.2] at hc
      exact absurd hc.2 (by decide)

theorem table_supported (n : Nat) : (∃ k, Psabi.a64Calc n = some k) → ∃ a nc, table n = some (a, nc) := by
  rintro ⟨k, hk⟩
  by_cases h : n < 300
  · have : ∀ n, n < 300 → (Psabi.a64Calc n).isSome = true → (table n).isSome = true := by decide +kernel
    have h2 := this n h (by rw [hk]; rfl)
    cases ht : table n with
    | none => rw [ht] at h2; cases h2
    | some p => exact ⟨p.1, p.2, rfl⟩
  · exfalso
    unfold Psabi.a64Calc at hk
    rw [if_neg (by omega), if_neg (by omega), if_neg (by omega)] at hk
    cases hk

/-- C16, acceptance: a table of supported relocations whose checked values are in
the (documented) range is accepted, whatever `overflow_check` held. -/
theorem C16_a64_in_range_accepted (c : RelaCtx) (junk : Bool) (m : Mem)
    (h : ∀ r ∈ c.rels, ∃ s k, c.syms[r.sym]? = some s ∧ Psabi.a64Calc r.type = some k ∧
      ∀ lo hi, limits r.type = some (lo, hi) →
        lo ≤ (k.val (s.value + r.addend) (host c (target c r))).toInt ∧
        (k.val (s.value + r.addend) (host c (target c r))).toInt < hi) :
    ∃ m', relocate c junk m = some (m', 0) := by
  apply applyAll_complete
  intro r hr
  obtain ⟨s, k, hs, hk, hl⟩ := h r hr
  obtain ⟨a, nc, ht⟩ := table_supported _ ⟨k, hk⟩
  refine ⟨s, a, nc, hs, ht, fun _ hnc => ?_⟩
  subst hnc
  rcases ovf_iff ht (loc c r) (s.value + r.addend) with ⟨_, h0⟩ | ⟨k', lo, hi, hk', hlim, hiff⟩
  · exact h0
  · rw [hk] at hk'; injection hk' with hk'; subst hk'
    rw [hiff, loc_eq]
    exact hl lo hi hlim

/-- Violation of C16: if the uninitialised variable happens to be false, no value
is ever refused. -/
theorem C16_a64_never_refused (c : RelaCtx) (m : Mem)
    (h : ∀ r ∈ c.rels, (∃ s, c.syms[r.sym]? = some s) ∧ ∃ k, Psabi.a64Calc r.type = some k) :
    ∃ m', relocate c false m = some (m', 0) := by
  apply applyAll_complete
  intro r hr
  obtain ⟨⟨s, hs⟩, hk⟩ := h r hr
  obtain ⟨a, nc, ht⟩ := table_supported _ hk
  exact ⟨s, a, nc, hs, ht, fun h => absurd h (by decide)⟩

/-- Violation of C16: after one entry of an unchecked type (e.g. any `ABS64` or
`ADD_ABS_LO12_NC`) nothing later in the table is refused, whatever the variable
held. -/
theorem C16_a64_unchecked_forever (c : RelaCtx) (junk : Bool) (m : Mem) (r0 : Rela) (rs : List Rela)
    (hc : c.rels = r0 :: rs) (hu : Psabi.a64Unchecked r0.type)
    (h : ∀ r ∈ c.rels, (∃ s, c.syms[r.sym]? = some s) ∧ ∃ k, Psabi.a64Calc r.type = some k) :
    ∃ m', relocate c junk m = some (m', 0) := by
  unfold relocate
  rw [hc] at h ⊢
  obtain ⟨⟨s, hs⟩, hk⟩ := h r0 (List.mem_cons_self ..)
  obtain ⟨a, nc, ht⟩ := table_supported _ hk
  have hnc : nc = true := (nc_iff ht).2 hu
  subst hnc
  obtain ⟨m', hm'⟩ := @applyAll_complete c rs false
    (m.write (loc c r0) (bytesOf a (loc c r0) (s.value + r0.addend) (word m (loc c r0)))) (by
      intro r hr
      obtain ⟨⟨s', hs'⟩, hk'⟩ := h r (List.mem_cons_of_mem _ hr)
      obtain ⟨a', nc', ht'⟩ := table_supported _ hk'
      exact ⟨s', a', nc', hs', ht', fun h => absurd h (by decide)⟩)
  refine ⟨m', ?_⟩
  unfold applyAll
  rw [hs]
  dsimp only
  rw [ht]
  dsimp only
  rw [run_eq]
  simpa using hm'

/-- C16: an unknown type is refused. -/
theorem C16_a64_unknown_refused (c : RelaCtx) (junk : Bool) (m m' : Mem) (r : Rela) (hr : r ∈ c.rels)
    (hk : Psabi.a64Calc r.type = none) (h0 : r.type ≠ 0) : relocate c junk m ≠ some (m', 0) := by
  intro h
  have key : ∀ (rs : List Rela) (chk : Bool) (m m' : Mem), applyAll c chk rs m = some (m', 0) →
      ∀ r ∈ rs, ∃ p, table r.type = some p := by
    intro rs
    induction rs with
    | nil => intro _ _ _ _ r hr; cases hr
    | cons q rs ih =>
      intro chk m m' h r hr
      obtain ⟨s, a, nc, hs, ht, _, hrest⟩ := applyAll_cons_ok h
      rcases List.mem_cons.1 hr with rfl | hr
      · exact ⟨_, ht⟩
      · exact ih _ _ _ hrest r hr
  obtain ⟨p, hp⟩ := key _ _ _ _ h r hr
  generalize r.type = n at *
  unfold table at hp
  split at hp <;> first
    | exact absurd rfl h0
    | (exact absurd hk (by decide))
    | cases hp

/-! ### Concrete cases -/

/-- Same address in host and target: `BL` and `ADRP; ADD` and a pointer. -/
def exCtx : RelaCtx where
  hdr := 0x7f0000000000
  targetHdr := 0x7f0000000000
  secAddr := 0x7f0000000040
  rels := [⟨0, 1, 283, 0⟩, ⟨4, 1, 275, 8⟩, ⟨8, 1, 277, 8⟩, ⟨16, 1, 257, 0x10⟩]
  syms := [⟨0, 0, 0⟩, ⟨0x7f0000401000, 2, 0⟩]

def exMem : Mem :=
  Mem.write (fun _ => 0) 0x7f0000000040
    (leBytes 4 0x94000000 ++ leBytes 4 0x90000001 ++ leBytes 4 0x91000021)

example : ∃ m', relocate exCtx true exMem = some (m', 0) ∧
    fetch m' 0x7f0000000040 = 0x941003f0 ∧
    fetch m' 0x7f0000000044 = 0xb0002001 ∧
    fetch m' 0x7f0000000048 = 0x91002021 ∧
    m'.read 0x7f0000000050 8 = [0x10, 0x10, 0x40, 0, 0, 0x7f, 0, 0] :=
  ⟨_, rfl, by decide +kernel, by decide +kernel, by decide +kernel, by decide +kernel⟩

example : exCtx.rels.Pairwise (FieldsApart exCtx) := by
  have key : ∀ (a b : Addr) (n k : Nat), a.toNat + n ≤ b.toNat → b.toNat + k < 2^64 →
      ∀ i j, i < n → j < k → a + BitVec.ofNat 64 i ≠ b + BitVec.ofNat 64 j := by
    intro a b n k h1 h2 i j hi hj he
    have := congrArg BitVec.toNat he
    simp only [BitVec.toNat_add, BitVec.toNat_ofNat] at this
    omega
  simp only [exCtx, List.pairwise_cons, List.mem_cons, List.not_mem_nil, or_false, forall_eq_or_imp,
    forall_eq]
  refine ⟨⟨?_, ?_, ?_⟩, ⟨?_, ?_⟩, ?_, ?_⟩ <;>
    first | exact key _ _ _ _ (by decide) (by decide) | simp

/-- A call that is too far, refused only when the flag happens to be set. -/
def farCtx : RelaCtx :=
  { exCtx with rels := [⟨0, 1, 283, 0⟩], syms := [⟨0, 0, 0⟩, ⟨0x401000, 2, 0⟩] }

example : (∃ m', relocate farCtx true exMem = some (m', RELOC_ENOEXEC)) ∧
    ∃ m', relocate farCtx false exMem = some (m', 0) := ⟨⟨_, rfl⟩, ⟨_, rfl⟩⟩

/-- The instruction forms the theorems ask for. -/
example : MovwInsn 0xd2e00001 0b10 1 3 ∧ MovwInsn 0xf2c00001 0b11 1 2 ∧
    (0x94000000 : BitVec 32).extractLsb' 26 6 = 0b100101 ∧
    (0x90000001 : BitVec 32).extractLsb' 24 5 = 0b10000 ∧
    (0x91000021 : BitVec 32).extractLsb' 22 10 = 0b1001000100 :=
  ⟨⟨by decide, by decide, by decide, by decide, by decide⟩,
    ⟨by decide, by decide, by decide, by decide, by decide⟩, by decide, by decide, by decide⟩

end Ulp.A64Reloc
