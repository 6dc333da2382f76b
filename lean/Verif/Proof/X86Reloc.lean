import Verif.Proof.Mem
import Verif.Model.X86Reloc
import Verif.Spec.Psabi
namespace Ulp

theorem leNat_eq_zero (bs : List Byte) : leNat bs = 0 ↔ ∀ b ∈ bs, b = 0 := by
  induction bs with
  | nil => simp [leNat]
  | cons b bs ih =>
    simp only [leNat, List.mem_cons, forall_eq_or_imp, ← ih]
    constructor
    · intro h
      exact ⟨BitVec.eq_of_toNat_eq (by simp; omega), by omega⟩
    · rintro ⟨rfl, h⟩
      simp [h]

theorem load_eq_zero (m : Mem) (a : Addr) (n : Nat) (hn : n ≤ 8) :
    m.load a n = 0 ↔ ∀ i, i < n → m (a + BitVec.ofNat 64 i) = 0 := by
  have hlt : leNat (m.read a n) < 2^64 := by
    have := leNat_lt (m.read a n)
    rw [Mem.read_length] at this
    exact Nat.lt_of_lt_of_le this (by
      calc 256 ^ n ≤ 256 ^ 8 := Nat.pow_le_pow_right (by omega) hn
        _ = 2^64 := by decide)
  have : m.load a n = 0 ↔ leNat (m.read a n) = 0 := by
    unfold Mem.load
    rw [← BitVec.toNat_inj]
    simp only [BitVec.toNat_ofNat, Nat.mod_eq_of_lt hlt]
    simp
  rw [this, leNat_eq_zero]
  constructor
  · intro h i hi
    exact h _ (List.mem_iff_getElem.2 ⟨i, by simpa using hi, by simp⟩)
  · intro h b hb
    obtain ⟨i, hi, rfl⟩ := List.mem_iff_getElem.1 hb
    rw [Mem.read_getElem]; exact h i (by simpa using hi)

theorem write_nil (m : Mem) (a : Addr) : m.write a [] = m := by
  funext x; simp [Mem.write]

theorem holds_write (m : Mem) (a : Addr) (n : Nat) (v : BitVec 64) (hn : n ≤ 8) :
    Psabi.Holds (m.write a (leBytes n v)) a n v := by
  intro i hi
  rw [Mem.write_in _ _ _ i (by simpa using hi) (by omega)]
  simp [leBytes]

theorem load4_toNat_mod (v : BitVec 64) : (BitVec.ofNat 64 (v.toNat % 256 ^ 4)).toNat = v.toNat % 2^32 := by
  simp only [BitVec.toNat_ofNat]
  omega

namespace X86Reloc

/-- The value the code writes into a field. -/
def wval (c : RelaCtx) (first : BitVec 64) (r : Rela) (s : Sym) : BitVec 64 :=
  match RType.ofNat r.type with
  | .r64 | .r32 | .r32s => s.value + r.addend
  | .gottpoff | .gotpcrel | .rexGotpcrelx | .gotpcrelx =>
    if isUndef s = false ∧ s.type = STT_TLS then first + c.targetHdr - 4 - (c.secAddr + r.offset)
    else s.value + r.addend - (c.secAddr + r.offset)
  | _ => s.value + r.addend - (c.secAddr + r.offset)

theorem place (c : RelaCtx) (r : Rela) : loc c r - (c.hdr - c.targetHdr) = c.secAddr + r.offset := by
  unfold loc
  rw [BitVec.add_assoc, BitVec.add_comm (c.hdr - c.targetHdr), ← BitVec.add_assoc, BitVec.add_sub_cancel]

theorem enoexec_ne : RELOC_ENOEXEC ≠ 0 := by decide

theorem loadS32_write (m : Mem) (a : Addr) (v : BitVec 64) :
    loadS32 (m.write a (leBytes 4 v)) a = (v.setWidth 32).signExtend 64 := by
  unfold loadS32
  rw [load_write_leBytes _ _ _ _ (by omega)]
  congr 1
  apply BitVec.eq_of_toNat_eq
  simp only [BitVec.toNat_setWidth, load4_toNat_mod]
  omega

theorem load32_write (m : Mem) (a : Addr) (v : BitVec 64) :
    (m.write a (leBytes 4 v)).load a 4 = (v.setWidth 32).setWidth 64 := by
  rw [load_write_leBytes _ _ _ _ (by omega)]
  apply BitVec.eq_of_toNat_eq
  rw [load4_toNat_mod]
  simp only [BitVec.toNat_setWidth]
  omega

theorem fits32 (v : BitVec 64) : v = (v.setWidth 32).setWidth 64 ↔ v.toNat < 2^32 := by
  rw [← BitVec.toNat_inj]
  simp only [BitVec.toNat_setWidth]
  omega

theorem fits32s (v : BitVec 64) :
    v = (v.setWidth 32).signExtend 64 ↔ (-2^31 ≤ v.toInt ∧ v.toInt < 2^31) := by
  rw [← BitVec.toInt_inj, BitVec.toInt_signExtend]
  rw [show min 64 32 = 32 from rfl]
  simp only [BitVec.toInt_eq_toNat_bmod, BitVec.toNat_setWidth]
  have := v.isLt
  simp only [Int.bmod_def]
  omega

/-- The types that are accepted. -/
def accepted (t : Nat) : Bool :=
  match RType.ofNat t with
  | .other _ => false
  | _ => true

/-- The value written is refused by the overflow check. -/
def rejects (t : Nat) (v : BitVec 64) : Prop :=
  match RType.ofNat t with
  | .r32 => ¬ v.toNat < 2^32
  | .r32s => ¬ (-2^31 ≤ v.toInt ∧ v.toInt < 2^31)
  | _ => False

/-- Widths by constructor. -/
def width (t : RType) : Nat :=
  match t with
  | .r64 | .pc64 => 8
  | .r32 | .r32s | .gottpoff | .gotpcrel | .rexGotpcrelx | .gotpcrelx | .pc32 | .plt32 => 4
  | _ => 0

theorem width_ofNat (n : Nat) : width (RType.ofNat n) = Psabi.x86Width n := by
  by_cases h : n < 43
  · have : ∀ n, n < 43 → width (RType.ofNat n) = Psabi.x86Width n := by decide
    exact this n h
  · unfold RType.ofNat
    iterate 13 rw [if_neg (by omega)]
    unfold Psabi.x86Width
    split <;> first | rfl | omega

theorem width_le (n : Nat) : Psabi.x86Width n ≤ 8 := by
  unfold Psabi.x86Width; split <;> omega

/-- The field of a relocation is all zero. -/
def Zero (m : Mem) (a : Addr) (n : Nat) : Prop := ∀ i, i < n → m (a + BitVec.ofNat 64 i) = 0

theorem applyPc32_eq (c : RelaCtx) (m : Mem) (r : Rela) (v : BitVec 64) :
    (applyPc32 c m r v = (m, RELOC_ENOEXEC) ∧ ¬ Zero m (loc c r) 4) ∨
    (applyPc32 c m r v = (m.write (loc c r) (leBytes 4 (v - (c.secAddr + r.offset))), 0) ∧
      Zero m (loc c r) 4) := by
  unfold applyPc32
  rw [place]
  by_cases h : m.load (loc c r) 4 = 0
  · rw [if_neg (by simpa using h)]
    exact .inr ⟨rfl, (load_eq_zero _ _ _ (by omega)).1 h⟩
  · rw [if_pos h]
    exact .inl ⟨rfl, fun hz => h ((load_eq_zero _ _ _ (by omega)).2 hz)⟩

/-- What one relocation does, uniformly. -/
theorem applyOne_cases (c : RelaCtx) (first : BitVec 64) (m : Mem) (r : Rela) (s : Sym) :
    (accepted r.type = false ∧ applyOne c first m r s = (m, RELOC_ENOEXEC)) ∨
    (accepted r.type = true ∧ ¬ Zero m (loc c r) (Psabi.x86Width r.type) ∧
      applyOne c first m r s = (m, RELOC_ENOEXEC)) ∨
    (accepted r.type = true ∧ Zero m (loc c r) (Psabi.x86Width r.type) ∧
      rejects r.type (wval c first r s) ∧
      applyOne c first m r s =
        (m.write (loc c r) (leBytes (Psabi.x86Width r.type) (wval c first r s)), RELOC_ENOEXEC)) ∨
    (accepted r.type = true ∧ Zero m (loc c r) (Psabi.x86Width r.type) ∧
      ¬ rejects r.type (wval c first r s) ∧
      applyOne c first m r s =
        (m.write (loc c r) (leBytes (Psabi.x86Width r.type) (wval c first r s)), 0)) := by
  have z0 : ∀ a, Zero m a 0 := fun a i hi => absurd hi (by omega)
  have w0 : ∀ a v, m.write a (leBytes 0 v) = m := fun a v => write_nil m a
  rw [← width_ofNat]
  unfold applyOne accepted rejects wval
  cases RType.ofNat r.type <;> dsimp only [width]
  case none => exact .inr (.inr (.inr ⟨rfl, z0 _, id, by rw [w0]⟩))
  case tpoff64 => exact .inr (.inr (.inr ⟨rfl, z0 _, id, by rw [w0]⟩))
  case tpoff32 => exact .inr (.inr (.inr ⟨rfl, z0 _, id, by rw [w0]⟩))
  case other => exact .inl ⟨rfl, rfl⟩
  case r64 =>
    by_cases h : m.load (loc c r) 8 = 0
    · rw [if_neg (by simpa using h)]
      exact .inr (.inr (.inr ⟨rfl, (load_eq_zero _ _ _ (by omega)).1 h, id, rfl⟩))
    · rw [if_pos h]
      exact .inr (.inl ⟨rfl, fun hz => h ((load_eq_zero _ _ _ (by omega)).2 hz), rfl⟩)
  case pc64 =>
    rw [place]
    by_cases h : m.load (loc c r) 8 = 0
    · rw [if_neg (by simpa using h)]
      exact .inr (.inr (.inr ⟨rfl, (load_eq_zero _ _ _ (by omega)).1 h, id, rfl⟩))
    · rw [if_pos h]
      exact .inr (.inl ⟨rfl, fun hz => h ((load_eq_zero _ _ _ (by omega)).2 hz), rfl⟩)
  case r32 =>
    by_cases h : m.load (loc c r) 4 = 0
    · rw [if_neg (by simpa using h), load32_write]
      by_cases hv : (s.value + r.addend).toNat < 2^32
      · rw [if_neg (by simpa using (fits32 _).2 hv)]
        exact .inr (.inr (.inr ⟨rfl, (load_eq_zero _ _ _ (by omega)).1 h, fun k => k hv, rfl⟩))
      · rw [if_pos (fun k => hv ((fits32 _).1 k))]
        exact .inr (.inr (.inl ⟨rfl, (load_eq_zero _ _ _ (by omega)).1 h, hv, rfl⟩))
    · rw [if_pos h]
      exact .inr (.inl ⟨rfl, fun hz => h ((load_eq_zero _ _ _ (by omega)).2 hz), rfl⟩)
  case r32s =>
    by_cases h : m.load (loc c r) 4 = 0
    · rw [if_neg (by simpa using h), loadS32_write]
      by_cases hv : (-2^31 ≤ (s.value + r.addend).toInt ∧ (s.value + r.addend).toInt < 2^31)
      · rw [if_neg (not_not_intro ((fits32s _).2 hv))]
        exact .inr (.inr (.inr ⟨rfl, (load_eq_zero _ _ _ (by omega)).1 h, fun k => k hv, rfl⟩))
      · rw [if_pos (fun k => hv ((fits32s _).1 k))]
        exact .inr (.inr (.inl ⟨rfl, (load_eq_zero _ _ _ (by omega)).1 h, hv, rfl⟩))
    · rw [if_pos h]
      exact .inr (.inl ⟨rfl, fun hz => h ((load_eq_zero _ _ _ (by omega)).2 hz), rfl⟩)
  case pc32 =>
    rcases applyPc32_eq c m r (s.value + r.addend) with ⟨h1, h2⟩ | ⟨h1, h2⟩
    · exact .inr (.inl ⟨rfl, h2, h1⟩)
    · exact .inr (.inr (.inr ⟨rfl, h2, id, h1⟩))
  case plt32 =>
    rcases applyPc32_eq c m r (s.value + r.addend) with ⟨h1, h2⟩ | ⟨h1, h2⟩
    · exact .inr (.inl ⟨rfl, h2, h1⟩)
    · exact .inr (.inr (.inr ⟨rfl, h2, id, h1⟩))
  all_goals
    cases hu : isUndef s
    · by_cases ht : s.type = STT_TLS
      · rw [if_neg (by decide), if_pos ht, if_pos ⟨rfl, ht⟩]
        rcases applyPc32_eq c m r (first + c.targetHdr - 4) with ⟨h1, h2⟩ | ⟨h1, h2⟩
        · exact .inr (.inl ⟨rfl, h2, h1⟩)
        · exact .inr (.inr (.inr ⟨rfl, h2, id, h1⟩))
      · rw [if_neg (by decide), if_neg ht, if_neg (fun k => ht k.2)]
        rcases applyPc32_eq c m r (s.value + r.addend) with ⟨h1, h2⟩ | ⟨h1, h2⟩
        · exact .inr (.inl ⟨rfl, h2, h1⟩)
        · exact .inr (.inr (.inr ⟨rfl, h2, id, h1⟩))
    · rw [if_pos rfl, if_neg (fun k => Bool.noConfusion k.1)]
      rcases applyPc32_eq c m r (s.value + r.addend) with ⟨h1, h2⟩ | ⟨h1, h2⟩
      · exact .inr (.inl ⟨rfl, h2, h1⟩)
      · exact .inr (.inr (.inr ⟨rfl, h2, id, h1⟩))

/-- A successful relocation: everything known about it. -/
structure Ok (c : RelaCtx) (first : BitVec 64) (m : Mem) (r : Rela) (s : Sym) (m' : Mem) : Prop where
  acc : accepted r.type = true
  zero : Zero m (loc c r) (Psabi.x86Width r.type)
  fits : ¬ rejects r.type (wval c first r s)
  eq : m' = m.write (loc c r) (leBytes (Psabi.x86Width r.type) (wval c first r s))

theorem applyOne_ok {c first m r s} (h : (applyOne c first m r s).2 = 0) :
    Ok c first m r s (applyOne c first m r s).1 := by
  rcases applyOne_cases c first m r s with ⟨_, h1⟩ | ⟨_, _, h1⟩ | ⟨_, _, _, h1⟩ | ⟨ha, hz, hf, h1⟩
  · rw [h1] at h; exact absurd h enoexec_ne
  · rw [h1] at h; exact absurd h enoexec_ne
  · rw [h1] at h; exact absurd h enoexec_ne
  · exact ⟨ha, hz, hf, by rw [h1]⟩

theorem applyAll_cons_ok {c first r rs m m'} (h : applyAll c first (r :: rs) m = some (m', 0)) :
    ∃ s, c.syms[r.sym]? = some s ∧ Ok c first m r s (applyOne c first m r s).1 ∧
      applyAll c first rs (applyOne c first m r s).1 = some (m', 0) := by
  unfold applyAll at h
  cases hs : c.syms[r.sym]? with
  | none => rw [hs] at h; exact absurd h (by simp)
  | some s =>
    rw [hs] at h
    dsimp only at h
    by_cases h0 : (applyOne c first m r s).2 = 0
    · rw [if_neg (by simpa using h0)] at h
      exact ⟨s, rfl, applyOne_ok h0, h⟩
    · rw [if_pos h0] at h
      injection h with h
      exact absurd (congrArg Prod.snd h) h0

/-- Fields of two relocations do not meet. -/
def Apart (c : RelaCtx) (r r' : Rela) : Prop :=
  Disjoint (loc c r) (Psabi.x86Width r.type) (loc c r') (Psabi.x86Width r'.type)

/-- Bytes outside every field are unchanged. -/
theorem applyAll_frame {c first} (rs : List Rela) : ∀ {m m'},
    applyAll c first rs m = some (m', 0) → ∀ x,
    (∀ r ∈ rs, ∀ i, i < Psabi.x86Width r.type → x ≠ loc c r + BitVec.ofNat 64 i) → m' x = m x := by
  induction rs with
  | nil => intro m m' h x _; simp only [applyAll, Option.some.injEq, Prod.mk.injEq] at h; rw [h.1]
  | cons r rs ih =>
    intro m m' h x hx
    obtain ⟨s, _, hok, hrest⟩ := applyAll_cons_ok h
    rw [ih hrest x (fun r' hr' => hx r' (List.mem_cons_of_mem _ hr')), hok.eq]
    apply Mem.write_out
    rw [leBytes_length]
    apply Nat.le_of_not_lt
    intro hlt
    exact hx r (List.mem_cons_self ..) _ hlt (addr_eq_add_sub _ _)

/-- Fields hold their values at the end. -/
theorem applyAll_values {c first} (rs : List Rela) : ∀ {m m'},
    applyAll c first rs m = some (m', 0) → rs.Pairwise (Apart c) →
    ∀ r ∈ rs, ∃ s, c.syms[r.sym]? = some s ∧ accepted r.type = true ∧
      ¬ rejects r.type (wval c first r s) ∧
      Psabi.Holds m' (loc c r) (Psabi.x86Width r.type) (wval c first r s) := by
  induction rs with
  | nil => intro _ _ _ _ r hr; cases hr
  | cons r rs ih =>
    intro m m' h hp r' hr'
    obtain ⟨s, hs, hok, hrest⟩ := applyAll_cons_ok h
    rw [List.pairwise_cons] at hp
    rcases List.mem_cons.1 hr' with rfl | hr'
    · refine ⟨s, hs, hok.acc, hok.fits, ?_⟩
      intro i hi
      rw [applyAll_frame rs hrest, hok.eq]
      · exact holds_write _ _ _ _ (width_le _) i hi
      · intro r'' hr'' j hj
        exact hp.1 r'' hr'' i j hi hj
    · exact ih hrest hp.2 r' hr'

/-- Nonzero bytes survive a successful relocation. -/
theorem Ok.keeps {c first m r s m'} (h : Ok c first m r s m') {x : Addr} (hx : m x ≠ 0) : m' x = m x := by
  rw [h.eq]
  apply Mem.write_out
  rw [leBytes_length]
  apply Nat.le_of_not_lt
  intro hlt
  apply hx
  rw [addr_eq_add_sub (loc c r) x]
  exact h.zero _ hlt

theorem applyAll_zero {c first} (rs : List Rela) : ∀ {m m'},
    applyAll c first rs m = some (m', 0) → ∀ r ∈ rs, Zero m (loc c r) (Psabi.x86Width r.type) := by
  induction rs with
  | nil => intro _ _ _ r hr; cases hr
  | cons r rs ih =>
    intro m m' h r' hr'
    obtain ⟨s, hs, hok, hrest⟩ := applyAll_cons_ok h
    rcases List.mem_cons.1 hr' with rfl | hr'
    · exact hok.zero
    · intro i hi
      apply Classical.byContradiction
      intro hne
      have := ih hrest r' hr' i hi
      rw [hok.keeps hne] at this
      exact hne this

/-- If every entry is acceptable, fits and has a zero field apart from the
others, the section is relocated. -/
theorem applyAll_complete {c first} (rs : List Rela) : ∀ {m},
    (∀ r ∈ rs, ∃ s, c.syms[r.sym]? = some s ∧ accepted r.type = true ∧
      ¬ rejects r.type (wval c first r s)) →
    (∀ r ∈ rs, Zero m (loc c r) (Psabi.x86Width r.type)) → rs.Pairwise (Apart c) →
    ∃ m', applyAll c first rs m = some (m', 0) := by
  induction rs with
  | nil => intro m _ _ _; exact ⟨m, rfl⟩
  | cons r rs ih =>
    intro m hg hz hp
    obtain ⟨s, hs, ha, hf⟩ := hg r (List.mem_cons_self ..)
    have hz0 := hz r (List.mem_cons_self ..)
    rw [List.pairwise_cons] at hp
    have h1 : applyOne c first m r s =
        (m.write (loc c r) (leBytes (Psabi.x86Width r.type) (wval c first r s)), 0) := by
      rcases applyOne_cases c first m r s with ⟨h, _⟩ | ⟨_, h, _⟩ | ⟨_, _, h, _⟩ | ⟨_, _, _, h⟩
      · rw [ha] at h; exact absurd h (by decide)
      · exact absurd hz0 h
      · exact absurd h hf
      · exact h
    obtain ⟨m', hm'⟩ := @ih (applyOne c first m r s).1
      (fun r' hr' => hg r' (List.mem_cons_of_mem _ hr'))
      (by
        intro r' hr' i hi
        rw [h1]
        dsimp only
        rw [Mem.write_out_of_disjoint (k := Psabi.x86Width r'.type) _ hi]
        · exact hz r' (List.mem_cons_of_mem _ hr') i hi
        · rw [leBytes_length]; exact hp.1 r' hr')
      hp.2
    refine ⟨m', ?_⟩
    unfold applyAll
    rw [hs]
    dsimp only
    rw [if_neg (by rw [h1]; simp)]
    exact hm'

theorem relocate_eq (c : RelaCtx) (m : Mem) :
    ∃ first, relocate c m = applyAll c first c.rels m ∧ (∀ r rs, c.rels = r :: rs → first = r.addend) := by
  unfold relocate
  cases h : c.rels with
  | nil => exact ⟨0, rfl, by intro r rs h; cases h⟩
  | cons r rs => exact ⟨r.addend, rfl, by intro r' rs' h; injection h with h _; rw [h]⟩

end X86Reloc
end Ulp
