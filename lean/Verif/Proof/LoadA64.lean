/- The instruction fields of a loaded aarch64 patch file. -/
import Verif.Spec.A64Fields
import Verif.Props.LoadBytes
import Verif.Props.A64Insn
namespace Ulp.LoadBytes
open Load PatchFile A64Insn A64Reloc

theorem updated_congr {fld : A64.Field} {w w' : BitVec 32} {a b : BitVec 64} (h : fld.Updated w w' a)
    (e : ∀ k j, fld.bits[k]? = some j → a.getLsbD k = b.getLsbD k) : fld.Updated w w' b :=
  ⟨fun k j hk => (h.1 k j hk).trans (e k j hk), h.2⟩

theorem relocImm_updated {t : ImmType} {fld : A64.Field} (hf : field t = some fld) (op : Op) (place : Addr)
    (val : BitVec 64) (lsb len : Nat) (h : lsb + len < 64) (w : BitVec 32) (hne : w ≠ BREAK_FAULT) :
    fld.Updated w (relocImm op place val lsb len t w).1
      (((doReloc op place val).extractLsb' lsb len).setWidth 64) := by
  rw [relocImm_word]
  refine updated_congr (C14_encode t fld hf w _ hne) ?_
  intro k j _
  rw [BitVec.getLsbD_and, immMask_getLsbD _ _ _ h, BitVec.getLsbD_setWidth, BitVec.getLsbD_extractLsb',
    BitVec.getLsbD_sshiftRight]
  by_cases hk : k < len
  · have h1 : k < 64 := by omega
    have h2 : ¬ 64 ≤ k := by omega
    have h3 : lsb + k < 64 := by omega
    simp [hk, h1, h2, h3]
  · simp [hk]

theorem relocMovw_updated (op : Op) (place : Addr) (val : BitVec 64) (lsb : Nat) (h : lsb + 16 ≤ 64)
    (w : BitVec 32) (hne : w ≠ BREAK_FAULT) :
    A64.Field.imm16.Updated w (relocMovw op place val lsb false w).1
      (((doReloc op place val).extractLsb' lsb 16).setWidth 64) := by
  refine updated_congr (C14_encode .i16 .imm16 rfl w ((doReloc op place val).sshiftRight lsb) hne) ?_
  intro k j hk
  have hk16 : k < 16 := by
    have := (List.getElem?_eq_some_iff.1 hk).1
    simpa [A64.Field.bits, A64.bitsFrom] using this
  rw [BitVec.getLsbD_setWidth, BitVec.getLsbD_extractLsb', BitVec.getLsbD_sshiftRight]
  have h1 : k < 64 := by omega
  have h2 : ¬ 64 ≤ k := by omega
  have h3 : lsb + k < 64 := by omega
  simp [hk16, h1, h2, h3]

theorem relocMovw_nz (op : Op) (place : Addr) (val : BitVec 64) (lsb : Nat) (h : lsb + 16 ≤ 64)
    (w : BitVec 32) (hcls : w.extractLsb' 23 6 = 0b100101) :
    let X := doReloc op place val
    let w' := (relocMovw op place val lsb true w).1
    (∀ k, k < 16 → w'.getLsbD (5 + k) = (X.getLsbD (lsb + k) ^^ X.msb)) ∧
    w'.getLsbD 30 = !X.msb ∧ w'.getLsbD 29 = false ∧
    ∀ j, j < 32 → ¬ (5 ≤ j ∧ j < 21) → j ≠ 29 → j ≠ 30 → w'.getLsbD j = w.getLsbD j := by
  have hb := relocMovw_bits op place val lsb true w hcls
  have hm : ∀ X : BitVec 64, decide (X.toInt < 0) = X.msb := by
    intro X
    rw [BitVec.msb_eq_toInt]
  have hm' : ∀ X : BitVec 64, decide (0 ≤ X.toInt) = !X.msb := by
    intro X
    rw [BitVec.msb_eq_toInt, ← decide_not]
    exact decide_eq_decide.2 (by omega)
  dsimp only
  refine ⟨?_, ?_, ?_, ?_⟩
  · intro k hk
    rw [hb (5 + k) (by omega), if_pos (by omega), hm, BitVec.getLsbD_sshiftRight]
    have h1 : 5 + k - 5 = k := by omega
    have h2 : ¬ 64 ≤ k := by omega
    have h3 : lsb + k < 64 := by omega
    simp [h1, h2, h3]
  · rw [hb 30 (by omega), if_neg (by omega), if_pos ⟨rfl, rfl⟩, hm']
  · rw [hb 29 (by omega), if_neg (by omega), if_neg (by omega), if_pos ⟨rfl, rfl⟩]
  · intro j hj h1 h2 h3
    rw [hb j hj, if_neg h1, if_neg (by omega), if_neg (by omega)]

/-- The value a type computes. -/
theorem calc_table {n : Nat} {a : Act} {nc : Bool} (ht : table n = some (a, nc)) {c : Psabi.Calc}
    (hc : Psabi.a64Calc n = some c) :
    ∃ op, (∀ place val, doReloc op place val = c.val val place) ∧
      ((∃ w, Psabi.a64DataWidth n = some w ∧ w ≤ 8 ∧ a = .data op (8 * w) ∧ Psabi.a64Insn n = none ∧
          Psabi.a64Movnz n = none) ∨
       (∃ fld lsb len t, Psabi.a64Insn n = some (fld, lsb, len) ∧ field t = some fld ∧ lsb + len < 64 ∧
          a = .imm op lsb len t ∧ Psabi.a64DataWidth n = none ∧ Psabi.a64Movnz n = none) ∨
       (∃ lsb, Psabi.a64Insn n = some (.imm16, lsb, 16) ∧ lsb + 16 ≤ 64 ∧ a = .movw op lsb false ∧
          Psabi.a64DataWidth n = none ∧ Psabi.a64Movnz n = none) ∨
       (∃ lsb, Psabi.a64Movnz n = some lsb ∧ lsb + 16 ≤ 64 ∧ a = .movw op lsb true ∧
          Psabi.a64DataWidth n = none ∧ Psabi.a64Insn n = none)) := by
  have page_eq : ∀ x : BitVec 64, x &&& ~~~ 0xfff = x.extractLsb' 12 52 ++ (0 : BitVec 12) := by
    intro x
    apply BitVec.eq_of_getLsbD_eq
    intro i hi
    have hmask : ∀ i, i < 64 → (~~~ (0xfff : BitVec 64)).getLsbD i = decide (12 ≤ i) := by decide
    rw [BitVec.getLsbD_and, hmask i hi]
    refine Eq.trans ?_ (BitVec.getLsbD_append ..).symm
    by_cases h : i < 12
    · have : ¬ 12 ≤ i := by omega
      simp [h, this]
    · have h1 : 12 ≤ i := by omega
      have h2 : i - 12 < 52 := by omega
      have h3 : 12 + (i - 12) = i := by omega
      simp [h, h1, h2, h3]
  have ops : ∀ c' : Psabi.Calc, ∃ op, (∀ place val, doReloc op place val = c'.val val place) ∧
      op = (match c' with | .sa => Op.abs | .sap => Op.prel | .page => Op.page) := by
    intro c'
    refine ⟨_, ?_, rfl⟩
    intro place val
    cases c' with
    | sa => rfl
    | sap => rfl
    | page => simp only [doReloc, Psabi.Calc.val, page_eq]
  obtain ⟨op, h1, h2⟩ := ops c
  refine ⟨op, h1, ?_⟩
  unfold table at ht
  split at ht <;> first
    | (cases ht; done)
    | (simp only [Psabi.a64Calc] at hc
       simp only [Option.some.injEq, Prod.mk.injEq] at ht
       obtain ⟨rfl, -⟩ := ht
       simp at hc; done)
    | (simp only [Psabi.a64Calc] at hc
       simp at hc
       subst hc
       subst h2
       simp only [Option.some.injEq, Prod.mk.injEq] at ht
       obtain ⟨rfl, -⟩ := ht
       first
       | exact Or.inl ⟨_, rfl, by decide, rfl, rfl, rfl⟩
       | exact Or.inr (Or.inl ⟨_, _, _, _, rfl, rfl, by decide, rfl, rfl, rfl⟩)
       | exact Or.inr (Or.inr (Or.inl ⟨_, rfl, by decide, rfl, rfl, rfl⟩))
       | exact Or.inr (Or.inr (Or.inr ⟨_, rfl, by decide, rfl, rfl, rfl⟩)))

section
variable {f : List Byte} {secs : List Sec} {o : Nat} {strs : Sec} {si : Nat} {st str : Sec}
  {syms : List SymEntry} {rels : Nat → List RelEntry} {src dst : List Byte}

theorem word_num {m : Mem} {p : Addr} {g : List Byte} {q : Nat} {w : BitVec 32} (h : Num g q 4 w.toNat)
    (hb : ∀ j, j < 4 → g[q + j]? = some (m (p + BitVec.ofNat 64 j))) : word m p = w := by
  apply word_of_read
  have hl : (m.read p 4).length = 4 := by simp
  have h2 := num_of_getElem (g := g) (p := q) (bs := m.read p 4) (by
    intro j hj
    rw [hl] at hj
    rw [hb j hj]
    have := Mem.read_getElem? m p 4 j
    rw [if_pos hj] at this
    rw [List.getElem?_eq_some_iff] at this
    obtain ⟨_, e⟩ := this
    rw [e])
  rw [hl] at h2
  obtain ⟨a, ha, hpa, hva⟩ := h
  obtain ⟨b, hb', hpb, hvb⟩ := h2
  have e1 : leNat (m.read p 4) = w.toNat := by
    have : a = b := (List.prefix_of_prefix_length_le hpa hpb (by omega)).eq_of_length (by omega)
    subst this
    omega
  exact leNat_inj (by rw [hl, leBytes_length]) (by rw [e1, leNat_leBytes4])

/-- What an entry of the file has become in the image. -/
theorem Done.a64_word {E : Env} {junk : Bool} {g : List Byte} {i t r s}
    (hs : syms[r.sym]? = some s)
    (h : Done (a64 junk) f E.hdr E.th (newSyms secs E.th E.find syms) rels g i t r) {c : Psabi.Calc}
    (hc : Psabi.a64Calc r.type = some c) :
    let X := c.val (BitVec.ofNat 64 (newVal secs E.th E.find r.sym s) + BitVec.ofNat 64 r.addend)
      (E.hdr + BitVec.ofNat 64 (t.offset + r.offset))
    (∀ w, Psabi.a64DataWidth r.type = some w → Num g (t.offset + r.offset) w (X.toNat % 256 ^ w)) ∧
    (Psabi.a64DataWidth r.type = none → ∀ w : BitVec 32, Num f (t.offset + r.offset) 4 w.toNat →
      Psabi.Sensible r.type w →
      ∃ w' : BitVec 32, Num g (t.offset + r.offset) 4 w'.toNat ∧ Psabi.Relocated r.type X w w') := by
  obtain ⟨x, ⟨mst, m, s', r0, h1, h2, h3, rfl⟩, h4, h5⟩ := h
  rw [newSyms_some hs] at h1
  cases h1
  generalize hval : BitVec.ofNat 64 (newVal secs E.th E.find r.sym s) + BitVec.ofNat 64 r.addend = val
  generalize hplace : E.hdr + BitVec.ofNat 64 (t.offset + r.offset) = place
  have hadd : ∀ j, E.hdr + BitVec.ofNat 64 (t.offset + r.offset + j) = place + BitVec.ofNat 64 j := by
    intro j
    rw [← hplace, BitVec.ofNat_add, BitVec.add_assoc]
  have hloc : A64Reloc.loc ⟨E.hdr, E.th, E.th + BitVec.ofNat 64 t.offset, [], []⟩
      ⟨BitVec.ofNat 64 r.offset, r.sym, r.type, BitVec.ofNat 64 r.addend⟩ = place := by
    have := loc_eq E.hdr E.th t.offset r.offset 0
    rw [hadd] at this
    simp only [BitVec.ofNat_eq_ofNat, BitVec.add_zero] at this
    exact this
  cases ht : table r.type with
  | none =>
    exfalso
    unfold a64 at h4
    dsimp only at h4
    rw [ht] at h4
    exact absurd (show RELOC_ENOEXEC = 0 from h4) (by decide)
  | some y =>
  obtain ⟨a, nc⟩ := y
  rw [a64_width ht] at h3 h5
  have hbytes : ∀ j (hj : j < (bytesOf a place val (word m place)).length),
      g[t.offset + r.offset + j]? = some (bytesOf a place val (word m place))[j] := by
    intro j hj
    have hlen := bytesOf_length a place val (word m place)
    have hw : a.width ≤ 8 := by
      have := width_table ht
      rw [this]
      unfold Psabi.a64Width
      split <;> omega
    rw [h5 j (by omega)]
    congr 1
    unfold a64
    dsimp only
    rw [ht]
    dsimp only
    rw [hloc, hval, run_eq, hadd]
    exact Mem.write_in _ _ _ j hj (by omega)
  have hN := num_of_getElem hbytes
  rw [bytesOf_length] at hN
  obtain ⟨op, k1, k2⟩ := calc_table ht hc
  dsimp only
  rw [← k1]
  rcases k2 with ⟨w, e1, e2, rfl, e3, e4⟩ | ⟨fld, lsb, len, ty, e1, e2, e3, rfl, e4, e5⟩ |
    ⟨lsb, e1, e2, rfl, e3, e4⟩ | ⟨lsb, e1, e2, rfl, e3, e4⟩
  · refine ⟨?_, fun hn => by rw [e1] at hn; cases hn⟩
    intro w' hw'
    rw [e1] at hw'
    cases hw'
    dsimp only [Act.width, bytesOf, relocData] at hN
    rw [show 8 * w / 8 = w by omega, leNat_leBytes] at hN
    exact hN
  · refine ⟨fun w' hw' => (by rw [e4] at hw'; cases hw'), fun _ w hw hsen => ?_⟩
    have hword : word m place = w := word_num hw fun j hj => by rw [h3 j hj, hadd]
    rw [hword] at hN
    dsimp only [Act.width, bytesOf] at hN
    rw [leNat_leBytes4] at hN
    refine ⟨_, hN, ⟨?_, fun _ q => (by rw [e5] at q; cases q)⟩⟩
    intro fld' lsb' n' q
    rw [e1] at q
    cases q
    exact relocImm_updated e2 op place val lsb len e3 w hsen.1
  · refine ⟨fun w' hw' => (by rw [e3] at hw'; cases hw'), fun _ w hw hsen => ?_⟩
    have hword : word m place = w := word_num hw fun j hj => by rw [h3 j hj, hadd]
    rw [hword] at hN
    dsimp only [Act.width, bytesOf] at hN
    rw [leNat_leBytes4] at hN
    refine ⟨_, hN, ⟨?_, fun _ q => (by rw [e4] at q; cases q)⟩⟩
    intro fld' lsb' n' q
    rw [e1] at q
    cases q
    exact relocMovw_updated op place val lsb e2 w hsen.1
  · refine ⟨fun w' hw' => (by rw [e3] at hw'; cases hw'), fun _ w hw hsen => ?_⟩
    have hword : word m place = w := word_num hw fun j hj => by rw [h3 j hj, hadd]
    rw [hword] at hN
    dsimp only [Act.width, bytesOf] at hN
    rw [leNat_leBytes4] at hN
    refine ⟨_, hN, ⟨fun _ _ _ q => (by rw [e4] at q; cases q), ?_⟩⟩
    intro lsb' q
    rw [e1] at q
    cases q
    exact relocMovw_nz op place val lsb e2 w (hsen.2 (by rw [e1]; exact fun q => by cases q))
end

end Ulp.LoadBytes
