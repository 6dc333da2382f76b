/-
C57 and C58 on aarch64: the instructions of a loaded patch file, and what they do in
the target.
-/
import Verif.Proof.LoadA64
import Verif.Props.LoadPatch
namespace Ulp.LoadBytes
open Load PatchFile A64Insn A64Reloc

section
variable {f : List Byte} {secs : List Sec} {o : Nat} {strs : Sec} {si : Nat} {st str : Sec}
  {syms : List SymEntry} {rels : Nat → List RelEntry} {src dst : List Byte}

/-- C57, aarch64: every kind of relocation.  In the image of a file that was loaded, the
field of every entry has the value of its calculation, all other bits of the
instruction are as in the file.  Partial: the place `P` that the calculation uses is the
address of the field in the tool, `hdr`, and not in the target (see C15). -/
theorem C57_a64_insns_partial (l : Laid f secs o strs) (hr : Readable f secs) (hm : Meta f secs src dst)
    (hS : Symbols f secs si st str syms) (hR : Relocs Psabi.a64Width f secs syms.length rels) (E : Env)
    (junk : Bool) (L : Loaded) (hL : load (a64 junk) E f = some (.ok L))
    (i k : Nat) (t : Sec) (r : RelEntry) (hrel : Reloc secs rels i k t r) :
    ∃ s S, syms[r.sym]? = some s ∧ SymAddr secs E.th E.find r.sym s S ∧
      ∀ c, Psabi.a64Calc r.type = some c →
        let X := c.val (S + BitVec.ofNat 64 r.addend) (E.hdr + BitVec.ofNat 64 (t.offset + r.offset))
        (∀ w, Psabi.a64DataWidth r.type = some w →
          Num L.img (t.offset + r.offset) w (X.toNat % 256 ^ w)) ∧
        (Psabi.a64DataWidth r.type = none → ∀ w : BitVec 32, Num f (t.offset + r.offset) 4 w.toNat →
          Psabi.Sensible r.type w →
          ∃ w' : BitVec 32, Num L.img (t.offset + r.offset) 4 w'.toNat ∧ Psabi.Relocated r.type X w w') := by
  have hR' := relocs_mono (a64_width_le junk) hR
  obtain ⟨res, h1, h2, _⟩ := load_spec (a64_lawful junk) l hr hm hS hR' E
  rw [hL] at h1
  cases h1
  have hlt := hR.syms i k t r hrel
  have hs : syms[r.sym]? = some syms[r.sym] := List.getElem?_eq_getElem hlt
  refine ⟨_, _, hs, newVal_addr hS hs, fun c hc => ?_⟩
  exact ((h2 L rfl).fields i k t r hrel).a64_word hs hc

/-- With the image at the same address in the tool and in the target, every field is
what the linker would have made of it. -/
theorem C57_a64_same_partial (l : Laid f secs o strs) (hr : Readable f secs) (hm : Meta f secs src dst)
    (hS : Symbols f secs si st str syms) (hR : Relocs Psabi.a64Width f secs syms.length rels) (E : Env)
    (junk : Bool) (L : Loaded) (hL : load (a64 junk) E f = some (.ok L)) (hsame : E.hdr = E.th)
    (i k : Nat) (t : Sec) (r : RelEntry) (hrel : Reloc secs rels i k t r) :
    ∃ s S, syms[r.sym]? = some s ∧ SymAddr secs E.th E.find r.sym s S ∧
      ∀ c, Psabi.a64Calc r.type = some c →
        let X := c.val (S + BitVec.ofNat 64 r.addend) (E.th + BitVec.ofNat 64 (t.offset + r.offset))
        (∀ w, Psabi.a64DataWidth r.type = some w →
          Num L.img (t.offset + r.offset) w (X.toNat % 256 ^ w)) ∧
        (Psabi.a64DataWidth r.type = none → ∀ w : BitVec 32, Num f (t.offset + r.offset) 4 w.toNat →
          Psabi.Sensible r.type w →
          ∃ w' : BitVec 32, Num L.img (t.offset + r.offset) 4 w'.toNat ∧ Psabi.Relocated r.type X w w') := by
  have := C57_a64_insns_partial l hr hm hS hR E junk L hL i k t r hrel
  rw [hsame] at this
  exact this

/-- Violation of C57, aarch64: with the image at different addresses, no field of type
PREL64 has the value the ABI gives it. -/
theorem C57_a64_prel_wrong (l : Laid f secs o strs) (hr : Readable f secs) (hm : Meta f secs src dst)
    (hS : Symbols f secs si st str syms) (hR : Relocs Psabi.a64Width f secs syms.length rels) (E : Env)
    (junk : Bool) (L : Loaded) (hL : load (a64 junk) E f = some (.ok L)) (hdiff : E.hdr ≠ E.th)
    (i k : Nat) (t : Sec) (r : RelEntry) (hrel : Reloc secs rels i k t r) (ht : r.type = 260)
    (s : SymEntry) (hs : syms[r.sym]? = some s) (S : BitVec 64) (ha : SymAddr secs E.th E.find r.sym s S) :
    ¬ Num L.img (t.offset + r.offset) 8
      (S + BitVec.ofNat 64 r.addend - (E.th + BitVec.ofNat 64 (t.offset + r.offset))).toNat := by
  obtain ⟨s', S', h1, h2, h3⟩ := C57_a64_insns_partial l hr hm hS hR E junk L hL i k t r hrel
  rw [hs] at h1
  cases h1
  cases SymAddr.unique ha h2
  have h4 := (h3 .sap (by rw [ht]; rfl)).1 8 (by rw [ht]; rfl)
  intro h5
  have h6 := h4.unique h5
  rw [Nat.mod_eq_of_lt (BitVec.isLt _)] at h6
  have h7 := BitVec.eq_of_toNat_eq h6
  dsimp only [Psabi.Calc.val] at h7
  apply hdiff
  generalize S + BitVec.ofNat 64 r.addend = x at h7
  generalize BitVec.ofNat 64 (t.offset + r.offset) = y at h7
  revert h7
  generalize E.hdr = a
  generalize E.th = b
  intro h7
  grind

/-- C57, aarch64.  A patch file with everything in place is loaded: as on x86_64, every
relocation is of a known type and its value (for the place in the tool) is in the
range the loader documents. -/
theorem C57_a64_accepted (l : Laid f secs o strs) (hr : Readable f secs) (hm : Meta f secs src dst)
    (hS : Symbols f secs si st str syms) (hR : Relocs Psabi.a64Width f secs syms.length rels) (E : Env)
    (junk : Bool) (hc : Complete f secs) (hb : ∀ t, BuildIdText f secs t → t ∉ E.bids)
    (hu : ∀ (j : Nat) (s : Sec), 0 < j → secs[j]? = some s → ¬ Uninit s)
    (hs : ∀ (k : Nat) (s : SymEntry), 0 < k → syms[k]? = some s → Resolvable E.find s)
    (hn : ¬ RelOnly secs)
    (hrel : ∀ i k t r, Reloc secs rels i k t r → ∀ s S, syms[r.sym]? = some s →
      SymAddr secs E.th E.find r.sym s S →
      ∃ c, Psabi.a64Calc r.type = some c ∧ ∀ lo hi, limits r.type = some (lo, hi) →
        let X := c.val (S + BitVec.ofNat 64 r.addend) (E.hdr + BitVec.ofNat 64 (t.offset + r.offset))
        lo ≤ X.toInt ∧ X.toInt < hi)
    (hd : E.find dst ≠ none) (hsrc : ∃ s ∈ syms, s.name = src) :
    ∃ L, load (a64 junk) E f = some (.ok L) := by
  have hR' := relocs_mono (a64_width_le junk) hR
  obtain ⟨res, h1, h2, h3⟩ := load_spec (a64_lawful junk) l hr hm hS hR' E
  cases res with
  | ok L => exact ⟨L, h1⟩
  | error e =>
    exfalso
    rcases (h3 e rfl).2 with h | ⟨h, h'⟩ | ⟨h, h', h''⟩ | h | ⟨h, h', h''⟩ | ⟨p1, p2, p3, p4, p5⟩ | h | h
    · exact h hc
    · exact hb _ ((bidText_iff hr _).2 h) h'
    · exact hu _ _ h h' h''
    · rw [retStep_ok] at h
      · omega
      · intro s hm
        obtain ⟨k, hk⟩ := List.mem_iff_getElem?.1 hm
        rw [List.getElem?_drop] at hk
        exact hs (1 + k) s (by omega) hk
    · rename_i i k t r x
      obtain ⟨mst, m, s', r0, e1, e2, e3, rfl⟩ := h'
      have hlt := hR.syms i k t r h
      have hse : syms[r.sym]? = some syms[r.sym] := List.getElem?_eq_getElem hlt
      generalize syms[r.sym] = s at hse
      rw [newSyms_some hse] at e1
      cases e1
      obtain ⟨c, e4, e5⟩ := hrel i k t r h s _ hse (newVal_addr hS hse)
      apply h''
      obtain ⟨a, nc, ht⟩ := table_supported r.type ⟨c, e4⟩
      unfold a64
      dsimp only
      rw [ht]
      dsimp only
      rw [run_eq]
      dsimp only
      have hloc : A64Reloc.loc ⟨E.hdr, E.th, E.th + BitVec.ofNat 64 t.offset, [], []⟩
          ⟨BitVec.ofNat 64 r.offset, r.sym, r.type, BitVec.ofNat 64 r.addend⟩ =
          E.hdr + BitVec.ofNat 64 (t.offset + r.offset) := by
        have := loc_eq E.hdr E.th t.offset r.offset 0
        simp only [Nat.add_zero, BitVec.add_zero] at this
        exact this
      rw [hloc]
      have key : ovfOf a (E.hdr + BitVec.ofNat 64 (t.offset + r.offset))
          (BitVec.ofNat 64 (newVal secs E.th E.find r.sym s) + BitVec.ofNat 64 r.addend) = false ∨ nc = true := by
        cases nc with
        | true => exact .inr rfl
        | false =>
          refine .inl ?_
          rcases ovf_iff ht (E.hdr + BitVec.ofNat 64 (t.offset + r.offset))
            (BitVec.ofNat 64 (newVal secs E.th E.find r.sym s) + BitVec.ofNat 64 r.addend) with
            ⟨_, h0⟩ | ⟨k', lo, hi, hk', hlim, hiff⟩
          · exact h0
          · rw [e4] at hk'
            cases hk'
            exact hiff.2 (e5 lo hi hlim)
      rcases key with key | key
      · rw [key, Bool.and_false]; rfl
      · rw [key]
        exact if_neg fun q => Bool.noConfusion (Bool.and_eq_true_iff.1 (Bool.and_eq_true_iff.1 q).1).2
    · exact hn ⟨_, _, _, p1, p2, p3, p4, p5⟩
    · exact hd h
    · obtain ⟨s, hm, hn⟩ := hsrc
      exact h s hm hn

theorem imm26_field {w w' : BitVec 32} {v : BitVec 64} (h : A64.Field.imm26.Updated w w' v) :
    w'.extractLsb' 0 26 = v.setWidth 26 ∧ w'.extractLsb' 26 6 = w.extractLsb' 26 6 := by
  have hb : ∀ k : Nat, k < 26 → A64.Field.imm26.bits[k]? = some k := by
    intro k hk
    simp [A64.Field.bits, A64.bitsFrom, List.getElem?_range hk]
  constructor
  · apply BitVec.eq_of_getLsbD_eq
    intro k hk
    rw [BitVec.getLsbD_extractLsb', BitVec.getLsbD_setWidth, Nat.zero_add, h.1 k k (hb k hk)]
  · apply BitVec.eq_of_getLsbD_eq
    intro k hk
    rw [BitVec.getLsbD_extractLsb', BitVec.getLsbD_extractLsb']
    rw [h.2 (26 + k) (by omega) (by simp [A64.Field.bits, A64.bitsFrom])]

/-- C58, aarch64: where the branches of the new code go.  After a patch command that
succeeds, a processor at a `B` or `BL` of the new code, relocated for `S + A`, goes to
`S + A - (hdr - a)`: `hdr` is where the tool had the image and `a` where the target has
it. -/
theorem C58_a64_branch_destination (l : Laid f secs o strs) (hr : Readable f secs)
    (hm : Meta f secs src dst)
    (hS : Symbols f secs si st str syms) (hR : Relocs Psabi.a64Width f secs syms.length rels)
    (junk : Bool) {w w1 : Patch.World} {rd : Patch.Mapping → Patch.ReadRes}
    {hdr a : Addr} {find : List Byte → Option (BitVec 64)} {now : BitVec 64} {e : Patch.PatchEnv}
    (hrec : e.info0.orig.length = 16) (hmap : e.mmap = .created a)
    (hsep : ∀ t, find dst = some t → ∀ k j, k < f.length → j < 16 →
      a + BitVec.ofNat 64 k ≠ t + BitVec.ofNat 64 j)
    (h : patchFile (a64 junk) w rd hdr find now f e = some (w1, 0))
    {i k : Nat} {t : Sec} {r : RelEntry} (hrel : Reloc secs rels i k t r)
    (ht : r.type = 282 ∨ r.type = 283)
    {s : SymEntry} {S : BitVec 64} (hs : syms[r.sym]? = some s) (ha : SymAddr secs a find r.sym s S)
    {insn : BitVec 32} (hi : Num f (t.offset + r.offset) 4 insn.toNat)
    (hal : S + BitVec.ofNat 64 r.addend - (hdr + BitVec.ofNat 64 (t.offset + r.offset)) &&& 3 = 0)
    (h1 : -2^27 ≤ (S + BitVec.ofNat 64 r.addend - (hdr + BitVec.ofNat 64 (t.offset + r.offset))).toInt)
    (h2 : (S + BitVec.ofNat 64 r.addend - (hdr + BitVec.ofNat 64 (t.offset + r.offset))).toInt < 2^27)
    (cpu : A64.Cpu) (hpc : cpu.pc = a + BitVec.ofNat 64 (t.offset + r.offset)) (hmem : cpu.mem = w1.mem) :
    (insn.extractLsb' 26 6 = 0b000101 →
      ∃ c', A64.step cpu = some c' ∧ c'.pc = S + BitVec.ofNat 64 r.addend - (hdr - a) ∧ c'.x = cpu.x ∧
        c'.mem = cpu.mem) ∧
    (insn.extractLsb' 26 6 = 0b100101 →
      ∃ c', A64.step cpu = some c' ∧ c'.pc = S + BitVec.ofNat 64 r.addend - (hdr - a) ∧
        c'.x 30 = cpu.pc + 4 ∧ c'.mem = cpu.mem) := by
  obtain ⟨ses, L, g1, g2, g3, g4⟩ := patchFile_mem hrec hmap h
  have hR' := relocs_mono (a64_width_le junk) hR
  obtain ⟨res, j1, j2, _⟩ := load_spec (a64_lawful junk) l hr hm hS hR' (sessionEnv ses hdr a find now)
  rw [g2] at j1
  cases j1
  have hG := j2 L rfl
  have hlen := hG.keep.len
  obtain ⟨inf, t0, k0, s0, r0, k1, k2, k3, k4, k5, k6, k7⟩ := hG.record
  have hin : inf.offset + 64 ≤ f.length := by
    obtain ⟨e1, e2⟩ := hm.info inf k1
    obtain ⟨i, _, hi, _⟩ := k1
    have := l.inside i inf hi (by omega)
    omega
  have hsm := l.describes.small
  have ht0 : L.record.target = t0 := by rw [k5]; rfl
  have ho : L.inf.ulpInfo.toNat = inf.offset := by rw [k6, ofNat_toNat (by omega)]
  rw [ht0, ho] at g4
  have hP : Patched L.img inf.offset a t0 w.mem w1.mem := by
    rw [g4]
    apply patched_of
    · omega
    · omega
    · rw [hlen]; exact hsep t0 k2
  -- the word in the image
  obtain ⟨s', S', q1, q2, q3⟩ :=
    C57_a64_insns_partial l hr hm hS hR (sessionEnv ses hdr a find now) junk L g2 i k t r hrel
  rw [hs] at q1
  cases q1
  cases SymAddr.unique ha q2
  have hcalc : Psabi.a64Calc r.type = some .sap := by rcases ht with e | e <;> rw [e] <;> rfl
  have hdw : Psabi.a64DataWidth r.type = none := by rcases ht with e | e <;> rw [e] <;> rfl
  have hmz : Psabi.a64Movnz r.type = none := by rcases ht with e | e <;> rw [e] <;> rfl
  have hin26 : Psabi.a64Insn r.type = some (.imm26, 2, 26) := by rcases ht with e | e <;> rw [e] <;> rfl
  have hwid : Psabi.a64Width r.type = 4 := by rcases ht with e | e <;> rw [e] <;> rfl
  have key : insn ≠ 0xd4202000 → ∃ w' : BitVec 32, A64.fetch w1.mem cpu.pc = w' ∧
      w'.extractLsb' 0 26 = ((S + BitVec.ofNat 64 r.addend -
        (hdr + BitVec.ofNat 64 (t.offset + r.offset))).sshiftRight 2).setWidth 26 ∧
      w'.extractLsb' 26 6 = insn.extractLsb' 26 6 := by
    intro hne
    obtain ⟨w', p1, p2⟩ := (q3 .sap hcalc).2 hdw insn hi ⟨hne, fun q => absurd hmz q⟩
    refine ⟨w', ?_, ?_⟩
    · rw [hpc]
      refine word_num p1 fun j hj => ?_
      have hfit := hR.fits i k t r hrel
      have htg := hR.target i k t r hrel
      have hlt : t.offset + r.offset + j < L.img.length := by
        have := p1.le (by omega)
        omega
      rw [List.getElem?_eq_getElem hlt]
      congr 1
      rw [BitVec.add_assoc, ← BitVec.ofNat_add]
      refine (hP.image _ _ (List.getElem?_eq_getElem hlt) ?_).symm
      rintro ⟨b1, b2⟩
      obtain ⟨rs, c1, c2, c3, c4, c5, c6⟩ := hrel
      obtain ⟨e1, e2⟩ := hm.info inf k1
      have k1' := k1
      obtain ⟨ii, _, hii, hin', hif'⟩ := k1'
      have heq := l.apart _ _ t inf (t.offset + r.offset + j) c3 hii
        ⟨htg.2.2.2.1, by omega, by omega⟩ ⟨by omega, by omega, by omega⟩
      rw [heq, hii] at c3
      cases c3
      exact c5 k1
    · obtain ⟨u1, u2⟩ := imm26_field (p2.field _ _ _ hin26)
      refine ⟨u1.trans ?_, u2⟩
      apply BitVec.eq_of_getLsbD_eq
      intro n hn
      have n1 : n < 64 := by omega
      have n2 : 2 + n < 64 := by omega
      have n3 : ¬ 64 ≤ n := by omega
      rw [BitVec.getLsbD_setWidth, BitVec.getLsbD_setWidth, BitVec.getLsbD_setWidth,
        BitVec.getLsbD_extractLsb', BitVec.getLsbD_sshiftRight, if_pos n2]
      simp only [n1, n3, hn, decide_true, decide_false, Bool.true_and, Bool.not_false]
      rfl
  have hdest : cpu.pc + (((S + BitVec.ofNat 64 r.addend - (hdr + BitVec.ofNat 64 (t.offset + r.offset))).sshiftRight 2).setWidth
      26 ++ (0 : BitVec 2) : BitVec 28).signExtend 64 = S + BitVec.ofNat 64 r.addend - (hdr - a) := by
    rw [scaled26 _ hal h1 h2, hpc]
    generalize S + BitVec.ofNat 64 r.addend = x
    generalize BitVec.ofNat 64 (t.offset + r.offset) = y
    grind
  constructor
  · intro hcls
    obtain ⟨w', p1, p2, p3⟩ := key (A64.ne_of_ext hcls _ (by decide))
    have hdec := A64.decode_b (p3.trans hcls)
    rw [p2] at hdec
    refine ⟨⟨S + BitVec.ofNat 64 r.addend - (hdr - a), cpu.x, cpu.mem⟩, ?_, rfl, rfl, rfl⟩
    unfold A64.step
    rw [hmem, p1, hdec]
    show A64.exec cpu (.b _) = _
    unfold A64.exec
    dsimp only
    rw [hdest, hmem]
  · intro hcls
    obtain ⟨w', p1, p2, p3⟩ := key (A64.ne_of_ext hcls _ (by decide))
    have hdec := A64.decode_bl (p3.trans hcls)
    rw [p2] at hdec
    refine ⟨{ cpu.set 30 (cpu.pc + 4) with pc := S + BitVec.ofNat 64 r.addend - (hdr - a) }, ?_, rfl,
      (if_pos (by decide) : (if (30 : Fin 31).val = (30 : BitVec 5).toNat then cpu.pc + 4 else cpu.x 30) = _), rfl⟩
    unfold A64.step
    rw [hmem, p1, hdec]
    show A64.exec cpu (.bl _) = _
    unfold A64.exec
    dsimp only
    rw [hdest]

/-- C58, aarch64.  The calls of the new code reach what they are for.  Partial: only with
the image at the same address in the tool and in the target. -/
theorem C58_a64_call_partial (l : Laid f secs o strs) (hr : Readable f secs)
    (hm : Meta f secs src dst)
    (hS : Symbols f secs si st str syms) (hR : Relocs Psabi.a64Width f secs syms.length rels)
    (junk : Bool) {w w1 : Patch.World} {rd : Patch.Mapping → Patch.ReadRes}
    {a : Addr} {find : List Byte → Option (BitVec 64)} {now : BitVec 64} {e : Patch.PatchEnv}
    (hrec : e.info0.orig.length = 16) (hmap : e.mmap = .created a)
    (hsep : ∀ t, find dst = some t → ∀ k j, k < f.length → j < 16 →
      a + BitVec.ofNat 64 k ≠ t + BitVec.ofNat 64 j)
    (h : patchFile (a64 junk) w rd a find now f e = some (w1, 0))
    {i k : Nat} {t : Sec} {r : RelEntry} (hrel : Reloc secs rels i k t r) (ht : r.type = 283)
    {s : SymEntry} {S : BitVec 64} (hs : syms[r.sym]? = some s) (ha : SymAddr secs a find r.sym s S)
    {insn : BitVec 32} (hi : Num f (t.offset + r.offset) 4 insn.toNat)
    (hbl : insn.extractLsb' 26 6 = 0b100101)
    (cpu : A64.Cpu) (hpc : cpu.pc = a + BitVec.ofNat 64 (t.offset + r.offset)) (hmem : cpu.mem = w1.mem)
    (hal : S + BitVec.ofNat 64 r.addend - cpu.pc &&& 3 = 0)
    (h1 : -2^27 ≤ (S + BitVec.ofNat 64 r.addend - cpu.pc).toInt)
    (h2 : (S + BitVec.ofNat 64 r.addend - cpu.pc).toInt < 2^27) :
    ∃ c', A64.step cpu = some c' ∧ c'.pc = S + BitVec.ofNat 64 r.addend ∧ c'.x 30 = cpu.pc + 4 ∧
      c'.mem = cpu.mem := by
  rw [hpc] at hal h1 h2
  obtain ⟨c', q1, q2, q3⟩ := (C58_a64_branch_destination l hr hm hS hR junk hrec hmap hsep h hrel (.inr ht) hs ha hi
    hal h1 h2 cpu hpc hmem).2 hbl
  refine ⟨c', q1, ?_, q3⟩
  rw [q2, BitVec.sub_self, BitVec.sub_zero]

/-- Violation of C58, aarch64: with the image at different addresses in the tool and in
the target, a call of the new code goes elsewhere. -/
theorem C58_a64_call_wrong (l : Laid f secs o strs) (hr : Readable f secs)
    (hm : Meta f secs src dst)
    (hS : Symbols f secs si st str syms) (hR : Relocs Psabi.a64Width f secs syms.length rels)
    (junk : Bool) {w w1 : Patch.World} {rd : Patch.Mapping → Patch.ReadRes}
    {hdr a : Addr} {find : List Byte → Option (BitVec 64)} {now : BitVec 64} {e : Patch.PatchEnv}
    (hrec : e.info0.orig.length = 16) (hmap : e.mmap = .created a)
    (hsep : ∀ t, find dst = some t → ∀ k j, k < f.length → j < 16 →
      a + BitVec.ofNat 64 k ≠ t + BitVec.ofNat 64 j)
    (h : patchFile (a64 junk) w rd hdr find now f e = some (w1, 0)) (hdiff : hdr ≠ a)
    {i k : Nat} {t : Sec} {r : RelEntry} (hrel : Reloc secs rels i k t r) (ht : r.type = 283)
    {s : SymEntry} {S : BitVec 64} (hs : syms[r.sym]? = some s) (ha : SymAddr secs a find r.sym s S)
    {insn : BitVec 32} (hi : Num f (t.offset + r.offset) 4 insn.toNat)
    (hbl : insn.extractLsb' 26 6 = 0b100101)
    (hal : S + BitVec.ofNat 64 r.addend - (hdr + BitVec.ofNat 64 (t.offset + r.offset)) &&& 3 = 0)
    (h1 : -2^27 ≤ (S + BitVec.ofNat 64 r.addend - (hdr + BitVec.ofNat 64 (t.offset + r.offset))).toInt)
    (h2 : (S + BitVec.ofNat 64 r.addend - (hdr + BitVec.ofNat 64 (t.offset + r.offset))).toInt < 2^27)
    (cpu : A64.Cpu) (hpc : cpu.pc = a + BitVec.ofNat 64 (t.offset + r.offset)) (hmem : cpu.mem = w1.mem) :
    ∃ c', A64.step cpu = some c' ∧ c'.pc ≠ S + BitVec.ofNat 64 r.addend := by
  obtain ⟨c', q1, q2, q3⟩ := (C58_a64_branch_destination l hr hm hS hR junk hrec hmap hsep h hrel (.inr ht) hs ha hi
    hal h1 h2 cpu hpc hmem).2 hbl
  refine ⟨c', q1, ?_⟩
  rw [q2]
  apply sub_ne
  intro h0
  apply hdiff
  have := congrArg (· + a) h0
  simpa [BitVec.sub_add_cancel] using this
end

end Ulp.LoadBytes
