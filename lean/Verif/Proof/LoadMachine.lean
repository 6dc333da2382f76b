import Verif.Proof.LoadAll
import Verif.Props.X86Reloc
import Verif.Props.A64Reloc
namespace Ulp.LoadBytes
open Load PatchFile

theorem num_of_getElem {g : List Byte} {p : Nat} {bs : List Byte}
    (h : ∀ j (hj : j < bs.length), g[p + j]? = some bs[j]) : Num g p bs.length (leNat bs) := by
  refine ⟨bs, rfl, ?_, rfl⟩
  rw [List.prefix_iff_eq_take]
  apply List.ext_getElem?
  intro i
  rw [List.getElem?_take]
  split
  · rename_i hi
    rw [List.getElem?_drop, h i hi, List.getElem?_eq_getElem hi]
  · rename_i hi
    exact List.getElem?_eq_none (by omega)

theorem prefix_getElem {g : List Byte} {p : Nat} {bs : List Byte} (h : bs <+: g.drop p) {j : Nat}
    (hj : j < bs.length) : g[p + j]? = some bs[j] := by
  rw [← List.getElem?_drop, ← List.getElem?_eq_getElem hj]
  obtain ⟨t, ht⟩ := h
  rw [← ht, List.getElem?_append_left hj]

theorem leNat_inj : ∀ {a b : List Byte}, a.length = b.length → leNat a = leNat b → a = b := by
  intro a
  induction a with
  | nil => intro b h _; cases b with
    | nil => rfl
    | cons => simp at h
  | cons x a ih =>
    intro b h1 h2
    cases b with
    | nil => simp at h1
    | cons y b =>
      simp only [leNat] at h2
      have hx := x.isLt
      have hy := y.isLt
      have e1 : x = y := BitVec.eq_of_toNat_eq (by omega)
      have e2 : a = b := ih (by simpa using h1) (by omega)
      rw [e1, e2]

/-- Equal numbers, equal bytes. -/
theorem num_bytes {f g : List Byte} {p n v : Nat} (h1 : Num f p n v) (h2 : Num g p n v) {k : Nat}
    (hk : p ≤ k) (hk' : k < p + n) : g[k]? = f[k]? := by
  obtain ⟨a, ha, hpa, hva⟩ := h1
  obtain ⟨b, hb, hpb, hvb⟩ := h2
  have : a = b := leNat_inj (by omega) (by omega)
  subst this
  rw [show k = p + (k - p) by omega, prefix_getElem hpa (j := k - p) (by omega),
    prefix_getElem hpb (j := k - p) (by omega)]

/-! ### The record -/

/-- The ten numbers of a record. -/
structure RecNums (g : List Byte) (p : Nat) (r : ULPInfo) : Prop where
  id : Num g p 4 r.ulpId.toNat
  target : Num g (p + 4) 8 r.target.toNat
  patch : Num g (p + 12) 8 r.patch.toNat
  virtual : Num g (p + 20) 8 r.virtual.toNat
  orig0 : Num g (p + 28) 8 r.orig0.toNat
  orig1 : Num g (p + 36) 8 r.orig1.toNat
  time : Num g (p + 44) 8 r.time.toNat
  flags : Num g (p + 52) 4 r.flags.toNat
  version : Num g (p + 56) 4 r.version.toNat
  pad : Num g (p + 60) 4 r.pad.toNat

theorem num_part {g : List Byte} {p : Nat} (a b c : List Byte) (h : a ++ b ++ c <+: g.drop p) :
    Num g (p + a.length) b.length (leNat b) := by
  refine ⟨b, rfl, ?_, rfl⟩
  obtain ⟨t, ht⟩ := h
  refine ⟨c ++ t, ?_⟩
  rw [← List.drop_drop, ← ht, List.append_assoc, List.append_assoc, List.drop_left]

theorem leNat_leBytes4 (v : BitVec 32) : leNat (leBytes 4 (v.setWidth 64)) = v.toNat := by
  rw [leNat_leBytes, BitVec.toNat_setWidth]
  have := v.isLt
  rw [Nat.mod_eq_of_lt (by omega), Nat.mod_eq_of_lt (by omega)]

theorem leNat_leBytes8 (v : BitVec 64) : leNat (leBytes 8 v) = v.toNat := by
  rw [leNat_leBytes, Nat.mod_eq_of_lt v.isLt]

theorem recNums {g : List Byte} {p : Nat} {r : ULPInfo} (h : r.bytes <+: g.drop p) : RecNums g p r := by
  have n4 : ∀ (a c : List Byte) (v : BitVec 32) q, a ++ leBytes 4 (v.setWidth 64) ++ c = r.bytes →
      a.length = q → Num g (p + q) 4 v.toNat := by
    rintro a c v q e rfl
    have := num_part a (leBytes 4 (v.setWidth 64)) c (e ▸ h)
    rw [leNat_leBytes4, leBytes_length] at this
    exact this
  have n8 : ∀ (a c : List Byte) (v : BitVec 64) q, a ++ leBytes 8 v ++ c = r.bytes →
      a.length = q → Num g (p + q) 8 v.toNat := by
    rintro a c v q e rfl
    have := num_part a (leBytes 8 v) c (e ▸ h)
    rw [leNat_leBytes8, leBytes_length] at this
    exact this
  unfold ULPInfo.bytes at n4 n8
  exact {
    id := n4 [] _ _ 0 (by simp only [List.nil_append, List.append_assoc]; rfl) rfl
    target := n8 (leBytes 4 (r.ulpId.setWidth 64)) _ _ 4 (by simp only [List.append_assoc]; rfl) (by simp)
    patch := n8 (leBytes 4 (r.ulpId.setWidth 64) ++ leBytes 8 r.target) _ _ 12
      (by simp only [List.append_assoc]; rfl) (by simp)
    virtual := n8 (leBytes 4 (r.ulpId.setWidth 64) ++ leBytes 8 r.target ++ leBytes 8 r.patch) _ _ 20
      (by simp only [List.append_assoc]; rfl) (by simp)
    orig0 := n8 (leBytes 4 (r.ulpId.setWidth 64) ++ leBytes 8 r.target ++ leBytes 8 r.patch
      ++ leBytes 8 r.virtual) _ _ 28 (by simp only [List.append_assoc]; rfl) (by simp)
    orig1 := n8 (leBytes 4 (r.ulpId.setWidth 64) ++ leBytes 8 r.target ++ leBytes 8 r.patch
      ++ leBytes 8 r.virtual ++ leBytes 8 r.orig0) _ _ 36 (by simp only [List.append_assoc]; rfl) (by simp)
    time := n8 (leBytes 4 (r.ulpId.setWidth 64) ++ leBytes 8 r.target ++ leBytes 8 r.patch
      ++ leBytes 8 r.virtual ++ leBytes 8 r.orig0 ++ leBytes 8 r.orig1) _ _ 44
      (by simp only [List.append_assoc]; rfl) (by simp)
    flags := n4 (leBytes 4 (r.ulpId.setWidth 64) ++ leBytes 8 r.target ++ leBytes 8 r.patch
      ++ leBytes 8 r.virtual ++ leBytes 8 r.orig0 ++ leBytes 8 r.orig1 ++ leBytes 8 r.time) _ _ 52
      (by simp only [List.append_assoc]; rfl) (by simp)
    version := n4 (leBytes 4 (r.ulpId.setWidth 64) ++ leBytes 8 r.target ++ leBytes 8 r.patch
      ++ leBytes 8 r.virtual ++ leBytes 8 r.orig0 ++ leBytes 8 r.orig1 ++ leBytes 8 r.time
      ++ leBytes 4 (r.flags.setWidth 64)) _ _ 56
      (by simp only [List.append_assoc]; rfl) (by simp)
    pad := n4 (leBytes 4 (r.ulpId.setWidth 64) ++ leBytes 8 r.target ++ leBytes 8 r.patch
      ++ leBytes 8 r.virtual ++ leBytes 8 r.orig0 ++ leBytes 8 r.orig1 ++ leBytes 8 r.time
      ++ leBytes 4 (r.flags.setWidth 64) ++ leBytes 4 (r.version.setWidth 64)) [] _ 60
      (by simp only [List.append_assoc, List.append_nil]) (by simp) }

theorem readInfo_nums {f : List Byte} (hs : f.length < 2 ^ 64) {p : Nat} (hp : p + 64 ≤ f.length)
    {r : ULPInfo} (h : readInfo f (BitVec.ofNat 64 p) = some r) : RecNums f p r := by
  have e : ∀ k : Nat, BitVec.ofNat 64 p + BitVec.ofNat 64 k = BitVec.ofNat 64 (p + k) := by
    intro k; rw [BitVec.ofNat_add]
  have key : ∀ k n, 0 < n → k + n ≤ 64 → ∃ v, Num f (p + k) n v ∧ v < 256 ^ n ∧
      rd f (BitVec.ofNat 64 p + BitVec.ofNat 64 k) n = some v := by
    intro k n hn hk
    have hN := Num.of_le (f := f) (off := p + k) (n := n) (by omega)
    refine ⟨_, hN, ?_, rd_num' hN hn hs (e k)⟩
    have := leNat_lt ((f.drop (p + k)).take n)
    rw [List.length_take, List.length_drop, Nat.min_eq_left (by omega)] at this
    exact this
  obtain ⟨a, ha, la, ra⟩ := key 0 4 (by omega) (by omega)
  obtain ⟨b, hb, lb, rb⟩ := key 4 8 (by omega) (by omega)
  obtain ⟨c, hc, lc, rc⟩ := key 12 8 (by omega) (by omega)
  obtain ⟨d, hd, ld, rd'⟩ := key 20 8 (by omega) (by omega)
  obtain ⟨e', he, le, re⟩ := key 28 8 (by omega) (by omega)
  obtain ⟨f', hf, lf, rf⟩ := key 36 8 (by omega) (by omega)
  obtain ⟨g', hg, lg, rg⟩ := key 44 8 (by omega) (by omega)
  obtain ⟨h', hh, lh, rh⟩ := key 52 4 (by omega) (by omega)
  obtain ⟨i, hi, li, ri⟩ := key 56 4 (by omega) (by omega)
  obtain ⟨j, hj, lj, rj⟩ := key 60 4 (by omega) (by omega)
  rw [show BitVec.ofNat 64 p + BitVec.ofNat 64 0 = BitVec.ofNat 64 p from e 0] at ra
  unfold readInfo at h
  rw [ra, show rd f (BitVec.ofNat 64 p + 4) 8 = _ from rb, show rd f (BitVec.ofNat 64 p + 12) 8 = _ from rc,
      show rd f (BitVec.ofNat 64 p + 20) 8 = _ from rd', show rd f (BitVec.ofNat 64 p + 28) 8 = _ from re,
      show rd f (BitVec.ofNat 64 p + 36) 8 = _ from rf, show rd f (BitVec.ofNat 64 p + 44) 8 = _ from rg,
      show rd f (BitVec.ofNat 64 p + 52) 4 = _ from rh, show rd f (BitVec.ofNat 64 p + 56) 4 = _ from ri,
      show rd f (BitVec.ofNat 64 p + 60) 4 = _ from rj] at h
  cases h
  have t8 : ∀ v, v < 256 ^ 8 → (BitVec.ofNat 64 v).toNat = v := fun v hv => ofNat_toNat (by omega)
  have t4 : ∀ v, v < 256 ^ 4 → (BitVec.ofNat 32 v).toNat = v := fun v hv => by
    rw [BitVec.toNat_ofNat, Nat.mod_eq_of_lt (by omega)]
  exact ⟨by rw [t4 a la]; exact ha, by rw [t8 b lb]; exact hb, by rw [t8 c lc]; exact hc,
    by rw [t8 d ld]; exact hd, by rw [t8 e' le]; exact he, by rw [t8 f' lf]; exact hf,
    by rw [t8 g' lg]; exact hg, by rw [t4 h' lh]; exact hh, by rw [t4 i li]; exact hi,
    by rw [t4 j lj]; exact hj⟩

/-! ### The Build ID as text -/

theorem HexDigits.unique {b h1 l1 h2 l2 : Byte} (a : HexDigits b h1 l1) (c : HexDigits b h2 l2) :
    h1 = h2 ∧ l1 = l2 := by
  obtain ⟨x, y, hx, hy, e, p, q⟩ := a
  obtain ⟨x', y', hx', hy', e', p', q'⟩ := c
  cases show x = x' by omega
  cases show y = y' by omega
  rw [p] at p'; rw [q] at q'
  cases p'; cases q'; exact ⟨rfl, rfl⟩

theorem bidText_iff {f : List Byte} {secs : List Sec} (hr : Readable f secs) (b : List Byte) :
    BuildIdText f secs b ↔ BidText f secs b := by
  have key : ∀ s namesz descsz, Has secs ".note.gnu.build-id" s → Num f s.offset 4 namesz →
      Num f (s.offset + 4) 4 descsz →
      (((f.drop (s.offset + 12 + namesz)).take descsz).flatMap hex2).length = 2 * descsz ∧
      ∀ i, i < descsz → ∃ b hi lo, f[s.offset + 12 + namesz + i]? = some b ∧
        (((f.drop (s.offset + 12 + namesz)).take descsz).flatMap hex2)[2 * i]? = some hi ∧
        (((f.drop (s.offset + 12 + namesz)).take descsz).flatMap hex2)[2 * i + 1]? = some lo ∧
        HexDigits b hi lo := by
    intro s n d h1 h2 h3
    obtain ⟨n', d', _, e2, e3, _, _, hle⟩ := hr.note s h1
    cases h2.unique e2
    cases h3.unique e3
    have hlen : ((f.drop (s.offset + 12 + n)).take d).length = d := by
      rw [List.length_take, List.length_drop]; omega
    obtain ⟨h4, _, h5⟩ := C23_text_digits ((f.drop (s.offset + 12 + n)).take d) (2 * d + 1) _
      (by unfold elfStrbuildid; rw [hlen, if_neg (by omega)])
    rw [hlen] at h4
    refine ⟨h4, ?_⟩
    intro i hi
    have hb : f[s.offset + 12 + n + i]? = some f[s.offset + 12 + n + i] :=
      List.getElem?_eq_getElem (by omega)
    obtain ⟨hi', lo, h6, h7, h8⟩ := h5 i f[s.offset + 12 + n + i] (by
      rw [List.getElem?_take_of_lt hi, List.getElem?_drop, hb])
    exact ⟨_, hi', lo, hb, h6, h7, h8⟩
  constructor
  · rintro ⟨s, n, d, h1, h2, h3, h4, h5⟩
    refine ⟨s, n, d, h1, h2, h3, ?_⟩
    obtain ⟨k1, k2⟩ := key s n d h1 h2 h3
    apply List.ext_getElem?
    intro j
    by_cases hj : j < 2 * d
    · obtain ⟨b1, x1, y1, e1, e2, e3, e4⟩ := h5 (j / 2) (by omega)
      obtain ⟨b2, x2, y2, g1, g2, g3, g4⟩ := k2 (j / 2) (by omega)
      rw [e1] at g1; cases g1
      obtain ⟨rfl, rfl⟩ := HexDigits.unique e4 g4
      rcases Nat.mod_two_eq_zero_or_one j with hm | hm
      · rw [show j = 2 * (j / 2) by omega, e2, g2]
      · rw [show j = 2 * (j / 2) + 1 by omega, e3, g3]
    · rw [List.getElem?_eq_none (by omega), List.getElem?_eq_none (by omega)]
  · rintro ⟨s, n, d, h1, h2, h3, rfl⟩
    exact ⟨s, n, d, h1, h2, h3, key s n d h1 h2 h3⟩

/-! ### Symbols -/

theorem retStep_ok {find : List Byte → Option (BitVec 64)} :
    ∀ {l : List SymEntry}, (∀ s ∈ l, Resolvable find s) → l.foldl (retStep find) 0 = 0 := by
  intro l
  induction l with
  | nil => intro _; rfl
  | cons s l ih =>
    intro h
    rw [List.foldl_cons]
    obtain ⟨h1, h2⟩ := h s (List.mem_cons_self ..)
    have : retStep find 0 s = 0 := by
      unfold retStep resolveSymbol
      by_cases hc : s.shndx = 0xfff2
      · rw [if_pos hc, if_pos]
        rw [List.isPrefixOf_iff_prefix]; exact h1 hc
      rw [if_neg hc]
      split
      · rfl
      · by_cases h0 : s.shndx = 0
        · rw [if_pos h0]
          rcases h2 h0 with ⟨a, ha, hn⟩ | hw
          · rw [ha]; dsimp only; rw [if_neg hn]
          · rw [if_pos hw, ite_self]
        · rw [if_neg h0]
    rw [this]
    exact ih fun s' hs' => h s' (List.mem_cons_of_mem _ hs')

/-! ### x86_64 -/

theorem x86_width : x86.width = Psabi.x86Width := by
  funext t
  rw [← X86Reloc.width_ofNat]
  unfold x86 X86Reloc.width
  dsimp only
  cases X86Reloc.RType.ofNat t <;> rfl

theorem x86_lawful : Lawful x86 where
  frame c a st m r s x hx := by
    rw [x86_width] at hx
    change (X86Reloc.applyOne c a m r s).1 x = m x
    have hout : (m.write (X86Reloc.loc c r)
        (leBytes (Psabi.x86Width r.type) (X86Reloc.wval c a r s))) x = m x := by
      apply Mem.write_out
      rw [leBytes_length]
      apply Nat.le_of_not_lt
      intro hlt
      exact hx _ hlt (addr_eq_add_sub _ _)
    rcases X86Reloc.applyOne_cases c a m r s with ⟨_, h⟩ | ⟨_, _, h⟩ | ⟨_, _, _, h⟩ | ⟨_, _, _, h⟩
    · rw [h]
    · rw [h]
    · rw [h]; exact hout
    · rw [h]; exact hout
  code c a st m r s := by
    change (X86Reloc.applyOne c a m r s).2 ≤ 0
    rcases X86Reloc.applyOne_cases c a m r s with ⟨_, h⟩ | ⟨_, _, h⟩ | ⟨_, _, _, h⟩ | ⟨_, _, _, h⟩ <;>
      rw [h] <;> dsimp only <;> decide
  width t := by
    rw [x86_width]
    have := X86Reloc.width_le t
    omega

/-! ### aarch64 -/

theorem a64_width {junk : Bool} {t : Nat} {a : A64Reloc.Act} {nc : Bool}
    (h : A64Reloc.table t = some (a, nc)) : (a64 junk).width t = a.width := by
  unfold a64
  dsimp only
  rw [h]
  cases a <;> rfl

theorem a64_width_le (junk : Bool) (t : Nat) : (a64 junk).width t ≤ Psabi.a64Width t := by
  cases h : A64Reloc.table t with
  | none =>
    have : (a64 junk).width t = 0 := by unfold a64; dsimp only; rw [h]
    omega
  | some x =>
    obtain ⟨a, nc⟩ := x
    rw [a64_width h, A64Reloc.width_table h]
    exact Nat.le_refl _

theorem a64_lawful (junk : Bool) : Lawful (a64 junk) where
  frame c a st m r s x hx := by
    unfold a64 at hx ⊢
    dsimp only at hx ⊢
    cases h : A64Reloc.table r.type with
    | none => rfl
    | some y =>
      obtain ⟨act, nc⟩ := y
      have hw := a64_width (junk := junk) h
      rw [h] at hx
      dsimp only
      cases act with
      | nothing => rfl
      | data op len =>
        dsimp only [A64Reloc.run, A64Reloc.relocData]
        apply Mem.write_out
        rw [leBytes_length]
        apply Nat.le_of_not_lt
        intro hlt
        exact hx _ hlt (addr_eq_add_sub _ _)
      | movw op lsb nz =>
        dsimp only [A64Reloc.run]
        apply Mem.write_out
        rw [leBytes_length]
        apply Nat.le_of_not_lt
        intro hlt
        exact hx _ hlt (addr_eq_add_sub _ _)
      | imm op lsb len t =>
        dsimp only [A64Reloc.run]
        apply Mem.write_out
        rw [leBytes_length]
        apply Nat.le_of_not_lt
        intro hlt
        exact hx _ hlt (addr_eq_add_sub _ _)
  code c a st m r s := by
    unfold a64
    dsimp only
    split
    · change RELOC_ENOEXEC ≤ 0
      decide
    · dsimp only
      split <;> decide
  width t := by
    have := a64_width_le junk t
    have : Psabi.a64Width t ≤ 8 := by unfold Psabi.a64Width; split <;> omega
    omega

end Ulp.LoadBytes
