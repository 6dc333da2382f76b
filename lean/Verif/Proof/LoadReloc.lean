import Verif.Proof.LoadSimplify
namespace Ulp.LoadBytes
open Load PatchFile

/-- A machine's step changes nothing outside the field, and its result is no
positive number. -/
structure Lawful (M : Machine) : Prop where
  frame : ∀ c a st m r s x, (∀ i, i < M.width r.type →
    x ≠ c.secAddr + (c.hdr - c.targetHdr) + r.offset + BitVec.ofNat 64 i) → (M.step c a st m r s).1 x = m x
  code : ∀ c a st m r s, (M.step c a st m r s).2.2 ≤ 0
  width : ∀ t, M.width t ≤ 2 ^ 32

/-- As `PatchFile.Reloc`, but in the table as the loader has rewritten it. -/
def RelocB (secs : List Sec) (rels : Nat → List RelEntry) (i k : Nat) (t : Sec) (r : RelEntry) : Prop :=
  ∃ s, secs[i]? = some s ∧ s.type = 4 ∧ secs[s.info]? = some t ∧ t.flags.testBit 1 = true ∧
    (rels i)[k]? = some r

/-- What the relocation step starts from. -/
structure RCtx (M : Machine) (f : List Byte) (secs : List Sec) (o : Nat) (strs : Sec) (si : Nat)
    (st str : Sec) (syms : List SymEntry) (rels : Nat → List RelEntry) (th : BitVec 64) : Prop where
  laid : Laid f secs o strs
  based : Based th secs
  symbols : Symbols f secs si st str syms
  null : ∀ s, secs[0]? = some s → s.flags.testBit 1 = false
  count : ∀ (i : Nat) (s : Sec), secs[i]? = some s → s.type = 4 → s.size / 24 = (rels i).length
  entries : ∀ (i k : Nat) (s : Sec) (r : RelEntry), secs[i]? = some s → s.type = 4 →
    (rels i)[k]? = some r → RelAt f s k r
  syms : ∀ i k t r, RelocB secs rels i k t r → r.sym < syms.length
  fits : ∀ i k t r, RelocB secs rels i k t r → r.offset + M.width r.type ≤ t.size
  target : ∀ i k t r, RelocB secs rels i k t r → t.type ≠ 2 ∧ t.type ≠ 3 ∧ t.type ≠ 4 ∧ t.type ≠ 8
  disjoint : ∀ i k t r i' k' t' r', RelocB secs rels i k t r → RelocB secs rels i' k' t' r' →
    (i, k) ≠ (i', k') → ∀ a b, a < M.width r.type → b < M.width r'.type →
    t.offset + r.offset + a ≠ t'.offset + r'.offset + b

/-- Fields of the entries before entry `k` of section `i`. -/
def Before (w : Nat → Nat) (secs : List Sec) (rels : Nat → List RelEntry) (i k b : Nat) : Prop :=
  ∃ i' k' t r, RelocB secs rels i' k' t r ∧ (i' < i ∨ i' = i ∧ k' < k) ∧
    t.offset + r.offset ≤ b ∧ b < t.offset + r.offset + w r.type

/-- `x` is the result of the machine's step for an entry, in a memory that has the
bytes of `f` in the entry's field. -/
def StepOf (M : Machine) (f : List Byte) (hdr th : BitVec 64) (syms : List SymEntry)
    (rels : Nat → List RelEntry) (i : Nat) (t : Sec) (r : RelEntry) (x : Mem × M.St × Int) : Prop :=
  ∃ st m s r0, syms[r.sym]? = some s ∧ (rels i)[0]? = some r0 ∧
    (∀ j, j < M.width r.type →
      f[t.offset + r.offset + j]? = some (m (hdr + BitVec.ofNat 64 (t.offset + r.offset + j)))) ∧
    x = M.step ⟨hdr, th, th + BitVec.ofNat 64 t.offset, [], []⟩ (BitVec.ofNat 64 r0.addend) st m
      ⟨BitVec.ofNat 64 r.offset, r.sym, r.type, BitVec.ofNat 64 r.addend⟩
      ⟨BitVec.ofNat 64 s.value, s.info % 16, s.shndx⟩

/-- The field of an entry has what the machine's step put there. -/
def Done (M : Machine) (f : List Byte) (hdr th : BitVec 64) (syms : List SymEntry)
    (rels : Nat → List RelEntry) (g : List Byte) (i : Nat) (t : Sec) (r : RelEntry) : Prop :=
  ∃ x, StepOf M f hdr th syms rels i t r x ∧ x.2.2 = 0 ∧
    ∀ j, j < M.width r.type →
      g[t.offset + r.offset + j]? = some (x.1 (hdr + BitVec.ofNat 64 (t.offset + r.offset + j)))

structure JInv (M : Machine) (f : List Byte) (secs : List Sec) (hdr th : BitVec 64) (syms : List SymEntry)
    (rels : Nat → List RelEntry) (i k : Nat) (g : List Byte) : Prop where
  keep : Keep (Before M.width secs rels i k) f g
  done : ∀ i' k' t r, RelocB secs rels i' k' t r → (i' < i ∨ i' = i ∧ k' < k) →
    Done M f hdr th syms rels g i' t r

theorem memOf_at (img : Image) (hdr : Addr) {k : Nat} (h : k < img.length) (hs : img.length < 2 ^ 64) :
    memOf img hdr (hdr + BitVec.ofNat 64 k) = img[k] := by
  unfold memOf
  exact Mem.write_in _ _ _ k h (by omega)

theorem memOf_read (img : Image) (hdr : Addr) (hs : img.length < 2 ^ 64) :
    (memOf img hdr).read hdr img.length = img := by
  unfold memOf
  exact Mem.read_write_self _ _ _ (by omega)

theorem addr_inj {hdr : BitVec 64} {a b : Nat} (ha : a < 2 ^ 64) (hb : b < 2 ^ 64)
    (h : hdr + BitVec.ofNat 64 a = hdr + BitVec.ofNat 64 b) : a = b := by
  have h1 := add_ofNat_sub_toNat hdr a ha
  have h2 := add_ofNat_sub_toNat hdr b hb
  rw [h] at h1
  omega

theorem relaAt_num {f : List Byte} {rs : Sec} {k : Nat} {r : RelEntry} (hs : f.length < 2 ^ 64)
    (hle : rs.offset + 24 * k + 24 ≤ f.length) (h : RelAt f rs k r) :
    relaAt f (BitVec.ofNat 64 (rs.offset + 24 * k)) =
      some ⟨BitVec.ofNat 64 r.offset, r.sym, r.type, BitVec.ofNat 64 r.addend⟩ := by
  have ht := h.type
  unfold relaAt
  rw [ofNat_toNat (by omega), if_pos hle, rd_num h.offset (by omega) hs,
    rd_num' (b := BitVec.ofNat 64 (rs.offset + 24 * k) + 8) h.info (by omega) hs (BitVec.ofNat_add ..).symm,
    rd_num' (b := BitVec.ofNat 64 (rs.offset + 24 * k) + 16) h.addend (by omega) hs
      (BitVec.ofNat_add ..).symm]
  dsimp only
  rw [show (2 ^ 32 * r.sym + r.type) / 2 ^ 32 = r.sym by omega,
    show (2 ^ 32 * r.sym + r.type) % 2 ^ 32 = r.type by omega]

section
variable {M : Machine} {f : List Byte} {secs : List Sec} {o : Nat} {strs : Sec} {hdr th : BitVec 64}
  {si : Nat} {st str : Sec} {syms : List SymEntry} {rels : Nat → List RelEntry}

theorem RelocB.idx {i k t r} (h : RelocB secs rels i k t r) :
    ∃ j : Nat, secs[j]? = some t ∧ t.flags.testBit 1 = true := by
  obtain ⟨s, _, _, h1, h2, _⟩ := h
  exact ⟨s.info, h1, h2⟩

theorem RCtx.field (C : RCtx M f secs o strs si st str syms rels th) {i k t r}
    (h : RelocB secs rels i k t r) {b : Nat} (h1 : t.offset + r.offset ≤ b)
    (h2 : b < t.offset + r.offset + M.width r.type) : InSec t b := by
  have := C.fits i k t r h
  exact ⟨(C.target i k t r h).2.2.2, by omega, by omega⟩

theorem RCtx.before (C : RCtx M f secs o strs si st str syms rels th) {i k b}
    (h : Before M.width secs rels i k b) :
    ∃ (j : Nat) (t : Sec), secs[j]? = some t ∧ t.type ≠ 2 ∧ t.type ≠ 3 ∧ t.type ≠ 4 ∧ InSec t b := by
  obtain ⟨i', k', t, r, h1, _, h2, h3⟩ := h
  obtain ⟨j, hj, _⟩ := h1.idx
  obtain ⟨a, b, c, _⟩ := C.target _ _ _ _ h1
  exact ⟨j, t, hj, a, b, c, C.field h1 h2 h3⟩

theorem RCtx.other (C : RCtx M f secs o strs si st str syms rels th) {i k b} {j : Nat} {s : Sec}
    (hs : secs[j]? = some s) (ht : s.type = 2 ∨ s.type = 3 ∨ s.type = 4)
    (h : Before M.width secs rels i k b) : ¬ InSec s b := by
  intro hin
  obtain ⟨j', t, hj, h1, h2, h3, h4⟩ := C.before h
  cases C.laid.apart j j' s t b hs hj hin h4
  rw [hs] at hj; cases hj
  omega

theorem JInv.laid (C : RCtx M f secs o strs si st str syms rels th) {i k g}
    (h : JInv M f secs hdr th syms rels i k g) : Laid g secs o strs :=
  C.laid.keep_secs h.keep fun _ hb => by
    obtain ⟨j, t, h1, _, h2, _, h3⟩ := C.before hb
    exact ⟨j, t, h1, h2, h3⟩

theorem JInv.symbols (C : RCtx M f secs o strs si st str syms rels th) {i k g}
    (h : JInv M f secs hdr th syms rels i k g) : Symbols g secs si st str syms :=
  Symbols_keep h.keep C.symbols (fun _ hb => C.other C.symbols.sec (.inl C.symbols.type) hb)
    (fun _ hb => C.other C.symbols.link (.inr (.inl C.symbols.strType)) hb)

theorem JInv.rela (C : RCtx M f secs o strs si st str syms rels th) {i k g}
    (h : JInv M f secs hdr th syms rels i k g) {j n : Nat} {s : Sec} {r : RelEntry}
    (hs : secs[j]? = some s) (ht : s.type = 4) (hr : (rels j)[n]? = some r) :
    relaAt g (BitVec.ofNat 64 (s.offset + 24 * n)) =
      some ⟨BitVec.ofNat 64 r.offset, r.sym, r.type, BitVec.ofNat 64 r.addend⟩ := by
  have he := C.entries j n s r hs ht hr
  have hn := (List.getElem?_eq_some_iff.1 hr).1
  have hc := C.count j s hs ht
  have hin := C.laid.inside j s hs (by omega)
  have hno : ∀ a m, a + m ≤ 24 → ∀ b, s.offset + 24 * n + a ≤ b → b < s.offset + 24 * n + a + m →
      ¬ Before M.width secs rels i k b := fun a m ha b h3 h4 hw =>
    C.other hs (.inr (.inr ht)) hw ⟨by omega, by omega, by omega⟩
  refine relaAt_num (by rw [h.keep.len]; exact C.laid.describes.small) (by rw [h.keep.len]; omega) ?_
  exact ⟨h.keep.num he.offset (fun b hb1 hb2 => hno 0 8 (by omega) b (by omega) (by omega)),
    h.keep.num he.info (hno 8 8 (by omega)), he.type, h.keep.num he.addend (hno 16 8 (by omega))⟩

theorem Symbols_symAt {g : List Byte} (l : Laid g secs o strs) (hS : Symbols g secs si st str syms)
    {k : Nat} {s : SymEntry} (hk : syms[k]? = some s) :
    ∃ n, symAt g (BitVec.ofNat 64 (st.offset + 24 * k)) =
        some ⟨n, s.info, s.shndx, BitVec.ofNat 64 s.value⟩ ∧ Str g (str.offset + n) s.name := by
  have he := hS.entries k s hk
  have hkl := (List.getElem?_eq_some_iff.1 hk).1
  have hc := hS.count
  have hin := l.inside si st hS.sec (by rw [hS.type]; omega)
  obtain ⟨n, h1, h2, _⟩ := he.name
  exact ⟨n, symAt_num l.describes.small (by omega) h1 he.info he.shndx he.value, h2⟩

theorem loc_eq (hdr th : BitVec 64) (a b c : Nat) :
    th + BitVec.ofNat 64 a + (hdr - th) + BitVec.ofNat 64 b + BitVec.ofNat 64 c =
      hdr + BitVec.ofNat 64 (a + b + c) := by
  rw [BitVec.ofNat_add, BitVec.ofNat_add]
  rw [BitVec.add_comm th, BitVec.add_assoc (BitVec.ofNat 64 a), BitVec.add_comm th, BitVec.sub_add_cancel,
    BitVec.add_comm (BitVec.ofNat 64 a), BitVec.add_assoc hdr, BitVec.add_assoc hdr]

/-- A failed step. -/
def Failed (M : Machine) (f : List Byte) (secs : List Sec) (hdr th : BitVec 64) (syms : List SymEntry)
    (rels : Nat → List RelEntry) : Prop :=
  ∃ i k t r x, RelocB secs rels i k t r ∧ StepOf M f hdr th syms rels i t r x ∧ x.2.2 ≠ 0

/-- A relocation section without addends for a loadable section. -/
def RelSection (secs : List Sec) : Prop :=
  ∃ (i : Nat) (s t : Sec), secs[i]? = some s ∧ s.type = 9 ∧ secs[s.info]? = some t ∧
    t.flags.testBit 1 = true

theorem relocLoop_spec (hM : Lawful M) (C : RCtx M f secs o strs si st str syms rels th) {i : Nat}
    {s t : Sec} (hs : secs[i]? = some s) (hty : s.type = 4) (ht : secs[s.info]? = some t)
    (hfl : t.flags.testBit 1 = true) :
    ∀ fuel k mst g, k ≤ (rels i).length → (rels i).length < k + fuel →
      JInv M f secs hdr th syms rels i k g →
      ∃ g' e, relocLoop M hdr th (BitVec.ofNat 64 o) (BitVec.ofNat 64 s.offset) si i fuel k mst g =
          some (g', e) ∧
        ((e = 0 ∧ JInv M f secs hdr th syms rels i (rels i).length g') ∨
          (e < 0 ∧ Failed M f secs hdr th syms rels)) := by
  intro fuel
  induction fuel with
  | zero => intro k mst g h1 h2; omega
  | succ fuel ih =>
    intro k mst g h1 h2 hJ
    have l := hJ.laid C
    have hS := hJ.symbols C
    have hsm := l.describes.small
    obtain ⟨sh, hsh, hag, _⟩ := l.hdrAt hs
    unfold relocLoop
    rw [hsh]
    dsimp only
    rw [hag.size, ofNat_toNat (l.num64 hs).2.1, C.count i s hs hty, hag.info]
    by_cases hlt : k < (rels i).length
    · rw [if_pos hlt]
      have hr : (rels i)[k]? = some (rels i)[k] := List.getElem?_eq_getElem hlt
      have hr0 : (rels i)[0]? = some (rels i)[0] := List.getElem?_eq_getElem (by omega)
      generalize hre : (rels i)[k] = r at hr
      generalize (rels i)[0] = r0 at hr0
      have hrel : RelocB secs rels i k t r := ⟨s, hs, hty, ht, hfl, hr⟩
      have h0 : s.info ≠ 0 := by
        intro h0
        rw [h0] at ht
        have := C.null t ht
        rw [this] at hfl; cases hfl
      obtain ⟨tsh, htsh, htag, _⟩ := l.hdrAt ht
      obtain ⟨ssh, hssh, hssag, _⟩ := l.hdrAt hS.sec
      have hsym := C.syms i k t r hrel
      have hse : syms[r.sym]? = some syms[r.sym] := List.getElem?_eq_getElem hsym
      generalize syms[r.sym] = se at hse
      obtain ⟨n, hsa, _⟩ := Symbols_symAt l hS hse
      rw [← BitVec.ofNat_add, htsh, hJ.rela C hs hty hr,
        show relaAt g (BitVec.ofNat 64 s.offset) = _ from hJ.rela C hs hty hr0, hssh]
      dsimp only
      rw [hssag.addr, C.based _ _ hS.pos hS.sec, BitVec.ofNat_toNat, BitVec.setWidth_eq,
        BitVec.add_comm th, BitVec.add_sub_cancel, ← BitVec.ofNat_add, hsa]
      dsimp only
      have hta : tsh.addr = th + BitVec.ofNat 64 t.offset := by
        rw [htag.addr, C.based _ _ (by omega) ht, BitVec.ofNat_toNat, BitVec.setWidth_eq]
      rw [hta]
      have hfit := C.fits i k t r hrel
      have htg := C.target i k t r hrel
      have hin := l.inside _ t ht htg.2.2.2
      have hple : t.offset + r.offset + M.width r.type ≤ g.length := by omega
      rw [if_neg (by
        rw [BitVec.add_comm th, BitVec.add_sub_cancel, ← BitVec.ofNat_add, ofNat_toNat (by omega)]
        omega)]
      -- the step
      have hfeq : ∀ j, j < M.width r.type →
          f[t.offset + r.offset + j]? =
            some (memOf g hdr (hdr + BitVec.ofNat 64 (t.offset + r.offset + j))) := by
        intro j hj
        rw [memOf_at g hdr (by omega) hsm, ← List.getElem?_eq_getElem]
        refine (hJ.keep.same _ ?_).symm
        rintro ⟨i', k', t', r', h3, h4, h5, h6⟩
        refine C.disjoint i k t r i' k' t' r' hrel h3 ?_ j (t.offset + r.offset + j - (t'.offset + r'.offset)) hj
          (by omega) (by omega)
        intro heq
        injection heq with e1 e2
        omega
      have hstep : StepOf M f hdr th syms rels i t r _ :=
        ⟨mst, memOf g hdr, se, r0, hse, hr0, hfeq, rfl⟩
      have hfr := hM.frame ⟨hdr, th, th + BitVec.ofNat 64 t.offset, [], []⟩ (BitVec.ofNat 64 r0.addend) mst
        (memOf g hdr) ⟨BitVec.ofNat 64 r.offset, r.sym, r.type, BitVec.ofNat 64 r.addend⟩
        ⟨BitVec.ofNat 64 se.value, se.info % 16, se.shndx⟩
      have hcode := hM.code ⟨hdr, th, th + BitVec.ofNat 64 t.offset, [], []⟩ (BitVec.ofNat 64 r0.addend) mst
        (memOf g hdr) ⟨BitVec.ofNat 64 r.offset, r.sym, r.type, BitVec.ofNat 64 r.addend⟩
        ⟨BitVec.ofNat 64 se.value, se.info % 16, se.shndx⟩
      generalize M.step ⟨hdr, th, th + BitVec.ofNat 64 t.offset, [], []⟩ (BitVec.ofNat 64 r0.addend) mst
        (memOf g hdr) ⟨BitVec.ofNat 64 r.offset, r.sym, r.type, BitVec.ofNat 64 r.addend⟩
        ⟨BitVec.ofNat 64 se.value, se.info % 16, se.shndx⟩ = x at hstep hfr hcode ⊢
      by_cases hx : x.2.2 = 0
      · rw [if_neg (by simpa using hx)]
        refine ih (k + 1) x.2.1 _ (by omega) (by omega) ?_
        have hnew : ∀ b, b < g.length →
            (x.1.read hdr g.length)[b]? = some (x.1 (hdr + BitVec.ofNat 64 b)) := by
          intro b hb
          rw [Mem.read_getElem?, if_pos hb]
        have hold : ∀ b, ¬ (t.offset + r.offset ≤ b ∧ b < t.offset + r.offset + M.width r.type) →
            (x.1.read hdr g.length)[b]? = g[b]? := by
          intro b hb
          by_cases hbl : b < g.length
          · rw [hnew b hbl, hfr, memOf_at g hdr hbl hsm, List.getElem?_eq_getElem hbl]
            intro j hj heq
            dsimp only at heq hj
            rw [loc_eq] at heq
            have := addr_inj (by omega) (by omega) heq
            omega
          · rw [List.getElem?_eq_none (by rw [Mem.read_length]; omega),
              List.getElem?_eq_none (by omega)]
        refine ⟨⟨?_, ?_⟩, ?_⟩
        · rw [Mem.read_length]; exact hJ.keep.len
        · intro b hb
          rw [hold b (fun hh => hb ⟨i, k, t, r, hrel, .inr ⟨rfl, by omega⟩, hh.1, hh.2⟩)]
          refine hJ.keep.same b ?_
          rintro ⟨i', k', t', r', h3, h4, h5⟩
          exact hb ⟨i', k', t', r', h3, by omega, h5⟩
        · intro i' k' t' r' h3 h4
          by_cases heq : i' = i ∧ k' = k
          · obtain ⟨rfl, rfl⟩ := heq
            obtain ⟨s', e1, e2, e3, e4, e5⟩ := h3
            rw [hs] at e1; cases e1
            rw [ht] at e3; cases e3
            rw [hr] at e5; cases e5
            exact ⟨x, hstep, hx, fun j hj => hnew _ (by omega)⟩
          · obtain ⟨y, h5, h6, h7⟩ := hJ.done i' k' t' r' h3 (by omega)
            refine ⟨y, h5, h6, fun j hj => ?_⟩
            rw [hold, h7 j hj]
            rintro ⟨h8, h9⟩
            exact C.disjoint i k t r i' k' t' r' hrel h3
              (by intro hh; injection hh with e1 e2; exact heq ⟨e1.symm, e2.symm⟩)
              (t'.offset + r'.offset + j - (t.offset + r.offset)) j (by omega) hj (by omega)
      · rw [if_pos hx]
        exact ⟨_, _, rfl, .inr ⟨by omega, i, k, t, r, x, hrel, hstep, hx⟩⟩
    · rw [if_neg hlt]
      refine ⟨g, 0, rfl, .inl ⟨rfl, ?_⟩⟩
      rw [show (rels i).length = k by omega]; exact hJ

theorem relocSection_spec (hM : Lawful M) (C : RCtx M f secs o strs si st str syms rels th) {i : Nat}
    {s t : Sec} (hi : 0 < i) (hs : secs[i]? = some s) (hty : s.type = 4) (ht : secs[s.info]? = some t)
    (hfl : t.flags.testBit 1 = true) {g : List Byte} (hJ : JInv M f secs hdr th syms rels i 0 g) :
    ∃ g' e, relocSection M hdr th (BitVec.ofNat 64 o) si i g = some (g', e) ∧
        ((e = 0 ∧ JInv M f secs hdr th syms rels i (rels i).length g') ∨
          (e < 0 ∧ Failed M f secs hdr th syms rels)) := by
  have l := hJ.laid C
  obtain ⟨sh, hsh, hag, _⟩ := l.hdrAt hs
  unfold relocSection
  rw [hsh]
  dsimp only
  rw [hag.addr, C.based _ _ hi hs, BitVec.ofNat_toNat, BitVec.setWidth_eq,
    BitVec.add_comm th, BitVec.add_sub_cancel]
  refine relocLoop_spec hM C hs hty ht hfl _ 0 _ g (by omega) ?_ hJ
  have := C.count i s hs hty
  have := l.inside i s hs (by omega)
  omega

theorem testBit_ofNat {n : Nat} (h : n < 2 ^ 64) : (BitVec.ofNat 64 n).getLsbD 1 = n.testBit 1 := by
  rw [← BitVec.testBit_toNat, ofNat_toNat h]

theorem JInv.skip {i g} (hJ : JInv M f secs hdr th syms rels i 0 g)
    (h : ∀ k t r, ¬ RelocB secs rels i k t r) : JInv M f secs hdr th syms rels (i + 1) 0 g := by
  refine ⟨hJ.keep.mono ?_, ?_⟩
  · rintro b ⟨i', k', t, r, h1, h2, h3⟩
    exact ⟨i', k', t, r, h1, by omega, h3⟩
  · intro i' k' t r h1 h2
    by_cases h3 : i' = i
    · subst h3; exact absurd h1 (h k' t r)
    · exact hJ.done i' k' t r h1 (by omega)

theorem JInv.next {i g} (hJ : JInv M f secs hdr th syms rels i (rels i).length g) :
    JInv M f secs hdr th syms rels (i + 1) 0 g := by
  refine ⟨hJ.keep.mono ?_, ?_⟩
  · rintro b ⟨i', k', t, r, h1, h2, h3⟩
    exact ⟨i', k', t, r, h1, by omega, h3⟩
  · intro i' k' t r h1 h2
    refine hJ.done i' k' t r h1 ?_
    by_cases h3 : i' = i
    · subst h3
      obtain ⟨s, _, _, _, _, h4⟩ := h1
      exact .inr ⟨rfl, (List.getElem?_eq_some_iff.1 h4).1⟩
    · omega

theorem applyLoop_spec (hM : Lawful M) (C : RCtx M f secs o strs si st str syms rels th)
    (h0 : ∀ s : Sec, secs[0]? = some s → s.type ≠ 4) :
    ∀ fuel i g, i ≤ secs.length → secs.length < i + fuel → JInv M f secs hdr th syms rels i 0 g →
      ∃ g' e, applyLoop M hdr th (BitVec.ofNat 64 o) si fuel i g 0 = some (g', e) ∧
        ((e = 0 ∧ JInv M f secs hdr th syms rels secs.length 0 g' ∧
            ∀ (j : Nat) (s t : Sec), i ≤ j → secs[j]? = some s → s.type = 9 → secs[s.info]? = some t →
              t.flags.testBit 1 = false) ∨
          (e < 0 ∧ (Failed M f secs hdr th syms rels ∨ RelSection secs))) := by
  intro fuel
  induction fuel with
  | zero => intro i g h1 h2; omega
  | succ fuel ih =>
    intro i g h1 h2 hJ
    have l := hJ.laid C
    unfold applyLoop
    rw [l.shnum]
    dsimp only
    by_cases hlt : i < secs.length
    case neg =>
      rw [if_neg hlt]
      refine ⟨g, 0, rfl, .inl ⟨rfl, ?_, ?_⟩⟩
      · rw [show secs.length = i by omega]; exact hJ
      · intro j s t hj hjs
        have := (List.getElem?_eq_some_iff.1 hjs).1
        omega
    rw [if_pos hlt]
    have hs : secs[i]? = some secs[i] := List.getElem?_eq_getElem hlt
    generalize secs[i] = s at hs
    obtain ⟨sh, hsh, hag, _⟩ := l.hdrAt hs
    rw [hsh]
    dsimp only
    rw [hag.info, hag.type]
    -- going on
    have go : ∀ g', JInv M f secs hdr th syms rels (i + 1) 0 g' →
        (s.type = 9 → ∀ t : Sec, secs[s.info]? = some t → t.flags.testBit 1 = false) →
        ∃ g'' e, applyLoop M hdr th (BitVec.ofNat 64 o) si fuel (i + 1) g' 0 = some (g'', e) ∧
        ((e = 0 ∧ JInv M f secs hdr th syms rels secs.length 0 g'' ∧
            ∀ (j : Nat) (s t : Sec), i ≤ j → secs[j]? = some s → s.type = 9 → secs[s.info]? = some t →
              t.flags.testBit 1 = false) ∨
          (e < 0 ∧ (Failed M f secs hdr th syms rels ∨ RelSection secs))) := by
      intro g' hJ' h9
      obtain ⟨g'', e, h3, h4⟩ := ih (i + 1) g' (by omega) (by omega) hJ'
      refine ⟨g'', e, h3, ?_⟩
      rcases h4 with ⟨h5, h6, h7⟩ | h4
      · refine .inl ⟨h5, h6, ?_⟩
        intro j s' t hj hjs
        rcases Nat.lt_or_ge i j with hh | hh
        · exact h7 j s' t hh hjs
        · cases Nat.le_antisymm hj hh
          rw [hs] at hjs; cases hjs
          exact fun h9' => h9 h9' t
      · exact .inr h4
    by_cases hinf : secs.length ≤ s.info
    · rw [if_pos hinf]
      have hno : secs[s.info]? = none := List.getElem?_eq_none hinf
      refine go g (hJ.skip ?_) ?_
      · rintro k t r ⟨s', e1, _, e2, _⟩
        rw [hs] at e1; cases e1
        rw [hno] at e2; cases e2
      · intro _ t e2
        rw [hno] at e2; cases e2
    · rw [if_neg hinf]
      have ht : secs[s.info]? = some secs[s.info] := List.getElem?_eq_getElem (by omega)
      generalize secs[s.info] = t at ht
      obtain ⟨tsh, htsh, htag, _⟩ := l.hdrAt ht
      rw [htsh]
      dsimp only
      rw [htag.flags]
      have hbit : (BitVec.ofNat 64 t.flags &&& SHF_ALLOC = 0) ↔ t.flags.testBit 1 = false := by
        rw [alloc_bit, testBit_ofNat (l.num64 ht).2.2.1]
      by_cases hfl : t.flags.testBit 1 = false
      · rw [if_pos (hbit.2 hfl)]
        refine go g (hJ.skip ?_) ?_
        · rintro k t' r ⟨s', e1, _, e2, e3, _⟩
          rw [hs] at e1; cases e1
          rw [ht] at e2; cases e2
          rw [hfl] at e3; cases e3
        · intro _ t' e2
          rw [ht] at e2; cases e2; exact hfl
      · rw [if_neg (fun hh => hfl (hbit.1 hh))]
        rw [Bool.not_eq_false] at hfl
        by_cases h9 : s.type = 9
        · rw [if_pos (show s.type = SHT_REL from h9)]
          exact ⟨_, _, rfl, .inr ⟨by decide, .inr ⟨i, s, t, hs, h9, ht, hfl⟩⟩⟩
        rw [if_neg (show ¬ s.type = SHT_REL from h9)]
        by_cases h4 : s.type = 4
        · rw [if_pos (show s.type = SHT_RELA from h4)]
          have hi : 0 < i := by
            rcases Nat.eq_zero_or_pos i with h | h
            · subst h; exact absurd h4 (h0 s hs)
            · exact h
          obtain ⟨g', e, h5, h6⟩ := relocSection_spec hM C hi hs h4 ht hfl hJ
          rw [h5]
          dsimp only
          rcases h6 with ⟨rfl, h7⟩ | ⟨h7, h8⟩
          · rw [if_neg (by decide)]
            exact go g' h7.next fun hh => absurd hh h9
          · rw [if_pos h7]
            exact ⟨_, _, rfl, .inr ⟨h7, .inl h8⟩⟩
        · rw [if_neg (show ¬ s.type = SHT_RELA from h4)]
          dsimp only
          rw [if_neg (by decide)]
          refine go g (hJ.skip ?_) fun hh => absurd hh h9
          rintro k t' r ⟨s', e1, e2, _⟩
          rw [hs] at e1; cases e1
          exact h4 e2

theorem applyRelocs_spec (hM : Lawful M) (C : RCtx M f secs o strs si st str syms rels th)
    (h0 : ∀ s : Sec, secs[0]? = some s → s.type ≠ 4) :
    ∃ g e, applyRelocs M hdr th (BitVec.ofNat 64 o) si f = some (g, e) ∧
      ((e = 0 ∧ JInv M f secs hdr th syms rels secs.length 0 g ∧ ¬ RelSection secs) ∨
        (e < 0 ∧ (Failed M f secs hdr th syms rels ∨ RelSection secs))) := by
  have hn : secs.length < 2 ^ 16 := C.laid.describes.count.lt
  have hJ : JInv M f secs hdr th syms rels 0 0 f := ⟨Keep.refl _ _, by intro i' k' _ _ _ h; omega⟩
  obtain ⟨g, e, h1, h2⟩ := applyLoop_spec hM C h0 (2 ^ 16) 0 f (by omega) (by omega) hJ
  refine ⟨g, e, h1, ?_⟩
  rcases h2 with ⟨h3, h4, h5⟩ | h2
  · refine .inl ⟨h3, h4, ?_⟩
    rintro ⟨i, s, t, e1, e2, e3, e4⟩
    rw [h5 i s t (by omega) e1 e2 e3] at e4; cases e4
  · exact .inr h2
end

end Ulp.LoadBytes
