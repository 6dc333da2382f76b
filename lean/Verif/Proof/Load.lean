import Verif.Model.Load
import Verif.Spec.PatchFile
import Verif.Proof.Mem
namespace Ulp.PatchFile

theorem Num.le {f : List Byte} {off n v} (h : Num f off n v) (hn : 0 < n) : off + n ≤ f.length := by
  obtain ⟨bs, hl, hp, _⟩ := h
  have := hp.length_le
  rw [List.length_drop] at this
  omega

theorem Num.lt {f : List Byte} {off n v} (h : Num f off n v) : v < 256 ^ n := by
  obtain ⟨bs, hl, _, rfl⟩ := h
  rw [← hl]; exact leNat_lt bs

theorem Num.unique {f : List Byte} {off n v w} (h : Num f off n v) (h' : Num f off n w) : v = w := by
  obtain ⟨bs, hl, hp, rfl⟩ := h
  obtain ⟨cs, hl', hp', rfl⟩ := h'
  rw [List.prefix_iff_eq_take.1 hp, List.prefix_iff_eq_take.1 hp', hl, hl']

theorem Num.of_le {f : List Byte} {off n} (h : off + n ≤ f.length) :
    Num f off n (leNat ((f.drop off).take n)) :=
  ⟨_, by rw [List.length_take, List.length_drop]; omega, List.take_prefix _ _, rfl⟩

theorem Str.lt {f : List Byte} {off s} (h : Str f off s) : off + s.length < f.length := by
  have := h.2.length_le
  rw [List.length_append, List.length_drop, List.length_singleton] at this
  omega

theorem Str.byte {f : List Byte} {off : Nat} (h : Str f off []) : Num f off 1 0 :=
  ⟨[0], rfl, h.2, rfl⟩

theorem Str.head {f : List Byte} {off c s} (h : Str f off (c :: s)) : Num f off 1 c.toNat := by
  refine ⟨[c], rfl, ?_, by simp [leNat]⟩
  obtain ⟨t, ht⟩ := h.2
  exact ⟨s ++ [0] ++ t, by rw [← ht]; simp⟩

theorem Str.tail {f : List Byte} {off c s} (h : Str f off (c :: s)) : Str f (off + 1) s := by
  refine ⟨fun hh => h.1 (List.mem_cons_of_mem _ hh), ?_⟩
  obtain ⟨t, ht⟩ := h.2
  refine ⟨t, ?_⟩
  rw [← List.drop_drop, ← ht]; rfl

end Ulp.PatchFile

namespace Ulp.Load
open PatchFile

theorem rd_num {f : List Byte} {off n v} (h : Num f off n v) (hn : 0 < n) (hs : f.length < 2 ^ 64) :
    rd f (BitVec.ofNat 64 off) n = some v := by
  have hle := h.le hn
  have ho : (BitVec.ofNat 64 off).toNat = off := by
    rw [BitVec.toNat_ofNat, Nat.mod_eq_of_lt (by omega)]
  unfold rd
  rw [ho, if_pos hle, (Num.of_le hle).unique h]

theorem rd_num' {f : List Byte} {b : BitVec 64} {off n v} (h : Num f off n v) (hn : 0 < n)
    (hs : f.length < 2 ^ 64) (hb : b = BitVec.ofNat 64 off) : rd f b n = some v := by
  rw [hb]; exact rd_num h hn hs

theorem ofNat_succ (off : Nat) : BitVec.ofNat 64 off + 1 = BitVec.ofNat 64 (off + 1) := by
  rw [BitVec.ofNat_add]; rfl

theorem strEq_str {f : List Byte} (hs : f.length < 2 ^ 64) :
    ∀ (l : List Byte) {off s}, Str f off s → 0 ∉ l →
      strEq f (BitVec.ofNat 64 off) l = some (decide (s = l)) := by
  intro l
  induction l with
  | nil =>
    intro off s h _
    unfold strEq
    cases s with
    | nil => rw [rd_num h.byte (by omega) hs]; rfl
    | cons c s =>
      have hc : c.toNat ≠ 0 := fun hc => h.1 (by
        rw [show (0 : Byte) = c from (BitVec.eq_of_toNat_eq (by simpa using hc)).symm]
        exact List.mem_cons_self)
      rw [rd_num h.head (by omega) hs]
      simp [hc]
  | cons d l ih =>
    intro off s h hd
    unfold strEq
    cases s with
    | nil =>
      rw [rd_num h.byte (by omega) hs]
      have : d ≠ 0 := fun h0 => hd (by rw [h0]; exact List.mem_cons_self)
      have : ¬ (0 : Nat) = d.toNat := fun h0 => this (BitVec.eq_of_toNat_eq (by simpa using h0.symm))
      simp [this]
    | cons c s =>
      rw [rd_num h.head (by omega) hs]
      dsimp only
      by_cases hcd : c = d
      · subst hcd
        rw [if_pos rfl, ofNat_succ, ih h.tail fun hh => hd (List.mem_cons_of_mem _ hh)]
        simp
      · rw [if_neg fun h => hcd (BitVec.eq_of_toNat_eq h)]
        simp [hcd]

/-- What the model's header says agrees with the file's. -/
structure Agrees (sh : Shdr) (s : Sec) : Prop where
  type : sh.type = s.type
  flags : sh.flags = BitVec.ofNat 64 s.flags
  addr : sh.addr = BitVec.ofNat 64 s.addr
  offset : sh.offset = BitVec.ofNat 64 s.offset
  size : sh.size = BitVec.ofNat 64 s.size
  link : sh.link = s.link
  info : sh.info = s.info

theorem shdrAt_header {f : List Byte} {o strs i : Nat} {s : Sec} (hs : f.length < 2 ^ 64)
    (ho : Num f 40 8 o) (h : Header f strs (o + 64 * i) s) :
    ∃ sh, shdrAt f i = some sh ∧ Agrees sh s ∧ Str f (strs + sh.name) s.name := by
  obtain ⟨k, hk, hkn⟩ := h.name
  have e : ∀ j : Nat, BitVec.ofNat 64 o + BitVec.ofNat 64 (64 * i) + BitVec.ofNat 64 j
      = BitVec.ofNat 64 (o + 64 * i + j) := by
    intro j; rw [BitVec.ofNat_add, BitVec.ofNat_add]
  have e0 : BitVec.ofNat 64 o + BitVec.ofNat 64 (64 * i) = BitVec.ofNat 64 (o + 64 * i) := by
    rw [BitVec.ofNat_add]
  have e4 : BitVec.ofNat 64 o + BitVec.ofNat 64 (64 * i) + 4 = _ := e 4
  have e8 : BitVec.ofNat 64 o + BitVec.ofNat 64 (64 * i) + 8 = _ := e 8
  have e16 : BitVec.ofNat 64 o + BitVec.ofNat 64 (64 * i) + 16 = _ := e 16
  have e24 : BitVec.ofNat 64 o + BitVec.ofNat 64 (64 * i) + 24 = _ := e 24
  have e32 : BitVec.ofNat 64 o + BitVec.ofNat 64 (64 * i) + 32 = _ := e 32
  have e40 : BitVec.ofNat 64 o + BitVec.ofNat 64 (64 * i) + 40 = _ := e 40
  have e44 : BitVec.ofNat 64 o + BitVec.ofNat 64 (64 * i) + 44 = _ := e 44
  have hfit := h.fits
  refine ⟨⟨k, s.type, BitVec.ofNat 64 s.flags, BitVec.ofNat 64 s.addr, BitVec.ofNat 64 s.offset,
    BitVec.ofNat 64 s.size, s.link, s.info⟩, ?_, ⟨rfl, rfl, rfl, rfl, rfl, rfl, rfl⟩, hkn⟩
  unfold shdrAt shoff
  rw [show rd f 40 8 = some o from rd_num' ho (by omega) hs rfl]
  dsimp only
  rw [if_pos (by rw [e0, BitVec.toNat_ofNat, Nat.mod_eq_of_lt (by omega)]; exact hfit),
    rd_num' hk (by omega) hs e0, rd_num' h.type (by omega) hs e4,
    rd_num' h.flags (by omega) hs e8, rd_num' h.addr (by omega) hs e16,
    rd_num' h.offset (by omega) hs e24, rd_num' h.size (by omega) hs e32,
    rd_num' h.link (by omega) hs e40, rd_num' h.info (by omega) hs e44]

/-- `Describes` with its witnesses named. -/
structure Desc (f : List Byte) (secs : List Sec) (o x : Nat) (strs : Sec) : Prop where
  small : f.length < 2 ^ 64
  count : Num f 60 2 secs.length
  ho : Num f 40 8 o
  hx : Num f 62 2 x
  hstrs : secs[x]? = some strs
  hdr : ∀ i s, secs[i]? = some s → Header f strs.offset (o + 64 * i) s

theorem Desc.shdr {f secs o x strs} (d : Desc f secs o x strs) {i s} (h : secs[i]? = some s) :
    ∃ sh, shdrAt f i = some sh ∧ Agrees sh s ∧ Str f (strs.offset + sh.name) s.name :=
  shdrAt_header d.small d.ho (d.hdr i s h)

theorem Desc.num {f secs o x strs} (d : Desc f secs o x strs) : shnum f = some secs.length :=
  rd_num' d.count (by omega) d.small rfl

/-- Section `i` is the first one called `l`. -/
def FirstAt (secs : List Sec) (l : List Byte) (i : Nat) (s : Sec) : Prop :=
  secs[i]? = some s ∧ s.name = l ∧ ∀ (j : Nat) (t : Sec), j < i → secs[j]? = some t → t.name ≠ l

theorem findSecFrom_spec {f secs o x strs} (d : Desc f secs o x strs) (l : List Byte) (hl : 0 ∉ l) :
    ∀ fuel i, i + fuel = secs.length → (∀ (j : Nat) (t : Sec), j < i → secs[j]? = some t → t.name ≠ l) →
      (∃ k s, findSecFrom f (BitVec.ofNat 64 strs.offset) l i fuel = some k ∧ FirstAt secs l k s) ∨
      (findSecFrom f (BitVec.ofNat 64 strs.offset) l i fuel = some 0 ∧
        ∀ (j : Nat) (t : Sec), secs[j]? = some t → t.name ≠ l) := by
  intro fuel
  induction fuel with
  | zero =>
    intro i hi hn
    refine .inr ⟨rfl, fun j t hj => hn j t ?_ hj⟩
    have := (List.getElem?_eq_some_iff.1 hj).1
    omega
  | succ fuel ih =>
    intro i hi hn
    have hlt : i < secs.length := by omega
    obtain ⟨sh, h1, _, h3⟩ := d.shdr (List.getElem?_eq_getElem hlt)
    have he : BitVec.ofNat 64 strs.offset + BitVec.ofNat 64 sh.name
      = BitVec.ofNat 64 (strs.offset + sh.name) := by rw [BitVec.ofNat_add]
    unfold findSecFrom
    rw [h1]
    dsimp only
    rw [he, strEq_str d.small l h3 hl]
    by_cases hnm : secs[i].name = l
    · refine .inl ⟨i, secs[i], by simp [hnm], List.getElem?_eq_getElem hlt, hnm, hn⟩
    · rw [decide_eq_false hnm]
      dsimp only
      refine ih (i + 1) (by omega) fun j t hj ht => ?_
      rcases Nat.lt_succ_iff_lt_or_eq.1 hj with h | h
      · exact hn j t h ht
      · subst h
        rw [List.getElem?_eq_getElem hlt] at ht
        cases ht; exact hnm

theorem findSec_spec {f secs o x strs} (d : Desc f secs o x strs) (l : List Byte) (hl : 0 ∉ l) :
    (∃ k s, findSec f (BitVec.ofNat 64 strs.offset) l = some k ∧ FirstAt secs l k s) ∨
    (findSec f (BitVec.ofNat 64 strs.offset) l = some 0 ∧
      ∀ (j : Nat) (t : Sec), secs[j]? = some t → t.name ≠ l) := by
  have := findSecFrom_spec d l hl secs.length 0 (by omega) (by omega)
  unfold findSec
  rw [d.num]
  exact this

theorem FirstAt.unique {secs l i s j t} (h : FirstAt secs l i s) (h' : FirstAt secs l j t) :
    i = j ∧ s = t := by
  have : i = j := by
    rcases Nat.lt_trichotomy i j with hh | hh | hh
    · exact absurd h.2.1 (h'.2.2 i s hh h.1)
    · exact hh
    · exact absurd h'.2.1 (h.2.2 j t hh h'.1)
  subst this
  exact ⟨rfl, Option.some.inj (h.1.symm.trans h'.1)⟩

/-- Looking a literal name up: either index 0 and there is no such section, or
the index of the section. -/
theorem findSec_has {f secs o x strs} (d : Desc f secs o x strs) (n : String) (hl : 0 ∉ lit n) :
    (findSec f (BitVec.ofNat 64 strs.offset) (lit n) = some 0 ∧ ¬ ∃ s, Has secs n s) ∨
    (∃ k s, findSec f (BitVec.ofNat 64 strs.offset) (lit n) = some k ∧ k ≠ 0 ∧ Has secs n s ∧
      secs[k]? = some s) := by
  rcases findSec_spec d (lit n) hl with ⟨k, s, h1, h2⟩ | ⟨h1, h2⟩
  · by_cases hk : k = 0
    · subst hk
      refine .inl ⟨h1, ?_⟩
      rintro ⟨t, i, hi, ht⟩
      have := (FirstAt.unique h2 (show FirstAt secs (lit n) i t from ht)).1
      omega
    · exact .inr ⟨k, s, h1, hk, ⟨k, by omega, h2⟩, h2.1⟩
  · refine .inl ⟨h1, ?_⟩
    rintro ⟨t, i, hi, ht⟩
    exact h2 i t ht.1 ht.2.1

theorem Has.unique {secs n s t} (h : Has secs n s) (h' : Has secs n t) : s = t := by
  obtain ⟨i, _, hi⟩ := h
  obtain ⟨j, _, hj⟩ := h'
  exact (FirstAt.unique (l := ascii n) hi hj).2

theorem afterNul_str {s : List Byte} : ∀ {t : List Byte}, 0 ∉ s → (s ++ [0]) <+: t →
    afterNul t = some (s.length + 1) := by
  induction s with
  | nil =>
    rintro t _ ⟨u, rfl⟩
    rfl
  | cons c s ih =>
    rintro t hn ⟨u, rfl⟩
    have hc : c ≠ 0 := fun h => hn (by rw [h]; exact List.mem_cons_self)
    rw [List.cons_append, List.cons_append, afterNul, if_neg hc,
      ih (fun h => hn (List.mem_cons_of_mem _ h)) ⟨u, rfl⟩]
    rfl

theorem skipStr_str {f : List Byte} {off s} (hs : f.length < 2 ^ 64) (h : Str f off s) :
    skipStr f (BitVec.ofNat 64 off) = some (BitVec.ofNat 64 (off + s.length + 1)) := by
  have := h.lt
  unfold skipStr
  rw [BitVec.toNat_ofNat, Nat.mod_eq_of_lt (by omega), afterNul_str h.1 h.2]
  rw [Option.map_some, ← BitVec.ofNat_add, Nat.add_assoc]

theorem findSymtab_spec {f secs o x strs} (d : Desc f secs o x strs)
    (hr : ∀ (i : Nat) (s : Sec), secs[i]? = some s → s.type = 2 → s.link < secs.length) :
    ∀ fuel i, i + fuel = secs.length ∨ (secs.length = 0 ∧ fuel = 0) →
      (∃ k s l t, findSymtab f i fuel = some (some (k, l, t)) ∧ i ≤ k ∧ secs[k]? = some s ∧
        s.type = 2 ∧ (∀ (j : Nat) (u : Sec), i ≤ j → j < k → secs[j]? = some u → u.type ≠ 2) ∧
        l = s.link ∧ ∃ u, secs[l]? = some u ∧ t = BitVec.ofNat 64 u.offset) ∨
      (findSymtab f i fuel = some none ∧ ∀ (j : Nat) (t : Sec), i ≤ j → secs[j]? = some t → t.type ≠ 2) := by
  intro fuel
  induction fuel with
  | zero =>
    intro i hi
    refine .inr ⟨rfl, fun j t hij hj => ?_⟩
    have := (List.getElem?_eq_some_iff.1 hj).1
    omega
  | succ fuel ih =>
    intro i hi
    have hlt : i < secs.length := by omega
    obtain ⟨sh, h1, h2, h3⟩ := d.shdr (List.getElem?_eq_getElem hlt)
    unfold findSymtab
    rw [h1]
    dsimp only
    by_cases ht : sh.type = SHT_SYMTAB
    · rw [if_pos ht]
      rw [h2.type] at ht
      have hl := hr i _ (List.getElem?_eq_getElem hlt) ht
      obtain ⟨u, h1', h2', _⟩ := d.shdr (List.getElem?_eq_getElem hl)
      rw [h2.link, h1']
      exact .inl ⟨i, _, _, _, rfl, Nat.le_refl _, List.getElem?_eq_getElem hlt, ht,
        fun j _ h h' => absurd h' (by omega), rfl, _,
        List.getElem?_eq_getElem hl, h2'.offset⟩
    · rw [if_neg ht]
      rcases ih (i + 1) (by omega) with ⟨k, s, l, t, h, hk, h4, h5, h6, r⟩ | ⟨h, r⟩
      · refine .inl ⟨k, s, l, t, h, by omega, h4, h5, fun j u hj hjk hu => ?_, r⟩
        by_cases hij : j = i
        · subst hij
          rw [List.getElem?_eq_getElem hlt] at hu
          cases hu
          rw [← h2.type]; exact ht
        · exact h6 j u (by omega) hjk hu
      · refine .inr ⟨h, fun j t hj hjt => ?_⟩
        by_cases hij : j = i
        · subst hij
          rw [List.getElem?_eq_getElem hlt] at hjt
          cases hjt
          rw [← h2.type]; exact ht
        · exact r j t (by omega) hjt

/-- The return code of `setup_load_info`. -/
def code : Except Int Info → Int
  | .error e => e
  | .ok _ => 0

theorem lit_eq (s : String) : lit s = ascii s := rfl

/-- The text of the Build ID in the note at `s`, if it is a Build-ID note. -/
theorem buildIdText_spec {f : List Byte} {off namesz descsz type : Nat} (hs : f.length < 2 ^ 64)
    (h1 : Num f off 4 namesz) (h2 : Num f (off + 4) 4 descsz) (h3 : Num f (off + 8) 4 type)
    (hd : descsz < 2 ^ 31) (hle : off + 12 + namesz + descsz ≤ f.length) :
    buildIdText f (BitVec.ofNat 64 off) =
      some (if type = 3 then some (((f.drop (off + 12 + namesz)).take descsz).flatMap hex2)
        else none) := by
  have hb : BitVec.ofNat 64 off + 12 + BitVec.ofNat 64 namesz
      = BitVec.ofNat 64 (off + 12 + namesz) := by
    rw [BitVec.ofNat_add, BitVec.ofNat_add]; rfl
  have e4 : BitVec.ofNat 64 off + 4 = BitVec.ofNat 64 (off + 4) := (BitVec.ofNat_add ..).symm
  have e8 : BitVec.ofNat 64 off + 8 = BitVec.ofNat 64 (off + 8) := (BitVec.ofNat_add ..).symm
  unfold buildIdText
  rw [rd_num' h1 (by omega) hs rfl, rd_num' h2 (by omega) hs e4, rd_num' h3 (by omega) hs e8]
  dsimp only
  by_cases ht : type = 3
  · rw [if_pos (show type = NT_GNU_BUILD_ID from ht), if_pos ht, hb, BitVec.toNat_ofNat,
      Nat.mod_eq_of_lt (by omega)]
    have hl : ((f.drop (off + 12 + namesz)).take descsz).length = descsz := by
      rw [List.length_take, List.length_drop]; omega
    unfold elfStrbuildid
    rw [hl, if_neg (by omega)]
    dsimp only
    rw [if_pos (by omega)]
  · rw [if_neg (show ¬ type = NT_GNU_BUILD_ID from ht), if_neg ht]

end Ulp.Load
