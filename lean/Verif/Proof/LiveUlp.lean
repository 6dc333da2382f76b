import Verif.Model.LiveUlp
import Verif.Spec.LiveUlp
import Verif.Proof.LoadAll
import Verif.Proof.LoadMachine
import Verif.Proof.LoadPatch
import Verif.Props.PatchShow
namespace Ulp.Live
open Load LoadBytes PatchFile

/-! ### More bytes at the end -/

theorem Num.mono {f h : List Byte} (hp : f <+: h) {off n v : Nat} (hn : Num f off n v) (h0 : 0 < n) :
    Num h off n v := by
  have hle := Num.le hn h0
  obtain ⟨bs, hl, hb, he⟩ := hn
  refine ⟨bs, hl, ?_, he⟩
  obtain ⟨t, rfl⟩ := hp
  rw [List.drop_append_of_le_length (by omega)]
  exact hb.trans (List.prefix_append _ _)

theorem Str.mono {f h : List Byte} (hp : f <+: h) {off : Nat} {s : List Byte} (hn : Str f off s) :
    Str h off s := by
  have hle := Str.lt hn
  refine ⟨hn.1, ?_⟩
  obtain ⟨t, rfl⟩ := hp
  rw [List.drop_append_of_le_length (by omega)]
  exact hn.2.trans (List.prefix_append _ _)

theorem Describes.mono {f h : List Byte} {secs : List Sec} (hp : f <+: h) (hs : h.length < 2 ^ 64)
    (d : Describes f secs) : Describes h secs := by
  obtain ⟨o, x, strs, h1, h2, h3, h4⟩ := d.table
  refine ⟨hs, Num.mono hp d.count (by omega), o, x, strs, Num.mono hp h1 (by omega), Num.mono hp h2 (by omega), h3, ?_⟩
  intro i s hi
  have a := h4 i s hi
  obtain ⟨k, k1, k2⟩ := a.name
  exact ⟨⟨k, Num.mono hp k1 (by omega), Str.mono hp k2⟩, Num.mono hp a.type (by omega),
    Num.mono hp a.flags (by omega), Num.mono hp a.addr (by omega), Num.mono hp a.offset (by omega),
    Num.mono hp a.size (by omega), Num.mono hp a.link (by omega), Num.mono hp a.info (by omega),
    Nat.le_trans a.fits hp.length_le⟩

/-! ### Which bytes loading leaves alone -/

variable {width : Nat → Nat} {f : List Byte} {secs : List Sec} {o : Nat} {strs : Sec} {si : Nat}
  {st str : Sec} {syms : List SymEntry} {rels : Nat → List RelEntry} {src dst : List Byte}

theorem value_in (hS : Symbols f secs si st str syms) {i k : Nat} (h1 : i < st.size / 24)
    (h2 : st.offset + 24 * i + 8 ≤ k) (h3 : k < st.offset + 24 * i + 16) : InSec st k :=
  ⟨by rw [hS.type]; omega, by omega, by omega⟩

theorem field_in (hR : Relocs width f secs syms.length rels) {i j t r k} (h : Reloc secs rels i j t r)
    (h2 : t.offset + r.offset ≤ k) (h3 : k < t.offset + r.offset + width r.type) : InSec t k := by
  have a := hR.fits _ _ _ _ h
  have b := hR.target _ _ _ _ h
  exact ⟨b.2.2.2.1, by omega, by omega⟩

theorem record_in (hm : Meta f secs src dst) {s : Sec} {k : Nat} (h : Has secs ".ulpatch.info" s)
    (h2 : s.offset ≤ k) (h3 : k < s.offset + 64) : InSec s k := by
  obtain ⟨a, b⟩ := hm.info s h
  exact ⟨by omega, by omega, by omega⟩

/-- A section that is not the symbol table, not the record and has no relocations. -/
theorem quiet (l : Laid f secs o strs) (hm : Meta f secs src dst) (hS : Symbols f secs si st str syms)
    (hR : Relocs width f secs syms.length rels) {j : Nat} {s : Sec} (hj : secs[j]? = some s)
    (h1 : s.type ≠ 2) (h2 : ¬ Has secs ".ulpatch.info" s)
    (h3 : ∀ i k t r, Reloc secs rels i k t r → t ≠ s) {k : Nat} (hk : InSec s k) :
    ¬ Touched width secs o st rels k := by
  have hh := l.headers j s k hj hk
  intro ht
  cases ht with
  | addr hi a b => omega
  | flags hi _ a b =>
    have := (List.getElem?_eq_some_iff.1 hi).1
    omega
  | value hi a b =>
    have := l.apart j si s st k hj hS.sec hk (value_in hS hi a b)
    subst this
    rw [hS.sec] at hj
    cases hj
    exact h1 hS.type
  | field hr a b =>
    have hr' := hr
    obtain ⟨x, -, -, ht, -⟩ := hr'
    have := l.apart j _ s _ k hj ht hk (field_in hR hr a b)
    subst this
    rw [hj] at ht
    cases ht
    exact h3 _ _ _ _ hr rfl
  | record hs a b =>
    have hs' := hs
    obtain ⟨i, -, hi, -⟩ := hs'
    have := l.apart j i s _ k hj hi hk (record_in hm hs a b)
    subst this
    rw [hj] at hi
    cases hi
    exact h2 hs

/-- The changed bytes are behind the ELF header, and outside of the section table they are
in sections other than that of the names. -/
theorem touched_out (l : Laid f secs o strs) (hm : Meta f secs src dst)
    (hS : Symbols f secs si st str syms) (hR : Relocs width f secs syms.length rels) {k : Nat}
    (ht : Touched width secs o st rels k) (hn : ¬ AddrFlags o secs.length k) :
    64 ≤ k ∧ (k < o ∨ o + 64 * secs.length ≤ k) ∧ ¬ InSec strs k := by
  obtain ⟨x, -, hx⟩ := l.strsAt
  have out : ∀ (j : Nat) (s : Sec), secs[j]? = some s → InSec s k → s.type ≠ 3 →
      64 ≤ k ∧ (k < o ∨ o + 64 * secs.length ≤ k) ∧ ¬ InSec strs k := by
    intro j s hj hk h3
    have hh := l.headers j s k hj hk
    refine ⟨hh.1, hh.2, ?_⟩
    intro hin
    have := l.apart j x s strs k hj hx hk hin
    subst this
    rw [hj] at hx
    cases hx
    exact h3 l.strsType
  cases ht with
  | addr hi a b => exact absurd ⟨_, hi, by omega, by omega⟩ hn
  | flags hi _ a b => exact absurd ⟨_, (List.getElem?_eq_some_iff.1 hi).1, by omega, by omega⟩ hn
  | value hi a b => exact out si st hS.sec (value_in hS hi a b) (by rw [hS.type]; omega)
  | field hr a b =>
    have hr' := hr
    obtain ⟨x', -, -, ht, -⟩ := hr'
    exact out _ _ ht (field_in hR hr a b) (hR.target _ _ _ _ hr).2.1
  | record hs a b =>
    have hs' := hs
    obtain ⟨i, -, hi, -⟩ := hs'
    exact out i _ hi (record_in hm hs a b) (by rw [(hm.info _ hs).1]; omega)

/-- The entries of the symbol table but for the values. -/
theorem quiet_sym (l : Laid f secs o strs) (hm : Meta f secs src dst) (hS : Symbols f secs si st str syms)
    (hR : Relocs width f secs syms.length rels) {i k : Nat} (hi : i < st.size / 24)
    (h1 : st.offset + 24 * i ≤ k) (h2 : k < st.offset + 24 * i + 8) : ¬ Touched width secs o st rels k := by
  have hk : InSec st k := ⟨by rw [hS.type]; omega, by omega, by omega⟩
  have hh := l.headers si st k hS.sec hk
  intro ht
  cases ht with
  | addr hi a b => omega
  | flags hi _ a b =>
    have := (List.getElem?_eq_some_iff.1 hi).1
    omega
  | value hi a b => omega
  | field hr a b =>
    have hr' := hr
    obtain ⟨x, -, -, ht, -⟩ := hr'
    have := l.apart si _ st _ k hS.sec ht hk (field_in hR hr a b)
    subst this
    rw [hS.sec] at ht
    cases ht
    exact (hR.target _ _ _ _ hr).1 hS.type
  | record hs a b =>
    have hs' := hs
    obtain ⟨i, -, hi, -⟩ := hs'
    have := l.apart si i st _ k hS.sec hi hk (record_in hm hs a b)
    subst this
    rw [hS.sec] at hi
    cases hi
    have := (hm.info _ hs).1
    rw [hS.type] at this
    omega

/-! ### The file in memory -/

/-- The sections of the file with the addresses and flags of the bytes `h`. -/
def upd (o : Nat) (h : List Byte) (i : Nat) (s : Sec) : Sec :=
  { s with addr := leNat ((h.drop (o + 64 * i + 16)).take 8), flags := leNat ((h.drop (o + 64 * i + 8)).take 8) }

theorem upd_secUpd (o : Nat) (h : List Byte) : SecUpd (upd o h) :=
  ⟨fun _ _ => rfl, fun _ _ => rfl, fun _ _ => rfl, fun _ _ => rfl, fun _ _ => rfl, fun _ _ => rfl⟩

open Classical in
/-- `f` with the addresses and flags of `h`. -/
noncomputable def mid (f : List Byte) (o n : Nat) (h : List Byte) : List Byte :=
  f.mapIdx fun k b => if AddrFlags o n k then h[k]?.getD b else b

theorem mid_length (f : List Byte) (o n : Nat) (h : List Byte) : (mid f o n h).length = f.length := by
  unfold mid
  rw [List.length_mapIdx]

theorem mid_out {f : List Byte} {o n : Nat} {h : List Byte} {k : Nat} (hk : ¬ AddrFlags o n k) :
    (mid f o n h)[k]? = f[k]? := by
  unfold mid
  rw [List.getElem?_mapIdx]
  cases f[k]? with
  | none => rfl
  | some b => rw [Option.map_some, if_neg hk]

theorem mid_in {f : List Byte} {o n : Nat} {h : List Byte} {k : Nat} (hk : AddrFlags o n k)
    (hl : h.length = f.length) : (mid f o n h)[k]? = h[k]? := by
  unfold mid
  rw [List.getElem?_mapIdx]
  by_cases hlt : k < f.length
  · rw [List.getElem?_eq_getElem hlt, Option.map_some, if_pos hk, List.getElem?_eq_getElem (by omega)]
    rfl
  · rw [List.getElem?_eq_none (by omega), List.getElem?_eq_none (by omega)]
    rfl

/-- The section table read back. -/
theorem laid_back (l : Laid f secs o strs) (hm : Meta f secs src dst)
    (hS : Symbols f secs si st str syms) (hR : Relocs width f secs syms.length rels) {h : List Byte}
    (hk : Keep (Touched width secs o st rels) f h) :
    ∃ x, secs[x]? = some strs ∧ Laid h (secs.mapIdx (upd o h)) o (upd o h x strs) := by
  have hl := hk.len
  have k1 : Keep (AddrFlags o secs.length) f (mid f o secs.length h) :=
    ⟨mid_length .., fun k hk => mid_out hk⟩
  have k2 : Keep (fun k => Touched width secs o st rels k ∧ ¬ AddrFlags o secs.length k)
      (mid f o secs.length h) h := by
    refine ⟨hl.trans (mid_length ..).symm, fun k hk' => ?_⟩
    by_cases ha : AddrFlags o secs.length k
    · exact (mid_in ha hl).symm
    · rw [mid_out ha]
      exact hk.same k fun ht => hk' ⟨ht, ha⟩
  have num : ∀ i q, i < secs.length → 8 ≤ q → q ≤ 16 →
      Num (mid f o secs.length h) (o + 64 * i + q) 8 (leNat ((h.drop (o + 64 * i + q)).take 8)) := by
    intro i q hi h1 h2
    have ht := l.tabTo
    have hn : Num h (o + 64 * i + q) 8 (leNat ((h.drop (o + 64 * i + q)).take 8)) :=
      Num.of_le (by rw [hl]; omega)
    have k3 : Keep (fun k => Touched width secs o st rels k ∧ ¬ AddrFlags o secs.length k)
        h (mid f o secs.length h) := ⟨k2.len.symm, fun k hk => (k2.same k hk).symm⟩
    exact k3.num hn fun k a b hw => hw.2 ⟨i, hi, by omega, by omega⟩
  obtain ⟨x, -, hx, hlaid⟩ := l.upd (upd_secUpd o h) k1
    (fun i s hi => num i 16 (List.getElem?_eq_some_iff.1 hi).1 (by omega) (by omega))
    (fun i s hi => num i 8 (List.getElem?_eq_some_iff.1 hi).1 (by omega) (by omega))
  refine ⟨x, hx, hlaid.keep k2 ?_⟩
  rintro k ⟨ht, hn⟩
  rw [List.length_mapIdx]
  exact touched_out l hm hS hR ht hn

theorem has_mapIdx {u : Nat → Sec → Sec} (hu : SecUpd u) {n : String} {s : Sec} (h : Has secs n s) :
    ∃ i, secs[i]? = some s ∧ Has (secs.mapIdx u) n (u i s) := by
  obtain ⟨i, h0, h1, h2, h3⟩ := h
  refine ⟨i, h1, i, h0, mapIdx_some h1, by rw [hu.name]; exact h2, ?_⟩
  intro j t' hj ht'
  obtain ⟨t, ht, rfl⟩ := getElem?_mapIdx ht'
  rw [hu.name]
  exact h3 j t hj ht

theorem has_of_mapIdx {u : Nat → Sec → Sec} (hu : SecUpd u) {n : String} {s' : Sec}
    (h : Has (secs.mapIdx u) n s') : ∃ i s, secs[i]? = some s ∧ s' = u i s ∧ Has secs n s := by
  obtain ⟨i, h0, h1, h2, h3⟩ := h
  obtain ⟨s, hs, rfl⟩ := getElem?_mapIdx h1
  refine ⟨i, s, hs, rfl, i, h0, hs, by rw [← hu.name i s]; exact h2, ?_⟩
  intro j t hj ht
  have := h3 j _ hj (mapIdx_some ht)
  rw [hu.name] at this
  exact this

/-! ### Numbers and texts from equal bytes -/

theorem take_congr {f g : List Byte} {off n : Nat} (h : ∀ k, off ≤ k → k < off + n → g[k]? = f[k]?) :
    (g.drop off).take n = (f.drop off).take n := by
  apply List.ext_getElem?
  intro i
  rw [List.getElem?_take, List.getElem?_take]
  split
  · rw [List.getElem?_drop, List.getElem?_drop]
    exact h _ (by omega) (by omega)
  · rfl

theorem num_congr {f g : List Byte} {off n v : Nat} (hv : Num f off n v)
    (h : ∀ k, off ≤ k → k < off + n → g[k]? = f[k]?) : Num g off n v := by
  obtain ⟨bs, hl, hp, he⟩ := hv
  refine ⟨bs, hl, ?_, he⟩
  rw [List.prefix_iff_eq_take] at hp ⊢
  rw [hl] at hp ⊢
  rw [take_congr h]
  exact hp

theorem str_congr {f g : List Byte} {off : Nat} {s : List Byte} (hv : Str f off s)
    (h : ∀ k, off ≤ k → k < off + s.length + 1 → g[k]? = f[k]?) : Str g off s := by
  refine ⟨hv.1, ?_⟩
  have hp := hv.2
  rw [List.prefix_iff_eq_take] at hp ⊢
  rw [take_congr (fun k h1 h2 => h k h1 (by rw [List.length_append, List.length_singleton] at h2; omega))]
  exact hp

/-! ### The mapping -/

variable {th : BitVec 64} {find : List Byte → Option (BitVec 64)} {target now : BitVec 64} {id : BitVec 32}
  {orig h : List Byte}

theorem keep_take (L : LiveImage width f secs o st syms rels th find src target now id orig h) :
    Keep (Touched width secs o st rels) f (h.take f.length) := by
  have hl := L.length
  refine ⟨by rw [List.length_take]; omega, fun k hk => ?_⟩
  rw [List.getElem?_take]
  split
  · rename_i hlt
    exact L.untouched k hlt hk
  · rw [List.getElem?_eq_none (by omega)]

theorem sec_same (l : Laid f secs o strs) (hm : Meta f secs src dst) (hS : Symbols f secs si st str syms)
    (hR : Relocs width f secs syms.length rels)
    (L : LiveImage width f secs o st syms rels th find src target now id orig h) {j : Nat} {s : Sec}
    (hj : secs[j]? = some s) (h1 : s.type ≠ 2) (h8 : s.type ≠ 8) (h2 : ¬ Has secs ".ulpatch.info" s)
    (h3 : ∀ i k t r, Reloc secs rels i k t r → t ≠ s) {k : Nat} (ha : s.offset ≤ k)
    (hb : k < s.offset + s.size) : h[k]? = f[k]? :=
  L.untouched k (by have := l.inside j s hj h8; omega) (quiet l hm hS hR hj h1 h2 h3 ⟨h8, ha, hb⟩)

theorem has_ne {n m : String} {s : Sec} (hn : ascii n ≠ ascii m) (h1 : Has secs n s) : ¬ Has secs m s := by
  rintro ⟨_, -, -, h2, -⟩
  obtain ⟨_, -, -, h3, -⟩ := h1
  exact hn (h3 ▸ h2)

/-- What the loader needs of the file, for the mapping. -/
structure Back (f : List Byte) (secs secs' : List Sec) (o : Nat) (st : Sec) (si : Nat) (th : BitVec 64)
    (h : List Byte) : Prop where
  upd : secs' = secs.mapIdx (upd o (h.take f.length))
  describes : Describes h secs'
  readable : Readable h secs'
  complete : Complete h secs'
  addr : leNat (((h.take f.length).drop (o + 64 * si + 16)).take 8) = (th + BitVec.ofNat 64 st.offset).toNat

theorem strtab_same (l : Laid f secs o strs) (hm : Meta f secs src dst) (hS : Symbols f secs si st str syms)
    (hR : Relocs width f secs syms.length rels)
    (L : LiveImage width f secs o st syms rels th find src target now id orig h) {s : Sec}
    (hs : Has secs ".ulpatch.strtab" s) {k : Nat} (ha : s.offset ≤ k) (hb : k < s.offset + s.size) :
    h[k]? = f[k]? := by
  have hs' := hs
  obtain ⟨j, -, hj, -⟩ := hs'
  have ht := (hm.strtab s hs).1
  exact sec_same l hm hS hR L hj (by omega) (by omega) (has_ne (by decide) hs)
    (fun i k t r hr e => (hR.target _ _ _ _ hr).2.2.2.2 (e ▸ hs)) ha hb

theorem note_same (l : Laid f secs o strs) (hc : Complete f secs) (hm : Meta f secs src dst)
    (hS : Symbols f secs si st str syms) (hR : Relocs width f secs syms.length rels) (hp : Plain f secs rels)
    (L : LiveImage width f secs o st syms rels th find src target now id orig h) {s : Sec}
    (hs : Has secs ".note.gnu.build-id" s) {k : Nat} (ha : s.offset ≤ k) (hb : k < s.offset + s.size) :
    h[k]? = f[k]? := by
  have hs' := hs
  obtain ⟨j, -, hj, -⟩ := hs'
  have ht : s.type = 7 := by
    obtain ⟨-, -, -, -, -, ⟨s', h1, h2⟩, -⟩ := hc
    cases Has.unique hs h1
    exact h2
  exact sec_same l hm hS hR L hj (by omega) (by omega) (has_ne (by decide) hs)
    (fun i k t r hr e => (hp.fixed _ _ _ _ hr).2.2 (e ▸ hs)) ha hb

theorem author_same (l : Laid f secs o strs) (hm : Meta f secs src dst)
    (hS : Symbols f secs si st str syms) (hR : Relocs width f secs syms.length rels) (hp : Plain f secs rels)
    (L : LiveImage width f secs o st syms rels th find src target now id orig h) {s : Sec}
    (hs : Has secs ".ulpatch.author" s) {k : Nat} (ha : s.offset ≤ k) (hb : k < s.offset + s.size) :
    h[k]? = f[k]? := by
  have hs' := hs
  obtain ⟨j, -, hj, -⟩ := hs'
  have ht := (hp.author s hs).1
  exact sec_same l hm hS hR L hj (by omega) (by omega) (has_ne (by decide) hs)
    (fun i k t r hr e => (hp.fixed _ _ _ _ hr).1 (e ▸ hs)) ha hb

theorem license_same (l : Laid f secs o strs) (hm : Meta f secs src dst)
    (hS : Symbols f secs si st str syms) (hR : Relocs width f secs syms.length rels) (hp : Plain f secs rels)
    (L : LiveImage width f secs o st syms rels th find src target now id orig h) {s : Sec}
    (hs : Has secs ".ulpatch.license" s) {k : Nat} (ha : s.offset ≤ k) (hb : k < s.offset + s.size) :
    h[k]? = f[k]? := by
  have hs' := hs
  obtain ⟨j, -, hj, -⟩ := hs'
  have ht := (hp.license s hs).1
  exact sec_same l hm hS hR L hj (by omega) (by omega) (has_ne (by decide) hs)
    (fun i k t r hr e => (hp.fixed _ _ _ _ hr).2.1 (e ▸ hs)) ha hb

theorem back (l : Laid f secs o strs) (hr : Readable f secs) (hc : Complete f secs) (hm : Meta f secs src dst)
    (hS : Symbols f secs si st str syms) (hR : Relocs width f secs syms.length rels) (hp : Plain f secs rels)
    (L : LiveImage width f secs o st syms rels th find src target now id orig h) (hs : h.length < 2 ^ 64) :
    Back f secs (secs.mapIdx (upd o (h.take f.length))) o st si th h := by
  have hu := upd_secUpd o (h.take f.length)
  have hlen := L.length
  obtain ⟨x, hx, hlaid⟩ := laid_back l hm hS hR (keep_take L)
  have hd : Describes h (secs.mapIdx (upd o (h.take f.length))) :=
    Describes.mono (List.take_prefix _ _) hs hlaid.describes
  have names : ∀ s, Has secs ".ulpatch.strtab" s → ∃ magic, Str f s.offset magic ∧ Str h s.offset magic ∧
      Str h (s.offset + magic.length + 1) src ∧ Str h (s.offset + magic.length + 1 + src.length + 1) dst := by
    intro s h1
    obtain ⟨-, magic, a, b, c, e⟩ := hm.strtab s h1
    exact ⟨magic, a, str_congr a fun k _ _ => strtab_same l hm hS hR L h1 (by omega) (by omega),
      str_congr b fun k _ _ => strtab_same l hm hS hR L h1 (by omega) (by omega),
      str_congr c fun k _ _ => strtab_same l hm hS hR L h1 (by omega) (by omega)⟩
  refine ⟨rfl, hd, ?_, ?_, ?_⟩
  · constructor
    · intro s hs'
      obtain ⟨i, s, -, rfl, h1⟩ := has_of_mapIdx hu hs'
      have := hr.info s h1
      rw [hu.offset]
      omega
    · intro s hs'
      obtain ⟨i, s, -, rfl, h1⟩ := has_of_mapIdx hu hs'
      rw [hu.offset]
      obtain ⟨magic, -, a, b, c⟩ := names s h1
      exact ⟨magic, src, dst, a, b, c⟩
    · intro s hs'
      obtain ⟨i, s, -, rfl, h1⟩ := has_of_mapIdx hu hs'
      rw [hu.offset]
      obtain ⟨n, d, t, a, b, c, e, hle⟩ := hr.note s h1
      obtain ⟨n', d', a', b', fit⟩ := hp.note s h1
      cases a.unique a'
      cases b.unique b'
      exact ⟨n, d, t, num_congr a fun k _ _ => note_same l hc hm hS hR hp L h1 (by omega) (by omega),
        num_congr b fun k _ _ => note_same l hc hm hS hR hp L h1 (by omega) (by omega),
        num_congr c fun k _ _ => note_same l hc hm hS hR hp L h1 (by omega) (by omega), e, by omega⟩
    · intro i s hs' h2
      obtain ⟨s, h1, rfl⟩ := getElem?_mapIdx hs'
      rw [hu.type] at h2
      rw [hu.link, List.length_mapIdx]
      exact hr.sym i s h1 h2
  · obtain ⟨⟨s1, a1⟩, ⟨s2, a2, v⟩, ⟨s3, a3⟩, ⟨s4, a4⟩, ⟨s5, a5⟩, ⟨s6, a6, t6⟩, ⟨s7, a7, mg⟩, i, s8, p8, a8, t8⟩ := hc
    refine ⟨?_, ?_, ?_, ?_, ?_, ?_, ?_, ?_⟩
    · obtain ⟨i, -, h1⟩ := has_mapIdx hu a1
      exact ⟨_, h1⟩
    · obtain ⟨i, -, h1⟩ := has_mapIdx hu a2
      refine ⟨_, h1, ?_⟩
      rw [hu.offset]
      obtain ⟨inf, k, s, S, b1, -, -, -, -, -, -, -, -, -, same⟩ := L.record
      cases Has.unique a2 b1
      refine num_congr v fun k h2 h3 => ?_
      have := same (k - s2.offset) (by omega)
      rwa [Nat.add_sub_of_le (by omega)] at this
    · obtain ⟨i, -, h1⟩ := has_mapIdx hu a3
      exact ⟨_, h1⟩
    · obtain ⟨i, -, h1⟩ := has_mapIdx hu a4
      exact ⟨_, h1⟩
    · obtain ⟨i, -, h1⟩ := has_mapIdx hu a5
      exact ⟨_, h1⟩
    · obtain ⟨i, -, h1⟩ := has_mapIdx hu a6
      exact ⟨_, h1, by rw [hu.type]; exact t6⟩
    · obtain ⟨i, -, h1⟩ := has_mapIdx hu a7
      refine ⟨_, h1, ?_⟩
      rw [hu.offset]
      obtain ⟨magic, b1, b2, -⟩ := names s7 a7
      rw [Load.Str.unique' l.describes.small mg b1]
      exact b2
    · exact ⟨i, _, p8, mapIdx_some a8, by rw [hu.type]; exact t8⟩
  · have hsi := (List.getElem?_eq_some_iff.1 hS.sec).1
    have ht := l.tabTo
    have n1 : Num (h.take f.length) (o + 64 * si + 16) 8 _ := Num.of_le (by rw [List.length_take]; omega)
    exact (Num.mono (List.take_prefix _ _) n1 (by omega)).unique (L.sections si st hS.pos hS.sec)

/-- The symbols read back. -/
theorem symLoop_live (l : Laid f secs o strs) (hm : Meta f secs src dst)
    (hS : Symbols f secs si st str syms) (hR : Relocs width f secs syms.length rels)
    (L : LiveImage width f secs o st syms rels th find src target now id orig h) (hs : h.length < 2 ^ 64) :
    ∀ n i, i + n = syms.length → ∃ r, symLoop h (BitVec.ofNat 64 st.offset) (BitVec.ofNat 64 str.offset) n i = some r ∧
      ∀ name x, (name, x) ∈ r ↔ ∃ k s, i ≤ k ∧ syms[k]? = some s ∧ Defined s ∧ s.name = name ∧
        SymAddr secs th find k s x := by
  intro n
  induction n with
  | zero =>
    intro i hi
    refine ⟨[], rfl, fun name x => ⟨nofun, ?_⟩⟩
    rintro ⟨k, s, h1, h2, -⟩
    have := (List.getElem?_eq_some_iff.1 h2).1
    omega
  | succ n ih =>
    intro i hi
    obtain ⟨r, hr, hmem⟩ := ih (i + 1) (by omega)
    have hlt : i < syms.length := by omega
    have hsi : syms[i]? = some syms[i] := List.getElem?_eq_getElem hlt
    generalize syms[i] = s at hsi
    have he := hS.entries i s hsi
    obtain ⟨S, hA, hval⟩ := L.symbols i s hsi
    have hcnt := hS.count
    have hin := l.inside si st hS.sec (by rw [hS.type]; omega)
    have hlen := L.length
    have same : ∀ k, st.offset + 24 * i ≤ k → k < st.offset + 24 * i + 8 → h[k]? = f[k]? := fun k h1 h2 =>
      L.untouched k (by omega) (quiet_sym l hm hS hR (by omega) h1 h2)
    obtain ⟨q, hq, hstr, hfit⟩ := he.name
    have e1 : symAt h (BitVec.ofNat 64 (st.offset + 24 * i)) = some ⟨q, s.info, s.shndx, BitVec.ofNat 64 S.toNat⟩ :=
      symAt_num hs (by omega) (num_congr hq fun k _ _ => same k (by omega) (by omega))
        (num_congr he.info fun k _ _ => same k (by omega) (by omega))
        (num_congr he.shndx fun k _ _ => same k (by omega) (by omega)) hval
    have e2 : cstr h (BitVec.ofNat 64 (str.offset + q)) = some s.name := by
      refine cstr_str hs (str_congr hstr fun k _ _ => ?_)
      refine sec_same l hm hS hR L hS.link (by rw [hS.strType]; omega) (by rw [hS.strType]; omega) ?_ ?_
        (by omega) (by omega)
      · intro hi'
        have := (hm.info _ hi').1
        rw [hS.strType] at this
        omega
      · rintro i' k' t r' hr' rfl
        exact (hR.target _ _ _ _ hr').2.1 hS.strType
    have hsplit : ∀ name x, (∃ k s, i ≤ k ∧ syms[k]? = some s ∧ Defined s ∧ s.name = name ∧
        SymAddr secs th find k s x) ↔ (Defined s ∧ s.name = name ∧ x = S) ∨
        ∃ k s, i + 1 ≤ k ∧ syms[k]? = some s ∧ Defined s ∧ s.name = name ∧ SymAddr secs th find k s x := by
      intro name x
      constructor
      · rintro ⟨k, s', h1, h2, h3, h4, h5⟩
        rcases Nat.lt_or_eq_of_le h1 with hlt | rfl
        · exact Or.inr ⟨k, s', hlt, h2, h3, h4, h5⟩
        · rw [hsi] at h2
          cases h2
          exact Or.inl ⟨h3, h4, SymAddr.unique h5 hA⟩
      · rintro (⟨h3, h4, rfl⟩ | ⟨k, s', h1, h2⟩)
        · exact ⟨i, s, Nat.le_refl _, hsi, h3, h4, hA⟩
        · exact ⟨k, s', by omega, h2⟩
    unfold symLoop
    rw [← BitVec.ofNat_add, e1]
    dsimp only
    by_cases hd : Defined s
    · have : isUndef ⟨q, s.info, s.shndx, BitVec.ofNat 64 S.toNat⟩ = false := by
        obtain ⟨h1, h2⟩ := hd
        unfold isUndef
        simp only [Bool.or_eq_false_iff, decide_eq_false_iff_not]
        exact ⟨h1, by omega⟩
      rw [this, if_neg (by decide), ← BitVec.ofNat_add, e2]
      dsimp only
      rw [hr]
      refine ⟨_, rfl, fun name x => ?_⟩
      rw [List.mem_cons, hsplit, hmem, BitVec.ofNat_toNat, BitVec.setWidth_eq, Prod.mk.injEq]
      refine or_congr ⟨fun ⟨a, b⟩ => ⟨hd, a.symm, b⟩, fun ⟨_, a, b⟩ => ⟨a.symm, b⟩⟩ Iff.rfl
    · have : isUndef ⟨q, s.info, s.shndx, BitVec.ofNat 64 S.toNat⟩ = true := by
        unfold isUndef
        simp only [Bool.or_eq_true, decide_eq_true_eq]
        unfold Defined at hd
        omega
      rw [this, if_pos rfl]
      refine ⟨_, hr, fun name x => ?_⟩
      rw [hsplit, hmem]
      exact ⟨Or.inr, fun h => h.resolve_left fun h => hd h.1⟩

theorem readInfo_some {f : List Byte} {p : Nat} (hs : f.length < 2 ^ 64) (hp : p + 64 ≤ f.length) :
    ∃ r, readInfo f (BitVec.ofNat 64 p) = some r := by
  have t : ∀ k n : Nat, k + n ≤ 64 → ∃ v, Load.rd f (BitVec.ofNat 64 p + BitVec.ofNat 64 k) n = some v := by
    intro k n hk
    refine PFile.rd_some _ _ _ ?_
    rw [BitVec.toNat_add, ofNat_toNat (by omega), ofNat_toNat (by omega)]
    omega
  obtain ⟨v0, h0⟩ := PFile.rd_some f (BitVec.ofNat 64 p) 4 (by rw [ofNat_toNat (by omega)]; omega)
  obtain ⟨v1, h1⟩ := t 4 8 (by omega)
  obtain ⟨v2, h2⟩ := t 12 8 (by omega)
  obtain ⟨v3, h3⟩ := t 20 8 (by omega)
  obtain ⟨v4, h4⟩ := t 28 8 (by omega)
  obtain ⟨v5, h5⟩ := t 36 8 (by omega)
  obtain ⟨v6, h6⟩ := t 44 8 (by omega)
  obtain ⟨v7, h7⟩ := t 52 4 (by omega)
  obtain ⟨v8, h8⟩ := t 56 4 (by omega)
  obtain ⟨v9, h9⟩ := t 60 4 (by omega)
  unfold Load.readInfo
  rw [h0, show Load.rd f (BitVec.ofNat 64 p + 4) 8 = _ from h1, show Load.rd f (BitVec.ofNat 64 p + 12) 8 = _ from h2,
    show Load.rd f (BitVec.ofNat 64 p + 20) 8 = _ from h3, show Load.rd f (BitVec.ofNat 64 p + 28) 8 = _ from h4,
    show Load.rd f (BitVec.ofNat 64 p + 36) 8 = _ from h5, show Load.rd f (BitVec.ofNat 64 p + 44) 8 = _ from h6,
    show Load.rd f (BitVec.ofNat 64 p + 52) 4 = _ from h7, show Load.rd f (BitVec.ofNat 64 p + 56) 4 = _ from h8,
    show Load.rd f (BitVec.ofNat 64 p + 60) 4 = _ from h9]
  exact ⟨_, rfl⟩

/-- What is read back of a live patch. -/
structure Told (f : List Byte) (secs : List Sec) (syms : List SymEntry) (th : BitVec 64)
    (find : List Byte → Option (BitVec 64)) (src dst : List Byte) (target now : BitVec 64) (id : BitVec 32)
    (orig h : List Byte) (d : Data) (r : List (List Byte × BitVec 64)) : Prop where
  srcIs : cstr h d.src = some src
  dstIs : cstr h d.dst = some dst
  author : ∃ s t, Has secs ".ulpatch.author" s ∧ Str f s.offset t ∧ cstr h d.author = some t
  license : ∃ s t, Has secs ".ulpatch.license" s ∧ Str f s.offset t ∧ cstr h d.license = some t
  idIs : d.info.ulpId = id
  targetIs : d.info.target = target
  virtual : d.info.virtual = target
  timeIs : d.info.time = now
  version : d.info.version = 5
  patch : ∃ k s, LastNamed syms src k s ∧ SymAddr secs th find k s d.info.patch
  origIs : leBytes 8 d.info.orig0 ++ leBytes 8 d.info.orig1 = orig
  buildId : BuildIdText f secs d.buildId
  symsIs : ∀ name x, (name, x) ∈ r ↔ ∃ k s, syms[k]? = some s ∧ Defined s ∧ s.name = name ∧
    SymAddr secs th find k s x

theorem leBytes_leNat : ∀ (bs : List Byte), bs.length ≤ 8 →
    leBytes bs.length (BitVec.ofNat 64 (leNat bs)) = bs := by
  intro bs hb
  apply leNat_inj (leBytes_length ..)
  rw [leNat_leBytes]
  have h1 := leNat_lt bs
  have h2 : 256 ^ bs.length ≤ 256 ^ 8 := Nat.pow_le_pow_right (by omega) hb
  rw [ofNat_toNat (by omega), Nat.mod_eq_of_lt h1]

theorem read_live (l : Laid f secs o strs) (hr : Readable f secs) (hc : Complete f secs) (hm : Meta f secs src dst)
    (hS : Symbols f secs si st str syms) (hR : Relocs width f secs syms.length rels) (hp : Plain f secs rels)
    (L : LiveImage width f secs o st syms rels th find src target now id orig h) (hs : h.length < 2 ^ 64) :
    ∃ d r inf, Has secs ".ulpatch.info" inf ∧
      loadUlpInfo th h = .ok ⟨some d, r, some (BitVec.ofNat 64 inf.offset)⟩ ∧
      Told f secs syms th find src dst target now id orig h d r := by
  have B := back l hr hc hm hS hR hp L hs
  have hu := upd_secUpd o (h.take f.length)
  have hlen := L.length
  obtain ⟨li, hli⟩ := (C19_accepts_iff h _ B.describes B.readable).mpr B.complete
  obtain ⟨o', x, strs', d⟩ := Describes.desc B.describes
  obtain ⟨r, h1, hv, -, h3⟩ := setup_master d B.readable
  rw [hli] at h1
  cases h1
  have hrec := h3 li rfl
  -- the symbol table
  obtain ⟨s', t', p1, p2, p3, p4, p5, p6, p7⟩ := hrec.sym
  have hidx : li.symIdx = si := by
    obtain ⟨s0, q1, rfl⟩ := getElem?_mapIdx p2
    rw [hu.type] at p3
    rcases Nat.lt_trichotomy li.symIdx si with hlt | he | hlt
    · exact absurd p3 (hS.first _ _ p1 hlt q1)
    · exact he
    · exact absurd (by rw [hu.type]; exact hS.type) (p4 si _ hS.pos hlt (mapIdx_some hS.sec))
  rw [hidx, mapIdx_some hS.sec] at p2
  cases p2
  rw [hu.link] at p5
  rw [p5, mapIdx_some hS.link] at p6
  cases p6
  rw [hu.offset] at p7
  obtain ⟨ss, e1, e2, -⟩ := d.shdr (mapIdx_some (u := upd o (h.take f.length)) hS.sec)
  have hbase : ss.addr - th = BitVec.ofNat 64 st.offset := by
    rw [e2.addr]
    dsimp only [upd]
    rw [B.addr, BitVec.ofNat_toNat, BitVec.setWidth_eq, BitVec.add_comm, BitVec.add_sub_cancel]
  have hsize : ss.size.toNat / 24 = syms.length := by
    rw [e2.size, hu.size, ofNat_toNat (l.num64 hS.sec).2.1]
    exact hS.count
  obtain ⟨rs, e3, e4⟩ := symLoop_live l hm hS hR L hs syms.length 0 (by omega)
  -- the record
  obtain ⟨inf', a1, a2, -, a3⟩ := hrec.info
  obtain ⟨_, inf, -, rfl, a4⟩ := has_of_mapIdx hu a1
  rw [hu.offset] at a3
  have hfit := hr.info inf a4
  obtain ⟨rec, e5⟩ := readInfo_some (p := inf.offset) hs (by omega)
  have hn := LoadBytes.readInfo_nums hs (by omega) e5
  obtain ⟨inf2, k, s, S, b1, b2, b3, b4, b5, b6, b7, b8, b9, b10, b11⟩ := L.record
  cases Has.unique a4 b1
  -- the Build ID
  obtain ⟨note', namesz, descsz, type, c1, c2, c3, c4, c5⟩ := hrec.buildId
  obtain ⟨_, note, -, rfl, c6⟩ := has_of_mapIdx hu c1
  rw [hu.offset] at c2 c3 c4 c5
  obtain ⟨n', d', f1, f2, f3⟩ := hp.note note c6
  have sameN : ∀ k, note.offset ≤ k → k < note.offset + note.size → h[k]? = f[k]? := fun k g1 g2 =>
    note_same l hc hm hS hR hp L c6 g1 g2
  have g1 : namesz = n' := c2.unique (num_congr f1 fun k _ _ => sameN k (by omega) (by omega))
  have g2 : descsz = d' := c3.unique (num_congr f2 fun k _ _ => sameN k (by omega) (by omega))
  have g3 : type = 3 := c4.unique (num_congr (hm.note note c6) fun k _ _ => sameN k (by omega) (by omega))
  subst g1 g2 g3
  rw [if_pos rfl, take_congr fun k _ _ => sameN k (by omega) (by omega)] at c5
  refine ⟨⟨li.srcFunc, li.dstFunc, li.author, li.license, rec,
    ((f.drop (note.offset + 12 + namesz)).take descsz).flatMap hex2⟩, rs, inf, a4, ?_, ?_⟩
  · unfold loadUlpInfo
    rw [PFile.chkLen_describes B.describes]
    dsimp only
    rw [hli]
    dsimp only
    rw [hidx, e1]
    dsimp only
    rw [hbase, hsize, p7, e3]
    dsimp only
    rw [a3, e5, c5]
  · obtain ⟨sn, magic, sr, m1, m2, m3, m4, m5⟩ := hrec.names
    obtain ⟨_, sn, -, rfl, m6⟩ := has_of_mapIdx hu m1
    rw [hu.offset] at m2 m3 m4 m5
    obtain ⟨-, magic', n1, n2, n3, n4⟩ := hm.strtab sn m6
    have sameS : ∀ k, sn.offset ≤ k → k < sn.offset + sn.size → h[k]? = f[k]? := fun k g1 g2 =>
      strtab_same l hm hS hR L m6 g1 g2
    have q1 : Str h sn.offset magic' := str_congr n1 fun k _ _ => sameS k (by omega) (by omega)
    cases Load.Str.unique' hs m2 q1
    have q2 := str_congr (g := h) n2 fun k _ _ => sameS k (by omega) (by omega)
    cases Load.Str.unique' hs m3 q2
    have q3 := str_congr (g := h) n3 fun k _ _ => sameS k (by omega) (by omega)
    have t8 : ∀ {off : Nat} {a b : BitVec 64}, Num h off 8 a.toNat → Num h off 8 b.toNat → a = b :=
      fun x y => BitVec.eq_of_toNat_eq (x.unique y)
    constructor
    · dsimp only
      rw [m4]
      exact cstr_str hs q2
    · dsimp only
      rw [m5]
      exact cstr_str hs q3
    · obtain ⟨sa, r1, r2⟩ := hrec.author
      obtain ⟨_, sa, -, rfl, r3⟩ := has_of_mapIdx hu r1
      rw [hu.offset] at r2
      obtain ⟨-, t, r4, r5⟩ := hp.author sa r3
      refine ⟨sa, t, r3, r4, ?_⟩
      dsimp only
      rw [r2]
      exact cstr_str hs (str_congr r4 fun k _ _ => author_same l hm hS hR hp L r3 (by omega) (by omega))
    · obtain ⟨sa, r1, r2⟩ := hrec.license
      obtain ⟨_, sa, -, rfl, r3⟩ := has_of_mapIdx hu r1
      rw [hu.offset] at r2
      obtain ⟨-, t, r4, r5⟩ := hp.license sa r3
      refine ⟨sa, t, r3, r4, ?_⟩
      dsimp only
      rw [r2]
      exact cstr_str hs (str_congr r4 fun k _ _ => license_same l hm hS hR hp L r3 (by omega) (by omega))
    · exact BitVec.eq_of_toNat_eq (hn.id.unique b4)
    · exact t8 hn.target b5
    · exact t8 hn.virtual b7
    · exact t8 hn.time b10
    · obtain ⟨-, ⟨s2, a2, v⟩, -⟩ := hc
      cases Has.unique a2 a4
      refine BitVec.eq_of_toNat_eq (hn.version.unique (num_congr v fun k h2 h3 => ?_))
      have := b11 (k - inf.offset) (by omega)
      rwa [Nat.add_sub_of_le (by omega)] at this
    · refine ⟨k, s, b2, ?_⟩
      rw [t8 hn.patch b6]
      exact b3
    · have w1 : Num h (inf.offset + 28) 8 (leNat (orig.take 8)) := by
        refine ⟨_, by rw [List.length_take]; omega, (List.take_prefix _ _).trans b9, rfl⟩
      have w2 : Num h (inf.offset + 36) 8 (leNat (orig.drop 8)) := by
        refine ⟨_, by rw [List.length_drop]; omega, ?_, rfl⟩
        obtain ⟨t, ht⟩ := b9
        refine ⟨t, ?_⟩
        rw [show inf.offset + 36 = inf.offset + 28 + 8 by omega, ← List.drop_drop, ← ht,
          List.drop_append_of_le_length (by omega)]
      have x1 : rec.orig0 = BitVec.ofNat 64 (leNat (orig.take 8)) := by
        rw [← hn.orig0.unique w1, BitVec.ofNat_toNat, BitVec.setWidth_eq]
      have x2 : rec.orig1 = BitVec.ofNat 64 (leNat (orig.drop 8)) := by
        rw [← hn.orig1.unique w2, BitVec.ofNat_toNat, BitVec.setWidth_eq]
      dsimp only
      have y1 := leBytes_leNat (orig.take 8) (by rw [List.length_take]; omega)
      have y2 := leBytes_leNat (orig.drop 8) (by rw [List.length_drop]; omega)
      rw [List.length_take, Nat.min_eq_left (by omega)] at y1
      rw [List.length_drop, b8] at y2
      rw [x1, x2, y1, y2, List.take_append_drop]
    · exact (bidText_iff hr _).mpr ⟨note, namesz, descsz, c6, f1, f2, rfl⟩
    · intro name x
      rw [e4]
      exact ⟨fun ⟨k, s, _, h⟩ => ⟨k, s, h⟩, fun ⟨k, s, h⟩ => ⟨k, s, Nat.zero_le _, h⟩⟩

end Ulp.Live
