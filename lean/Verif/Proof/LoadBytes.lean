import Verif.Model.LoadBytes
import Verif.Spec.Linked
import Verif.Proof.LoadSetup
import Verif.Props.Load
namespace Ulp.LoadBytes
open Load PatchFile

/-- `g` is `f` except for bytes in `W`. -/
structure Keep (W : Nat → Prop) (f g : List Byte) : Prop where
  len : g.length = f.length
  same : ∀ k, ¬ W k → g[k]? = f[k]?

theorem Keep.refl (W : Nat → Prop) (f : List Byte) : Keep W f f := ⟨rfl, fun _ _ => rfl⟩

theorem Keep.trans {W f g h} (a : Keep W f g) (b : Keep W g h) : Keep W f h :=
  ⟨b.len.trans a.len, fun k hk => (b.same k hk).trans (a.same k hk)⟩

theorem Keep.mono {W W' : Nat → Prop} {f g} (a : Keep W f g) (h : ∀ k, W k → W' k) : Keep W' f g :=
  ⟨a.len, fun k hk => a.same k fun hw => hk (h k hw)⟩

/-- An unchanged stretch. -/
theorem Keep.window {W : Nat → Prop} {f g} (a : Keep W f g) (off n : Nat)
    (h : ∀ k, off ≤ k → k < off + n → ¬ W k) : (g.drop off).take n = (f.drop off).take n := by
  apply List.ext_getElem?
  intro i
  rw [List.getElem?_take, List.getElem?_take]
  split
  · rw [List.getElem?_drop, List.getElem?_drop]
    exact a.same _ (h _ (by omega) (by omega))
  · rfl

theorem Keep.num {W : Nat → Prop} {f g} (a : Keep W f g) {off n v : Nat} (hv : Num f off n v)
    (h : ∀ k, off ≤ k → k < off + n → ¬ W k) : Num g off n v := by
  obtain ⟨bs, hl, hp, he⟩ := hv
  refine ⟨bs, hl, ?_, he⟩
  rw [List.prefix_iff_eq_take] at hp ⊢
  rw [hl] at hp ⊢
  rw [a.window off n h]; exact hp

theorem Keep.str {W : Nat → Prop} {f g} (a : Keep W f g) {off : Nat} {s : List Byte} (hv : Str f off s)
    (h : ∀ k, off ≤ k → k < off + s.length + 1 → ¬ W k) : Str g off s := by
  refine ⟨hv.1, ?_⟩
  have hp := hv.2
  rw [List.prefix_iff_eq_take] at hp ⊢
  rw [a.window off _ (by
    intro k h1 h2
    rw [List.length_append, List.length_singleton] at h2
    exact h k h1 (by omega))]; exact hp

theorem store_length {img : Image} {p : Nat} {bs : List Byte} (h : p + bs.length ≤ img.length) :
    (store img p bs).length = img.length := by
  unfold store
  rw [List.length_append, List.length_append, List.length_take, List.length_drop]; omega

theorem store_getElem? (img : Image) (p : Nat) (bs : List Byte) (h : p + bs.length ≤ img.length) (k : Nat) :
    (store img p bs)[k]? = if p ≤ k ∧ k < p + bs.length then bs[k - p]? else img[k]? := by
  unfold store
  have hp : (img.take p).length = p := by rw [List.length_take]; omega
  by_cases h1 : k < p
  · rw [if_neg (by omega), List.append_assoc, List.getElem?_append_left (by omega),
      List.getElem?_take_of_lt h1]
  · by_cases h2 : k < p + bs.length
    · rw [if_pos ⟨by omega, h2⟩, List.getElem?_append_left (by rw [List.length_append, hp]; omega),
        List.getElem?_append_right (by omega), hp]
    · rw [if_neg (by omega), List.getElem?_append_right (by rw [List.length_append, hp]; omega),
        List.length_append, hp, List.getElem?_drop]
      congr 1; omega

theorem store_keep {img : Image} {p : Nat} {bs : List Byte} (h : p + bs.length ≤ img.length) :
    Keep (fun k => p ≤ k ∧ k < p + bs.length) img (store img p bs) :=
  ⟨store_length h, fun k hk => by rw [store_getElem? _ _ _ h, if_neg hk]⟩

theorem store_drop_take {img : Image} {p : Nat} {bs : List Byte} (h : p + bs.length ≤ img.length) :
    bs <+: (store img p bs).drop p := by
  have hp : (img.take p).length = p := by rw [List.length_take]; omega
  unfold store
  rw [List.append_assoc, List.drop_append_of_le_length (by omega), List.drop_of_length_le (by omega)]
  exact ⟨_, rfl⟩

theorem store_num {img : Image} {p : Nat} {bs : List Byte} (h : p + bs.length ≤ img.length) :
    Num (store img p bs) p bs.length (leNat bs) :=
  ⟨bs, rfl, store_drop_take h, rfl⟩

theorem put_ofNat {img : Image} {p : Nat} {bs : List Byte} (hs : img.length < 2 ^ 64)
    (h : p + bs.length ≤ img.length) : put img (BitVec.ofNat 64 p) bs = some (store img p bs) := by
  unfold put
  rw [BitVec.toNat_ofNat, Nat.mod_eq_of_lt (by omega), if_pos h]

theorem num_leBytes8 {f : List Byte} {p : Nat} {v : BitVec 64} (h : Num f p 8 (leNat (leBytes 8 v))) :
    Num f p 8 v.toNat := by
  rw [leNat_leBytes, Nat.mod_eq_of_lt v.isLt] at h; exact h

/-! ### Headers -/

theorem hdrAt_eq {f : List Byte} {o : Nat} (hs : f.length < 2 ^ 64) (ho : Num f 40 8 o) (i : Nat) :
    hdrAt f (BitVec.ofNat 64 o) i = shdrAt f i := by
  unfold shdrAt shoff
  rw [show rd f 40 8 = some o from rd_num' ho (by omega) hs rfl]
  rfl

theorem _root_.Ulp.PatchFile.Laid.desc {f secs o strs} (l : Laid f secs o strs) : ∃ x, Desc f secs o x strs := by
  obtain ⟨o', x', strs', h1, h2, h3, h4⟩ := l.describes.table
  obtain ⟨y, hx, hxs⟩ := l.strsAt
  cases l.tab.unique h1
  cases hx.unique h2
  rw [hxs] at h3; cases h3
  exact ⟨_, l.describes.small, l.describes.count, l.tab, hx, hxs, h4⟩

/-- Reading a section header of a file laid out properly. -/
theorem _root_.Ulp.PatchFile.Laid.hdrAt {f secs o strs} (l : Laid f secs o strs) {i : Nat} {s : Sec} (h : secs[i]? = some s) :
    ∃ sh, LoadBytes.hdrAt f (BitVec.ofNat 64 o) i = some sh ∧ Agrees sh s ∧
      Str f (strs.offset + sh.name) s.name := by
  obtain ⟨x, d⟩ := l.desc
  rw [hdrAt_eq d.small d.ho]
  exact d.shdr h

theorem _root_.Ulp.PatchFile.Laid.shnum {f secs o strs} (l : Laid f secs o strs) : Load.shnum f = some secs.length := by
  obtain ⟨x, d⟩ := l.desc
  exact d.num

/-- A change that leaves the ELF header, the section table and the names of the
sections alone. -/
theorem _root_.Ulp.PatchFile.Laid.keep {f secs o strs} (l : Laid f secs o strs) {W : Nat → Prop} {g : List Byte}
    (hk : Keep W f g)
    (hW : ∀ k, W k → 64 ≤ k ∧ (k < o ∨ o + 64 * secs.length ≤ k) ∧ ¬ InSec strs k) :
    Laid g secs o strs := by
  have hlow : ∀ off n, off + n ≤ 64 → ∀ k, off ≤ k → k < off + n → ¬ W k := by
    intro off n h k h1 h2 hw
    have := (hW k hw).1
    omega
  have htab : ∀ i n m : Nat, i < secs.length → n + m ≤ 64 →
      ∀ k, o + 64 * i + n ≤ k → k < o + 64 * i + n + m → ¬ W k := by
    intro i n m hi hn k h1 h2 hw
    have := (hW k hw).2.1
    have : 64 * i + 64 ≤ 64 * secs.length := by omega
    omega
  obtain ⟨x, d⟩ := l.desc
  obtain ⟨x', hx, hxs⟩ := l.strsAt
  have hnames : ∀ (i : Nat) (s : Sec), secs[i]? = some s → ∃ n, Num g (o + 64 * i) 4 n ∧
      Str g (strs.offset + n) s.name ∧ n + s.name.length < strs.size := by
    intro i s hi
    have hlt := (List.getElem?_eq_some_iff.1 hi).1
    obtain ⟨n, h1, h2, h3⟩ := l.names i s hi
    refine ⟨n, hk.num h1 fun k a b => htab i 0 4 hlt (by omega) k (by omega) (by omega),
      hk.str h2 ?_, h3⟩
    intro k a b hw
    exact (hW k hw).2.2 ⟨by rw [l.strsType]; omega, by omega, by omega⟩
  have hhdr : ∀ (i : Nat) (s : Sec), secs[i]? = some s → Header g strs.offset (o + 64 * i) s := by
    intro i s hi
    have hlt := (List.getElem?_eq_some_iff.1 hi).1
    have h := d.hdr i s hi
    obtain ⟨n, h1, h2, _⟩ := hnames i s hi
    exact ⟨⟨n, h1, h2⟩, hk.num h.type (htab i 4 4 hlt (by omega)),
      hk.num h.flags (htab i 8 8 hlt (by omega)), hk.num h.addr (htab i 16 8 hlt (by omega)),
      hk.num h.offset (htab i 24 8 hlt (by omega)), hk.num h.size (htab i 32 8 hlt (by omega)),
      hk.num h.link (htab i 40 4 hlt (by omega)), hk.num h.info (htab i 44 4 hlt (by omega)),
      by rw [hk.len]; exact h.fits⟩
  exact {
    describes := ⟨by rw [hk.len]; exact l.describes.small,
      hk.num l.describes.count (hlow _ _ (by omega)),
      ⟨o, x', strs, hk.num l.tab (hlow _ _ (by omega)), hk.num hx (hlow _ _ (by omega)), hxs, hhdr⟩⟩
    tab := hk.num l.tab (hlow _ _ (by omega))
    strsAt := ⟨x', hk.num hx (hlow _ _ (by omega)), hxs⟩
    strsType := l.strsType
    tabFrom := l.tabFrom
    tabTo := by rw [hk.len]; exact l.tabTo
    inside := by rw [hk.len]; exact l.inside
    headers := l.headers
    apart := l.apart
    names := hnames }

/-- A section header with other addresses and flags. -/
structure SecUpd (u : Nat → Sec → Sec) : Prop where
  name : ∀ i s, (u i s).name = s.name
  type : ∀ i s, (u i s).type = s.type
  offset : ∀ i s, (u i s).offset = s.offset
  size : ∀ i s, (u i s).size = s.size
  link : ∀ i s, (u i s).link = s.link
  info : ∀ i s, (u i s).info = s.info

/-- The bytes of the section table that hold addresses and flags. -/
def AddrFlags (o n k : Nat) : Prop := ∃ i, i < n ∧ o + 64 * i + 8 ≤ k ∧ k < o + 64 * i + 24

theorem getElem?_mapIdx {u : Nat → Sec → Sec} {secs : List Sec} {i : Nat} {s' : Sec}
    (h : (secs.mapIdx u)[i]? = some s') : ∃ s, secs[i]? = some s ∧ s' = u i s := by
  rw [List.getElem?_mapIdx, Option.map_eq_some_iff] at h
  obtain ⟨s, h1, h2⟩ := h
  exact ⟨s, h1, h2.symm⟩

theorem mapIdx_some {u : Nat → Sec → Sec} {secs : List Sec} {i : Nat} {s : Sec}
    (h : secs[i]? = some s) : (secs.mapIdx u)[i]? = some (u i s) := by
  rw [List.getElem?_mapIdx, h]; rfl

/-- Changing addresses and flags in the section table. -/
theorem _root_.Ulp.PatchFile.Laid.upd {f secs o strs} (l : Laid f secs o strs) {u : Nat → Sec → Sec} (hu : SecUpd u)
    {g : List Byte} (hk : Keep (AddrFlags o secs.length) f g)
    (ha : ∀ (i : Nat) (s : Sec), secs[i]? = some s → Num g (o + 64 * i + 16) 8 (u i s).addr)
    (hf : ∀ (i : Nat) (s : Sec), secs[i]? = some s → Num g (o + 64 * i + 8) 8 (u i s).flags) :
    ∃ x, Num f 62 2 x ∧ secs[x]? = some strs ∧ Laid g (secs.mapIdx u) o (u x strs) := by
  have hlow : ∀ off n, off + n ≤ 64 → ∀ k, off ≤ k → k < off + n → ¬ AddrFlags o secs.length k := by
    rintro off n h k h1 h2 ⟨i, hi, h3, h4⟩
    have := l.tabFrom
    omega
  have htab : ∀ i n m : Nat, i < secs.length → n + m ≤ 8 ∨ 24 ≤ n ∧ n + m ≤ 64 →
      ∀ k, o + 64 * i + n ≤ k → k < o + 64 * i + n + m → ¬ AddrFlags o secs.length k := by
    rintro i n m hi hn k h1 h2 ⟨j, hj, h3, h4⟩
    rcases Nat.lt_trichotomy i j with h | h | h
    · have : 64 * i + 64 ≤ 64 * j := by omega
      omega
    · subst h; omega
    · have : 64 * j + 64 ≤ 64 * i := by omega
      omega
  obtain ⟨x', d⟩ := l.desc
  obtain ⟨x, hx, hxs⟩ := l.strsAt
  have hsec : ∀ (i : Nat) (s : Sec) (k : Nat), secs[i]? = some s → InSec s k →
      ¬ AddrFlags o secs.length k := by
    rintro i s k hs hin ⟨j, hj, h3, h4⟩
    have := l.headers i s k hs hin
    have : 64 * j + 64 ≤ 64 * secs.length := by omega
    omega
  have hnames : ∀ (i : Nat) (s : Sec), secs[i]? = some s → ∃ n, Num g (o + 64 * i) 4 n ∧
      Str g (strs.offset + n) s.name ∧ n + s.name.length < strs.size := by
    intro i s hi
    have hlt := (List.getElem?_eq_some_iff.1 hi).1
    obtain ⟨n, h1, h2, h3⟩ := l.names i s hi
    refine ⟨n, hk.num h1 fun k a b => htab i 0 4 hlt (by omega) k (by omega) (by omega),
      hk.str h2 ?_, h3⟩
    intro k a b
    exact hsec x strs k hxs ⟨by rw [l.strsType]; omega, by omega, by omega⟩
  have hhdr : ∀ (i : Nat) (s : Sec), (secs.mapIdx u)[i]? = some s →
      Header g (u x strs).offset (o + 64 * i) s := by
    intro i s' hi'
    obtain ⟨s, hi, rfl⟩ := getElem?_mapIdx hi'
    have hlt := (List.getElem?_eq_some_iff.1 hi).1
    have h := d.hdr i s hi
    obtain ⟨n, h1, h2, _⟩ := hnames i s hi
    rw [hu.offset]
    exact ⟨⟨n, h1, by rw [hu.name]; exact h2⟩,
      by rw [hu.type]; exact hk.num h.type (htab i 4 4 hlt (by omega)),
      hf i s hi, ha i s hi,
      by rw [hu.offset]; exact hk.num h.offset (htab i 24 8 hlt (by omega)),
      by rw [hu.size]; exact hk.num h.size (htab i 32 8 hlt (by omega)),
      by rw [hu.link]; exact hk.num h.link (htab i 40 4 hlt (by omega)),
      by rw [hu.info]; exact hk.num h.info (htab i 44 4 hlt (by omega)),
      by rw [hk.len]; exact h.fits⟩
  refine ⟨x, hx, hxs, ?_⟩
  exact {
    describes := ⟨by rw [hk.len]; exact l.describes.small,
      by rw [List.length_mapIdx]; exact hk.num l.describes.count (hlow _ _ (by omega)),
      ⟨o, x, u x strs, hk.num l.tab (hlow _ _ (by omega)), hk.num hx (hlow _ _ (by omega)),
        mapIdx_some hxs, hhdr⟩⟩
    tab := hk.num l.tab (hlow _ _ (by omega))
    strsAt := ⟨x, hk.num hx (hlow _ _ (by omega)), mapIdx_some hxs⟩
    strsType := by rw [hu.type]; exact l.strsType
    tabFrom := l.tabFrom
    tabTo := by rw [hk.len, List.length_mapIdx]; exact l.tabTo
    inside := by
      intro i s' hi'
      obtain ⟨s, hi, rfl⟩ := getElem?_mapIdx hi'
      rw [hk.len, hu.offset, hu.size, hu.type]; exact l.inside i s hi
    headers := by
      intro i s' k hi' hin
      obtain ⟨s, hi, rfl⟩ := getElem?_mapIdx hi'
      unfold InSec at hin
      rw [hu.offset, hu.size, hu.type] at hin
      rw [List.length_mapIdx]; exact l.headers i s k hi hin
    apart := by
      intro i j s' t' k hi' hj' hin hin'
      obtain ⟨s, hi, rfl⟩ := getElem?_mapIdx hi'
      obtain ⟨t, hj, rfl⟩ := getElem?_mapIdx hj'
      unfold InSec at hin hin'
      rw [hu.offset, hu.size, hu.type] at hin hin'
      exact l.apart i j s t k hi hj hin hin'
    names := by
      intro i s' hi'
      obtain ⟨s, hi, rfl⟩ := getElem?_mapIdx hi'
      rw [hu.offset, hu.size, hu.name]
      exact hnames i s hi }

end Ulp.LoadBytes
