import Verif.Proof.LoadRewrite
namespace Ulp.LoadBytes
open Load PatchFile

theorem cstr_str {f : List Byte} {off : Nat} {s : List Byte} (hs : f.length < 2 ^ 64) (h : Str f off s) :
    cstr f (BitVec.ofNat 64 off) = some s := by
  have := h.lt
  unfold cstr
  rw [ofNat_toNat (by omega), afterNul_str h.1 h.2, Option.map_some, Nat.add_sub_cancel]
  obtain ⟨t, ht⟩ := h.2
  rw [← ht, List.append_assoc, List.take_left]

theorem symAt_num {f : List Byte} {p n i x v : Nat} (hs : f.length < 2 ^ 64) (hle : p + 24 ≤ f.length)
    (h1 : Num f p 4 n) (h2 : Num f (p + 4) 1 i) (h3 : Num f (p + 6) 2 x) (h4 : Num f (p + 8) 8 v) :
    symAt f (BitVec.ofNat 64 p) = some ⟨n, i, x, BitVec.ofNat 64 v⟩ := by
  unfold symAt
  rw [ofNat_toNat (by omega), if_pos hle, rd_num h1 (by omega) hs,
    rd_num' (b := BitVec.ofNat 64 p + 4) h2 (by omega) hs (BitVec.ofNat_add ..).symm,
    rd_num' (b := BitVec.ofNat 64 p + 6) h3 (by omega) hs (BitVec.ofNat_add ..).symm,
    rd_num' (b := BitVec.ofNat 64 p + 8) h4 (by omega) hs (BitVec.ofNat_add ..).symm]

/-- The value of symbol number `k` after `simplify_symbols`. -/
def newVal (secs : List Sec) (th : BitVec 64) (find : List Byte → Option (BitVec 64)) (k : Nat)
    (s : SymEntry) : Nat :=
  if k = 0 then s.value
  else if s.shndx = 0xfff2 then s.value
  else if s.shndx = 0xfff1 then s.value
  else if s.shndx = 0 then
    if resolveSymbol find s.name = 0 then s.value else (resolveSymbol find s.name).toNat
  else
    match secs[s.shndx]? with
    | some t => (BitVec.ofNat 64 s.value + (th + BitVec.ofNat 64 t.offset)).toNat
    | none => s.value

/-- The result variable after a symbol. -/
def retStep (find : List Byte → Option (BitVec 64)) (ret : Int) (s : SymEntry) : Int :=
  if s.shndx = 0xfff2 then (if (lit "__gnu_lto").isPrefixOf s.name then ret else ENOEXEC)
  else if s.shndx = 0xfff1 then ret
  else if s.shndx = 0 then
    if resolveSymbol find s.name = 0 then (if s.info / 16 = 2 then ret else ENOENT) else 0
  else ret

/-- Sections other than section 0 are at their offset from `th`. -/
def Based (th : BitVec 64) (secs : List Sec) : Prop :=
  ∀ (j : Nat) (s : Sec), 0 < j → secs[j]? = some s → s.addr = (th + BitVec.ofNat 64 s.offset).toNat

/-- The value fields of symbols 1 to `i - 1`. -/
def Values (st : Sec) (i k : Nat) : Prop :=
  ∃ j, 0 < j ∧ j < i ∧ j < st.size / 24 ∧ st.offset + 24 * j + 8 ≤ k ∧ k < st.offset + 24 * j + 16

theorem Values.inSec {st i k} (ht : st.type = 2) (h : Values st i k) : InSec st k := by
  obtain ⟨j, _, _, h1, h2, h3⟩ := h
  exact ⟨by rw [ht]; omega, by omega, by omega⟩

/-- Changes inside the sections of a type other than 3 keep the layout. -/
theorem _root_.Ulp.PatchFile.Laid.keep_secs {f secs o strs} (l : Laid f secs o strs) {W : Nat → Prop}
    {g : List Byte} (hk : Keep W f g)
    (hW : ∀ k, W k → ∃ (i : Nat) (s : Sec), secs[i]? = some s ∧ s.type ≠ 3 ∧ InSec s k) :
    Laid g secs o strs := by
  refine l.keep hk ?_
  intro k hw
  obtain ⟨i, s, hs, ht, hin⟩ := hW k hw
  obtain ⟨h1, h2⟩ := l.headers i s k hs hin
  refine ⟨h1, h2, ?_⟩
  intro hin'
  obtain ⟨x, _, hx⟩ := l.strsAt
  cases l.apart i x s strs k hs hx hin hin'
  rw [hs] at hx; cases hx
  exact ht l.strsType

/-- A stretch inside one section is not changed by changes inside others. -/
theorem _root_.Ulp.PatchFile.Laid.not_changed {f secs o strs} (l : Laid f secs o strs) {W : Nat → Prop}
    {i : Nat} {s : Sec} (hs : secs[i]? = some s)
    (hW : ∀ k, W k → ∃ (j : Nat) (t : Sec), secs[j]? = some t ∧ j ≠ i ∧ InSec t k) {k : Nat}
    (hk : InSec s k) : ¬ W k := by
  intro hw
  obtain ⟨j, t, ht, hne, hin⟩ := hW k hw
  exact hne (l.apart j i t s k ht hs hin hk)

structure SInv (f : List Byte) (secs : List Sec) (th : BitVec 64) (find : List Byte → Option (BitVec 64))
    (st : Sec) (syms : List SymEntry) (i : Nat) (g : List Byte) : Prop where
  keep : Keep (Values st i) f g
  value : ∀ (k : Nat) (s : SymEntry), syms[k]? = some s →
    Num g (st.offset + 24 * k + 8) 8 (if k < i then newVal secs th find k s else s.value)

section
variable {f : List Byte} {secs : List Sec} {o : Nat} {strs : Sec} {th : BitVec 64}
  {find : List Byte → Option (BitVec 64)} {si : Nat} {st str : Sec} {syms : List SymEntry}

theorem Values.inAny {i : Nat} (hS : Symbols f secs si st str syms) {k : Nat} (h : Values st i k) :
    ∃ (i : Nat) (s : Sec), secs[i]? = some s ∧ s.type ≠ 3 ∧ InSec s k :=
  ⟨si, st, hS.sec, by rw [hS.type]; omega, h.inSec hS.type⟩

theorem SInv.laid (l : Laid f secs o strs) (hS : Symbols f secs si st str syms) {i : Nat} {g : List Byte}
    (h : SInv f secs th find st syms i g) : Laid g secs o strs :=
  l.keep_secs h.keep fun _ hw => Values.inAny hS hw

theorem newVal_lt {k : Nat} {s : SymEntry} (h : s.value < 2 ^ 64) : newVal secs th find k s < 2 ^ 64 := by
  unfold newVal
  split; · exact h
  split; · exact h
  split; · exact h
  split
  · split
    · exact h
    · exact BitVec.isLt _
  · split
    · exact BitVec.isLt _
    · exact h

/-- The entry as a later step reads it. -/
theorem SInv.entry (l : Laid f secs o strs) (hS : Symbols f secs si st str syms) {i : Nat} {g : List Byte}
    (h : SInv f secs th find st syms i g) {k : Nat} {s : SymEntry} (hk : syms[k]? = some s) :
    ∃ n, symAt g (BitVec.ofNat 64 (st.offset + 24 * k)) = some ⟨n, s.info, s.shndx,
        BitVec.ofNat 64 (if k < i then newVal secs th find k s else s.value)⟩ ∧
      Str g (str.offset + n) s.name := by
  have he := hS.entries k s hk
  have hkl : k < syms.length := (List.getElem?_eq_some_iff.1 hk).1
  have hc := hS.count
  have hin := l.inside si st hS.sec (by rw [hS.type]; omega)
  have hlen := h.keep.len
  have hsm := l.describes.small
  have hno : ∀ a n, a + n ≤ 8 → ∀ b, st.offset + 24 * k + a ≤ b → b < st.offset + 24 * k + a + n →
      ¬ Values st i b := by
    rintro a n ha b h1 h2 ⟨j, _, _, _, h3, h4⟩
    omega
  obtain ⟨n, h1, h2, h3⟩ := he.name
  refine ⟨n, symAt_num (by omega) (by omega) (h.keep.num h1 (fun b hb1 hb2 => hno 0 4 (by omega) b (by omega) (by omega)))
    (h.keep.num he.info (hno 4 1 (by omega)))
    (h.keep.num he.shndx (hno 6 2 (by omega))) (h.value k s hk), h.keep.str h2 ?_⟩
  intro b h4 h5
  refine l.not_changed hS.link (W := Values st i) ?_ ⟨by rw [hS.strType]; omega, by omega, by omega⟩
  intro k' hv
  refine ⟨si, st, hS.sec, ?_, hv.inSec hS.type⟩
  intro heq
  have h6 := hS.sec
  rw [heq, hS.link] at h6
  cases h6
  have := hS.type
  have := hS.strType
  omega

/-- Storing a value. -/
theorem SInv.put (l : Laid f secs o strs) (hS : Symbols f secs si st str syms) {i : Nat} {g : List Byte}
    (h : SInv f secs th find st syms i g) (hi0 : 0 < i) {s : SymEntry} (hk : syms[i]? = some s) (v : BitVec 64)
    (hv : v.toNat = newVal secs th find i s) :
    ∃ g', put g (BitVec.ofNat 64 (st.offset + 24 * i) + 8) (leBytes 8 v) = some g' ∧
      SInv f secs th find st syms (i + 1) g' := by
  have hkl : i < syms.length := (List.getElem?_eq_some_iff.1 hk).1
  have hc := hS.count
  have hin := l.inside si st hS.sec (by rw [hS.type]; omega)
  have hlen := h.keep.len
  have hsm := l.describes.small
  have hle : st.offset + 24 * i + 8 + (leBytes 8 v).length ≤ g.length := by
    rw [leBytes_length]; omega
  refine ⟨store g (st.offset + 24 * i + 8) (leBytes 8 v), ?_, ?_⟩
  · rw [show BitVec.ofNat 64 (st.offset + 24 * i) + 8 = BitVec.ofNat 64 (st.offset + 24 * i + 8) from
      (BitVec.ofNat_add ..).symm]
    exact put_ofNat (by omega) hle
  have hks := store_keep hle
  rw [leBytes_length] at hks
  refine ⟨(h.keep.mono ?_).trans (hks.mono ?_), ?_⟩
  · rintro k ⟨j, h1, h2, h3⟩; exact ⟨j, h1, by omega, h3⟩
  · rintro k ⟨h1, h2⟩; exact ⟨i, hi0, by omega, by omega, h1, by omega⟩
  · intro k t hkt
    by_cases hki : k = i
    · subst hki
      rw [hk] at hkt; cases hkt
      rw [if_pos (by omega), ← hv]
      have hn := store_num hle
      rw [leBytes_length] at hn
      exact num_leBytes8 hn
    · have := hks.num (h.value k t hkt) (by rintro b h1 h2 ⟨h3, h4⟩; omega)
      by_cases h1 : k < i
      · rw [if_pos h1] at this; rw [if_pos (by omega)]; exact this
      · rw [if_neg h1] at this; rw [if_neg (by omega)]; exact this

/-- Not storing anything. -/
theorem SInv.same {i : Nat} {g : List Byte} (h : SInv f secs th find st syms i g) {s : SymEntry}
    (hk : syms[i]? = some s) (hv : newVal secs th find i s = s.value) :
    SInv f secs th find st syms (i + 1) g := by
  refine ⟨h.keep.mono ?_, ?_⟩
  · rintro k ⟨j, h1, h2, h3⟩; exact ⟨j, h1, by omega, h3⟩
  · intro k t hkt
    have := h.value k t hkt
    by_cases h1 : k < i
    · rw [if_pos h1] at this; rw [if_pos (by omega)]; exact this
    · rw [if_neg h1] at this
      by_cases h2 : k = i
      · subst h2
        rw [hk] at hkt; cases hkt
        rw [if_pos (by omega), hv]; exact this
      · rw [if_neg (by omega)]; exact this

theorem simplifyOne_spec (l : Laid f secs o strs) (hB : Based th secs)
    (hS : Symbols f secs si st str syms) {i : Nat} {g : List Byte}
    (h : SInv f secs th find st syms i g) (hi0 : 0 < i) {s : SymEntry} (hk : syms[i]? = some s) (ret : Int) :
    ∃ g', simplifyOne (BitVec.ofNat 64 o) (BitVec.ofNat 64 str.offset) find g
        (BitVec.ofNat 64 (st.offset + 24 * i)) ret = some (g', retStep find ret s) ∧
      SInv f secs th find st syms (i + 1) g' := by
  obtain ⟨n, h1, h2⟩ := h.entry l hS hk
  have hi0' : ¬ i = 0 := by omega
  have hsm : g.length < 2 ^ 64 := by rw [h.keep.len]; exact l.describes.small
  have hc := cstr_str hsm h2
  rw [BitVec.ofNat_add] at hc
  rw [if_neg (Nat.lt_irrefl i)] at h1
  unfold simplifyOne retStep
  rw [h1]
  dsimp only
  by_cases hcom : s.shndx = 0xfff2
  · rw [if_pos (show s.shndx = SHN_COMMON from hcom), if_pos hcom, hc]
    have := h.same hk (by unfold newVal; rw [if_neg hi0', if_pos hcom])
    dsimp only
    split
    · exact ⟨_, rfl, this⟩
    · exact ⟨_, rfl, this⟩
  rw [if_neg (show ¬ s.shndx = SHN_COMMON from hcom), if_neg hcom]
  by_cases habs : s.shndx = 0xfff1
  · rw [if_pos (show s.shndx = SHN_ABS from habs), if_pos habs]
    exact ⟨_, rfl, h.same hk (by unfold newVal; rw [if_neg hi0', if_neg hcom, if_pos habs])⟩
  rw [if_neg (show ¬ s.shndx = SHN_ABS from habs), if_neg habs]
  by_cases hund : s.shndx = 0
  · rw [if_pos (show s.shndx = SHN_UNDEF from hund), if_pos hund, hc]
    dsimp only
    by_cases hr : resolveSymbol find s.name = 0
    · have := h.same hk (by
        unfold newVal; rw [if_neg hi0', if_neg hcom, if_neg habs, if_pos hund, if_pos hr])
      rw [if_pos hr, if_pos hr]
      by_cases hw : s.info / 16 = 2
      · rw [if_pos (show s.info / 16 = STB_WEAK from hw), if_pos hw]
        exact ⟨_, rfl, this⟩
      · rw [if_neg (show ¬ s.info / 16 = STB_WEAK from hw), if_neg hw]
        exact ⟨_, rfl, this⟩
    · rw [if_neg hr, if_neg hr]
      obtain ⟨g', h3, h4⟩ := h.put l hS hi0 hk (resolveSymbol find s.name) (by
        unfold newVal; rw [if_neg hi0', if_neg hcom, if_neg habs, if_pos hund, if_neg hr])
      rw [h3]
      exact ⟨_, rfl, h4⟩
  · rw [if_neg (show ¬ s.shndx = SHN_UNDEF from hund), if_neg hund]
    have hlt : s.shndx < secs.length := by
      rcases hS.sections s (List.mem_of_getElem? hk) with hh | hh | hh
      · exact hh
      · exact absurd hh habs
      · exact absurd hh hcom
    have ht : secs[s.shndx]? = some secs[s.shndx] := List.getElem?_eq_getElem hlt
    obtain ⟨sh, hsh, hag, _⟩ := (h.laid l hS).hdrAt ht
    rw [hsh]
    dsimp only
    have ha : sh.addr = th + BitVec.ofNat 64 secs[s.shndx].offset := by
      rw [hag.addr, hB _ _ (by omega) ht, BitVec.ofNat_toNat, BitVec.setWidth_eq]
    rw [ha]
    obtain ⟨g', h3, h4⟩ := h.put l hS hi0 hk
        (BitVec.ofNat 64 s.value + (th + BitVec.ofNat 64 secs[s.shndx].offset)) (by
      unfold newVal; rw [if_neg hi0', if_neg hcom, if_neg habs, if_neg hund, ht])
    rw [h3]
    exact ⟨_, rfl, h4⟩

theorem simplifyLoop_spec (l : Laid f secs o strs) (hB : Based th secs)
    (hS : Symbols f secs si st str syms) :
    ∀ fuel i g ret, 0 < i → i ≤ max 1 syms.length → syms.length + 1 < i + fuel → SInv f secs th find st syms i g →
      ∃ g', simplifyLoop (BitVec.ofNat 64 o) (BitVec.ofNat 64 str.offset) find si
          (BitVec.ofNat 64 st.offset) fuel i g ret =
          some (g', (syms.drop i).foldl (retStep find) ret) ∧
        SInv f secs th find st syms (max i syms.length) g' := by
  intro fuel
  induction fuel with
  | zero =>
    intro i g ret hi hi' h1 h
    omega
  | succ fuel ih =>
    intro i g ret hi hi' h1 h
    have l' := h.laid l hS
    obtain ⟨sh, hsh, hag, _⟩ := l'.hdrAt hS.sec
    unfold simplifyLoop
    rw [hsh]
    dsimp only
    have hsz := (l.num64 hS.sec).2.1
    rw [hag.size, ofNat_toNat hsz, hS.count]
    by_cases hlt : i < syms.length
    · rw [if_pos hlt]
      have hk : syms[i]? = some syms[i] := List.getElem?_eq_getElem hlt
      obtain ⟨g', h2, h3⟩ := simplifyOne_spec l hB hS h hi hk ret
      rw [← BitVec.ofNat_add, h2]
      dsimp only
      obtain ⟨g'', h4, h5⟩ := ih (i + 1) g' (retStep find ret syms[i]) (by omega) (by omega) (by omega) h3
      refine ⟨g'', ?_, ?_⟩
      · rw [h4, List.drop_eq_getElem_cons hlt]; rfl
      · rw [Nat.max_eq_right (by omega)] at h5
        rw [Nat.max_eq_right (by omega)]; exact h5
    · rw [if_neg hlt]
      refine ⟨g, ?_, ?_⟩
      · rw [List.drop_of_length_le (by omega)]; rfl
      · rw [Nat.max_eq_left (by omega)]; exact h

theorem simplify_spec (l : Laid f secs o strs) (hB : Based th secs)
    (hS : Symbols f secs si st str syms) :
    ∃ g, simplify (BitVec.ofNat 64 o) (BitVec.ofNat 64 str.offset) th find si f =
        some (g, (syms.drop 1).foldl (retStep find) 0) ∧
      SInv f secs th find st syms (max 1 syms.length) g := by
  obtain ⟨sh, hsh, hag, _⟩ := l.hdrAt hS.sec
  unfold simplify
  rw [hsh]
  dsimp only
  rw [hag.addr, hB _ _ hS.pos hS.sec, BitVec.ofNat_toNat, BitVec.setWidth_eq,
    BitVec.add_comm, BitVec.add_sub_cancel]
  refine simplifyLoop_spec l hB hS _ 1 f 0 (by omega) (by omega) ?_ ?_
  · have := hS.count
    have := l.inside si st hS.sec (by rw [hS.type]; omega)
    omega
  · refine ⟨Keep.refl _ _, ?_⟩
    intro k s hk
    have := (hS.entries k s hk).value
    by_cases h1 : k < 1
    · rw [if_pos h1]
      unfold newVal
      rw [if_pos (by omega)]; exact this
    · rw [if_neg h1]; exact this

/-- The new values are the addresses of the specification. -/
theorem newVal_addr (hS : Symbols f secs si st str syms) {k : Nat} {s : SymEntry}
    (hk : syms[k]? = some s) :
    SymAddr secs th find k s (BitVec.ofNat 64 (newVal secs th find k s)) := by
  unfold newVal
  by_cases h0 : k = 0
  · subst h0; rw [if_pos rfl]; exact .null
  rw [if_neg h0]
  by_cases h1 : s.shndx = 0xfff2
  · rw [if_pos h1]; exact .reserved h0 (.inr h1)
  rw [if_neg h1]
  by_cases h2 : s.shndx = 0xfff1
  · rw [if_pos h2]; exact .reserved h0 (.inl h2)
  rw [if_neg h2]
  by_cases h3 : s.shndx = 0
  · rw [if_pos h3]
    unfold resolveSymbol
    cases hf : find s.name with
    | none => exact .unknown h0 h3 (.inl hf)
    | some a =>
      dsimp only
      by_cases ha : a = 0
      · subst ha; rw [if_pos rfl]; exact .unknown h0 h3 (.inr hf)
      · rw [if_neg ha, BitVec.ofNat_toNat, BitVec.setWidth_eq]
        exact .found h0 h3 hf ha
  · rw [if_neg h3]
    have hlt : s.shndx < secs.length := by
      rcases hS.sections s (List.mem_of_getElem? hk) with hh | hh | hh
      · exact hh
      · exact absurd hh h2
      · exact absurd hh h1
    have ht : secs[s.shndx]? = some secs[s.shndx] := List.getElem?_eq_getElem hlt
    rw [ht]
    dsimp only
    rw [BitVec.ofNat_toNat, BitVec.setWidth_eq, BitVec.add_comm]
    exact .defined h0 h3 h2 h1 ht

theorem SymAt_keep {W : Nat → Prop} {g : List Byte} (hk : Keep W f g) {k : Nat} {s : SymEntry}
    (hst : st.type ≠ 8) (hstr : str.type ≠ 8) (hkl : k < st.size / 24)
    (h : SymAt f st str k s) (h1 : ∀ b, W b → ¬ InSec st b) (h2 : ∀ b, W b → ¬ InSec str b) :
    SymAt g st str k s := by
  have hno : ∀ a n, a + n ≤ 24 → ∀ b, st.offset + 24 * k + a ≤ b → b < st.offset + 24 * k + a + n →
      ¬ W b := fun a n ha b h3 h4 hw => h1 b hw ⟨hst, by omega, by omega⟩
  obtain ⟨n, h3, h4, h5⟩ := h.name
  exact ⟨⟨n, hk.num h3 (fun b hb1 hb2 => hno 0 4 (by omega) b (by omega) (by omega)),
    hk.str h4 fun b hb1 hb2 hw => h2 b hw ⟨hstr, by omega, by omega⟩, h5⟩,
    hk.num h.info (hno 4 1 (by omega)), hk.num h.shndx (hno 6 2 (by omega)),
    hk.num h.value (hno 8 8 (by omega))⟩

/-- Changes outside the symbol table and its strings. -/
theorem Symbols_keep {W : Nat → Prop} {g : List Byte} (hk : Keep W f g)
    (hS : Symbols f secs si st str syms) (h1 : ∀ b, W b → ¬ InSec st b) (h2 : ∀ b, W b → ¬ InSec str b) :
    Symbols g secs si st str syms :=
  { hS with
    entries := fun k s hks => SymAt_keep hk (by rw [hS.type]; omega) (by rw [hS.strType]; omega)
      (by rw [hS.count]; exact (List.getElem?_eq_some_iff.1 hks).1) (hS.entries k s hks) h1 h2 }

/-- The symbol table with the new values. -/
def newSyms (secs : List Sec) (th : BitVec 64) (find : List Byte → Option (BitVec 64))
    (syms : List SymEntry) : List SymEntry :=
  syms.mapIdx fun k s => { s with value := newVal secs th find k s }

theorem newSyms_some {k : Nat} {s : SymEntry} (h : syms[k]? = some s) :
    (newSyms secs th find syms)[k]? = some { s with value := newVal secs th find k s } := by
  unfold newSyms
  rw [List.getElem?_mapIdx, h]; rfl

theorem of_newSyms {k : Nat} {s' : SymEntry} (h : (newSyms secs th find syms)[k]? = some s') :
    ∃ s, syms[k]? = some s ∧ s' = { s with value := newVal secs th find k s } := by
  unfold newSyms at h
  rw [List.getElem?_mapIdx, Option.map_eq_some_iff] at h
  obtain ⟨s, h1, h2⟩ := h
  exact ⟨s, h1, h2.symm⟩

theorem SInv.symbols (l : Laid f secs o strs) (hS : Symbols f secs si st str syms) {g : List Byte}
    (h : SInv f secs th find st syms (max 1 syms.length) g) :
    Symbols g secs si st str (newSyms secs th find syms) := by
  refine { hS with count := ?_, entries := ?_, sections := ?_ }
  · unfold newSyms; rw [List.length_mapIdx]; exact hS.count
  · intro k s' hk'
    obtain ⟨s, hk, rfl⟩ := of_newSyms hk'
    have he := hS.entries k s hk
    have hkl := (List.getElem?_eq_some_iff.1 hk).1
    have hno : ∀ a n, a + n ≤ 8 → ∀ b, st.offset + 24 * k + a ≤ b → b < st.offset + 24 * k + a + n →
        ¬ Values st (max 1 syms.length) b := by
      rintro a n ha b h1 h2 ⟨j, _, _, _, h3, h4⟩
      omega
    obtain ⟨n, h1, h2, h3⟩ := he.name
    have hv := h.value k s hk
    rw [if_pos (by omega)] at hv
    refine ⟨⟨n, h.keep.num h1 (fun b hb1 hb2 => hno 0 4 (by omega) b (by omega) (by omega)),
      h.keep.str h2 ?_, h3⟩, h.keep.num he.info (hno 4 1 (by omega)),
      h.keep.num he.shndx (hno 6 2 (by omega)), hv⟩
    intro b h4 h5
    dsimp only at h5
    refine l.not_changed hS.link (W := Values st (max 1 syms.length)) ?_
      ⟨by rw [hS.strType]; omega, by omega, by omega⟩
    intro k' hw
    refine ⟨si, st, hS.sec, ?_, hw.inSec hS.type⟩
    intro heq
    have h6 := hS.sec
    rw [heq, hS.link] at h6
    cases h6
    have := hS.type
    have := hS.strType
    omega
  · intro s' hm
    obtain ⟨k, hk'⟩ := List.mem_iff_getElem?.1 hm
    obtain ⟨s, hk, rfl⟩ := of_newSyms hk'
    exact hS.sections s (List.mem_of_getElem? hk)
end

end Ulp.LoadBytes
