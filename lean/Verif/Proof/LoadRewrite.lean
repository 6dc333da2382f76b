import Verif.Proof.LoadBytes
namespace Ulp.LoadBytes
open Load PatchFile

/-- The address of section number `j` in the target. -/
def newAddr (th : BitVec 64) (j : Nat) (s : Sec) : Nat :=
  if j = 0 then 0 else (th + BitVec.ofNat 64 s.offset).toNat

/-- The section after `rewrite_section_headers` has dealt with sections below `i`. -/
def upTo (th : BitVec 64) (i : Nat) (j : Nat) (s : Sec) : Sec :=
  { s with addr := if j < i then newAddr th j s else s.addr }

theorem upTo_upd (th : BitVec 64) (i : Nat) : SecUpd (upTo th i) :=
  ⟨fun _ _ => rfl, fun _ _ => rfl, fun _ _ => rfl, fun _ _ => rfl, fun _ _ => rfl, fun _ _ => rfl⟩

/-- Flags of `.ulpatch.info` after loading. -/
def newFlags (s : Sec) : Nat := (BitVec.ofNat 64 s.flags &&& ~~~SHF_ALLOC ||| SHF_RELA_LIVEPATCH).toNat

/-- A section after `rewrite_section_headers`. -/
def rewritten (th : BitVec 64) (ii : Nat) (j : Nat) (s : Sec) : Sec :=
  { s with addr := newAddr th j s, flags := if j = ii then newFlags s else s.flags }

theorem rewritten_upd (th : BitVec 64) (ii : Nat) : SecUpd (rewritten th ii) :=
  ⟨fun _ _ => rfl, fun _ _ => rfl, fun _ _ => rfl, fun _ _ => rfl, fun _ _ => rfl, fun _ _ => rfl⟩

/-- The address fields of the section table. -/
def Addrs (o n k : Nat) : Prop := ∃ i, i < n ∧ o + 64 * i + 16 ≤ k ∧ k < o + 64 * i + 24

theorem Addrs.af {o n k} (h : Addrs o n k) : AddrFlags o n k := by
  obtain ⟨i, h1, h2, h3⟩ := h
  exact ⟨i, h1, by omega, h3⟩

structure RInv (f : List Byte) (secs : List Sec) (o : Nat) (th : BitVec 64) (i : Nat) (g : List Byte) :
    Prop where
  keep : Keep (Addrs o secs.length) f g
  addr : ∀ (j : Nat) (s : Sec), secs[j]? = some s → Num g (o + 64 * j + 16) 8 (upTo th i j s).addr

theorem RInv.laid {f secs o th i g strs} (l : Laid f secs o strs) (h : RInv f secs o th i g) :
    ∃ x, Num f 62 2 x ∧ secs[x]? = some strs ∧
      Laid g (secs.mapIdx (upTo th i)) o (upTo th i x strs) := by
  refine l.upd (upTo_upd th i) (h.keep.mono fun _ => Addrs.af) h.addr ?_
  intro j s hj
  obtain ⟨x, d⟩ := l.desc
  refine h.keep.num (d.hdr j s hj).flags ?_
  rintro k h1 h2 ⟨i', _, h3, h4⟩
  rcases Nat.lt_trichotomy i' j with hh | hh | hh <;> omega

/-- A non-empty section without bytes, or a non-empty `.bss`. -/
def Bss (s : Sec) : Prop := (s.type = 8 ∨ s.name = ascii ".bss") ∧ 0 < s.size

instance (s : Sec) : Decidable (Bss s) := by unfold Bss; infer_instance

theorem ofNat_toNat {n : Nat} (h : n < 2 ^ 64) : (BitVec.ofNat 64 n).toNat = n := by
  rw [BitVec.toNat_ofNat, Nat.mod_eq_of_lt h]

theorem _root_.Ulp.PatchFile.Laid.num64 {f secs o strs} (l : Laid f secs o strs) {j : Nat} {s : Sec}
    (h : secs[j]? = some s) : s.offset < 2 ^ 64 ∧ s.size < 2 ^ 64 ∧ s.flags < 2 ^ 64 ∧ s.addr < 2 ^ 64 := by
  obtain ⟨x, d⟩ := l.desc
  have hd := d.hdr j s h
  exact ⟨hd.offset.lt, hd.size.lt, hd.flags.lt, hd.addr.lt⟩

/-- What one round of the loop decides. -/
theorem rewriteOne_spec {f secs o strs} (l : Laid f secs o strs) {j : Nat} {s : Sec} {sh : Shdr}
    (h : secs[j]? = some s) (ha : Agrees sh s) (hn : Str f (strs.offset + sh.name) s.name)
    (th : BitVec 64) :
    rewriteOne f (BitVec.ofNat 64 strs.offset) th sh =
      some (if Bss s then .error EFAULT else .ok { sh with addr := th + BitVec.ofNat 64 s.offset }) := by
  have hsm := l.describes.small
  obtain ⟨h1, h2, _, _⟩ := l.num64 h
  unfold rewriteOne
  rw [ha.type, ha.offset, ha.size, if_neg]
  · have hb : strEq f (BitVec.ofNat 64 strs.offset + BitVec.ofNat 64 sh.name) (lit ".bss") =
        some (decide (s.name = lit ".bss")) := by
      rw [← BitVec.ofNat_add]
      exact strEq_str hsm _ hn (by decide)
    have h0 : (0 < BitVec.ofNat 64 s.size) ↔ 0 < s.size := by
      rw [BitVec.lt_def, ofNat_toNat h2]; rfl
    rw [hb]
    by_cases ht : s.type = SHT_NOBITS
    · rw [if_pos ht]
      dsimp only
      by_cases h3 : 0 < s.size
      · rw [if_pos ⟨rfl, h0.2 h3⟩, if_pos ⟨.inl ht, h3⟩]
      · rw [if_neg (fun hh => h3 (h0.1 hh.2)), if_neg (fun hh => h3 hh.2)]
    · rw [if_neg ht]
      dsimp only
      by_cases h3 : s.name = ascii ".bss" ∧ 0 < s.size
      · rw [if_pos ⟨decide_eq_true h3.1, h0.2 h3.2⟩, if_pos ⟨.inr h3.1, h3.2⟩]
      · rw [if_neg (fun hh => h3 ⟨of_decide_eq_true hh.1, h0.1 hh.2⟩), if_neg]
        rintro ⟨hh | hh, h4⟩
        · exact ht hh
        · exact h3 ⟨hh, h4⟩
  · rintro ⟨hh, hlt⟩
    have := l.inside j s h hh
    rw [← BitVec.ofNat_add, BitVec.lt_def, ofNat_toNat hsm, ofNat_toNat (by omega)] at hlt
    omega

theorem hdrPtr_add (o i n : Nat) :
    hdrPtr (BitVec.ofNat 64 o) i + BitVec.ofNat 64 n = BitVec.ofNat 64 (o + 64 * i + n) := by
  unfold hdrPtr
  rw [BitVec.ofNat_add, BitVec.ofNat_add]

theorem RInv.step {f secs o th i g strs} (l : Laid f secs o strs) (h : RInv f secs o th i g)
    {s : Sec} (hi : secs[i]? = some s) :
    ∃ g', put g (hdrPtr (BitVec.ofNat 64 o) i + 16) (leBytes 8 (BitVec.ofNat 64 (newAddr th i s))) = some g' ∧
      RInv f secs o th (i + 1) g' := by
  have hlt : i < secs.length := (List.getElem?_eq_some_iff.1 hi).1
  have htab := l.tabTo
  have hlen : g.length = f.length := h.keep.len
  have hsm := l.describes.small
  have hle : o + 64 * i + 16 + (leBytes 8 (BitVec.ofNat 64 (newAddr th i s))).length ≤ g.length := by
    rw [leBytes_length]; omega
  refine ⟨store g (o + 64 * i + 16) (leBytes 8 (BitVec.ofNat 64 (newAddr th i s))), ?_, ?_⟩
  · rw [show (16 : BitVec 64) = BitVec.ofNat 64 16 from rfl, hdrPtr_add]
    exact put_ofNat (by omega) hle
  have hk := store_keep hle
  rw [leBytes_length] at hk
  refine ⟨h.keep.trans (hk.mono ?_), ?_⟩
  · rintro k ⟨h1, h2⟩; exact ⟨i, hlt, h1, by omega⟩
  · intro j t hj
    by_cases hji : j = i
    · subst hji
      rw [hi] at hj; cases hj
      have hn := store_num hle
      rw [leBytes_length] at hn
      have := num_leBytes8 hn
      rw [ofNat_toNat] at this
      · unfold upTo; dsimp only; rw [if_pos (by omega)]; exact this
      · unfold newAddr; split
        · omega
        · exact BitVec.isLt _
    · have hsame : (upTo th (i + 1) j t).addr = (upTo th i j t).addr := by
        unfold upTo; dsimp only
        by_cases h1 : j < i
        · rw [if_pos h1, if_pos (by omega)]
        · rw [if_neg h1, if_neg (by omega)]
      rw [hsame]
      refine hk.num (h.addr j t hj) ?_
      rintro k h1 h2 ⟨h3, h4⟩
      rcases Nat.lt_trichotomy i j with hh | hh | hh <;> omega

theorem rewriteLoop_spec {f secs o strs} (l : Laid f secs o strs) (th : BitVec 64) :
    ∀ fuel i g, 0 < i → i ≤ secs.length → secs.length < i + fuel → RInv f secs o th i g →
      ∃ g' e, rewriteLoop (BitVec.ofNat 64 o) (BitVec.ofNat 64 strs.offset) th fuel i g = some (g', e) ∧
        ((e = 0 ∧ RInv f secs o th secs.length g' ∧
            ∀ (j : Nat) (s : Sec), i ≤ j → secs[j]? = some s → ¬ Bss s) ∨
          (e = EFAULT ∧ ∃ (j : Nat) (s : Sec), i ≤ j ∧ secs[j]? = some s ∧ Bss s)) := by
  intro fuel
  induction fuel with
  | zero => intro i g _ h1 h2 _; omega
  | succ fuel ih =>
    intro i g h0 h1 h2 hI
    obtain ⟨x, hx, hxs, l'⟩ := hI.laid l
    unfold rewriteLoop
    rw [l'.shnum]
    dsimp only
    rw [List.length_mapIdx]
    by_cases hlt : i < secs.length
    · rw [if_pos hlt]
      have hs : secs[i]? = some secs[i] := List.getElem?_eq_getElem hlt
      obtain ⟨sh, hsh, hag, hnm⟩ := l'.hdrAt (mapIdx_some hs)
      rw [hsh]
      dsimp only
      have ho := rewriteOne_spec l' (mapIdx_some hs) hag hnm th
      rw [(upTo_upd th i).offset, (upTo_upd th i).offset] at ho
      rw [ho]
      have hb : Bss (upTo th i i secs[i]) ↔ Bss secs[i] := Iff.rfl
      by_cases hbss : Bss secs[i]
      · rw [if_pos (hb.2 hbss)]
        exact ⟨_, _, rfl, .inr ⟨rfl, i, _, Nat.le_refl _, hs, hbss⟩⟩
      · rw [if_neg (fun hh => hbss (hb.1 hh))]
        dsimp only
        obtain ⟨g', hp, hI'⟩ := hI.step l hs
        have hna : BitVec.ofNat 64 (newAddr th i secs[i]) = th + BitVec.ofNat 64 secs[i].offset := by
          unfold newAddr
          rw [if_neg (by omega), BitVec.ofNat_toNat, BitVec.setWidth_eq]
        rw [hna] at hp
        rw [hp]
        dsimp only
        obtain ⟨g'', e, h3, h4⟩ := ih (i + 1) g' (by omega) (by omega) (by omega) hI'
        refine ⟨g'', e, h3, ?_⟩
        rcases h4 with ⟨h5, h6, h7⟩ | ⟨h5, j, s, h6, h7⟩
        · refine .inl ⟨h5, h6, ?_⟩
          intro j s hj hjs
          rcases Nat.lt_or_ge i j with hh | hh
          · exact h7 j s hh hjs
          · cases Nat.le_antisymm hj hh
            rw [hs] at hjs; cases hjs; exact hbss
        · exact .inr ⟨h5, j, s, by omega, h7⟩
    · rw [if_neg hlt]
      refine ⟨g, 0, rfl, .inl ⟨rfl, ?_, ?_⟩⟩
      · rw [show secs.length = i by omega]; exact hI
      · intro j s hj hjs
        have := (List.getElem?_eq_some_iff.1 hjs).1
        omega

/-- The flags field of section header `ii`. -/
def FlagsOf (o ii k : Nat) : Prop := o + 64 * ii + 8 ≤ k ∧ k < o + 64 * ii + 16

/-- `rewrite_section_headers` on a file laid out properly. -/
theorem rewriteHeaders_spec {f secs o strs} (l : Laid f secs o strs) (th : BitVec 64) {ii : Nat}
    (hii : ii < secs.length) :
    ∃ g e, rewriteHeaders (BitVec.ofNat 64 o) (BitVec.ofNat 64 strs.offset) th ii f = some (g, e) ∧
      ((e = EFAULT ∧ ∃ (j : Nat) (s : Sec), 0 < j ∧ secs[j]? = some s ∧ Bss s) ∨
       (e = 0 ∧ (∀ (j : Nat) (s : Sec), 0 < j → secs[j]? = some s → ¬ Bss s) ∧
        Keep (fun k => Addrs o secs.length k ∨ FlagsOf o ii k) f g ∧
        ∃ x, Num f 62 2 x ∧ secs[x]? = some strs ∧
          Laid g (secs.mapIdx (rewritten th ii)) o (rewritten th ii x strs))) := by
  have hpos : 0 < secs.length := by omega
  have hs0 : secs[0]? = some secs[0] := List.getElem?_eq_getElem hpos
  have hn16 : secs.length < 2 ^ 16 := l.describes.count.lt
  have hI0 : RInv f secs o th 0 f := by
    refine ⟨Keep.refl _ _, ?_⟩
    intro j s hj
    obtain ⟨x, d⟩ := l.desc
    exact (d.hdr j s hj).addr
  obtain ⟨g0, hp0, hI1⟩ := hI0.step l hs0
  rw [show BitVec.ofNat 64 (newAddr th 0 secs[0]) = 0 from rfl] at hp0
  unfold rewriteHeaders
  rw [hp0]
  dsimp only
  obtain ⟨g1, e, h1, h2⟩ := rewriteLoop_spec l th (2 ^ 16) 1 g0 (by omega) (by omega) (by omega) hI1
  rw [h1]
  dsimp only
  rcases h2 with ⟨rfl, hI, hnb⟩ | ⟨rfl, j, s, hj, hjs, hb⟩
  case inr => 
    rw [if_pos (by decide)]
    exact ⟨_, _, rfl, .inl ⟨rfl, j, s, by omega, hjs, hb⟩⟩
  rw [if_neg (by decide)]
  obtain ⟨x, hx, hxs, l1⟩ := hI.laid l
  have hsi : secs[ii]? = some secs[ii] := List.getElem?_eq_getElem hii
  obtain ⟨sh, hsh, hag, _⟩ := l1.hdrAt (mapIdx_some hsi)
  rw [hsh]
  dsimp only
  have htab := l.tabTo
  have hlen := hI.keep.len
  have hsm := l.describes.small
  rw [hag.flags, show (BitVec.ofNat 64 (upTo th secs.length ii secs[ii]).flags &&& ~~~SHF_ALLOC |||
    SHF_RELA_LIVEPATCH) = BitVec.ofNat 64 (newFlags secs[ii]) by
      unfold newFlags
      rw [BitVec.ofNat_toNat, BitVec.setWidth_eq]; rfl]
  have hle : o + 64 * ii + 8 + (leBytes 8 (BitVec.ofNat 64 (newFlags secs[ii]))).length ≤ g1.length := by
    rw [leBytes_length]; omega
  rw [show (8 : BitVec 64) = BitVec.ofNat 64 8 from rfl, hdrPtr_add, put_ofNat (by omega) hle]
  dsimp only
  have hk := store_keep hle
  rw [leBytes_length] at hk
  have hkk : Keep (fun k => Addrs o secs.length k ∨ FlagsOf o ii k) f
      (store g1 (o + 64 * ii + 8) (leBytes 8 (BitVec.ofNat 64 (newFlags secs[ii])))) :=
    (hI.keep.mono fun _ => .inl).trans (hk.mono fun k hh => .inr ⟨hh.1, by omega⟩)
  refine ⟨_, _, rfl, .inr ⟨rfl, fun j s hj => hnb j s (by omega), hkk, ?_⟩⟩
  refine l.upd (rewritten_upd th ii) (hkk.mono ?_) ?_ ?_
  · rintro k (hh | hh)
    · exact hh.af
    · exact ⟨ii, hii, hh.1, by have := hh.2; omega⟩
  · intro j s hj
    have hjl := (List.getElem?_eq_some_iff.1 hj).1
    have := hI.addr j s hj
    unfold upTo at this
    dsimp only at this
    rw [if_pos hjl] at this
    refine hk.num this ?_
    rintro k h3 h4 ⟨h5, h6⟩
    rcases Nat.lt_trichotomy ii j with hh | hh | hh <;> omega
  · intro j s hj
    unfold rewritten
    dsimp only
    by_cases hji : j = ii
    · subst hji
      rw [hsi] at hj; cases hj
      rw [if_pos rfl]
      have hn := store_num hle
      rw [leBytes_length] at hn
      have := num_leBytes8 hn
      rw [ofNat_toNat (by unfold newFlags; exact BitVec.isLt _)] at this
      exact this
    · rw [if_neg hji]
      obtain ⟨x, d⟩ := l.desc
      refine hkk.num (d.hdr j s hj).flags ?_
      rintro k h3 h4 (⟨i', hi', h5, h6⟩ | ⟨h5, h6⟩)
      · rcases Nat.lt_trichotomy i' j with hh | hh | hh <;> omega
      · rcases Nat.lt_trichotomy ii j with hh | hh | hh <;> omega

end Ulp.LoadBytes
