import Verif.Proof.LoadReloc
namespace Ulp.LoadBytes
open Load PatchFile

section
variable {f : List Byte} {secs : List Sec} {o : Nat} {strs : Sec} {si : Nat} {st str : Sec}
  {syms : List SymEntry}

theorem findSrc_spec (l : Laid f secs o strs) (hS : Symbols f secs si st str syms) (src : List Byte) :
    ∀ fuel i acc, i ≤ syms.length → syms.length < i + fuel →
      ((acc = none ∧ ∀ (k : Nat) (s : SymEntry), k < i → syms[k]? = some s → s.name ≠ src) ∨
        ∃ (k : Nat) (s : SymEntry) (n : Nat), k < i ∧ syms[k]? = some s ∧ s.name = src ∧
          (∀ (k' : Nat) (s' : SymEntry), k < k' → k' < i → syms[k']? = some s' → s'.name ≠ src) ∧
          acc = some ⟨n, s.info, s.shndx, BitVec.ofNat 64 s.value⟩) →
      ∃ res, findSrc (BitVec.ofNat 64 o) (BitVec.ofNat 64 str.offset) si (BitVec.ofNat 64 st.offset) src f
          fuel i acc = some res ∧
        ((res = none ∧ ∀ s ∈ syms, s.name ≠ src) ∨
          ∃ k s n, LastNamed syms src k s ∧ res = some ⟨n, s.info, s.shndx, BitVec.ofNat 64 s.value⟩) := by
  intro fuel
  induction fuel with
  | zero => intro i acc h1 h2; omega
  | succ fuel ih =>
    intro i acc h1 h2 hI
    obtain ⟨sh, hsh, hag, _⟩ := l.hdrAt hS.sec
    unfold findSrc
    rw [hsh]
    dsimp only
    rw [hag.size, ofNat_toNat (l.num64 hS.sec).2.1, hS.count]
    by_cases hlt : i < syms.length
    · rw [if_pos hlt]
      have hk : syms[i]? = some syms[i] := List.getElem?_eq_getElem hlt
      generalize syms[i] = s at hk
      obtain ⟨n, h3, h4⟩ := Symbols_symAt l hS hk
      rw [← BitVec.ofNat_add, h3]
      dsimp only
      rw [← BitVec.ofNat_add, cstr_str l.describes.small h4]
      dsimp only
      refine ih (i + 1) _ (by omega) (by omega) ?_
      by_cases hn : s.name = src
      · rw [if_pos hn]
        exact .inr ⟨i, s, n, by omega, hk, hn, by intro k' s' h5 h6; omega, rfl⟩
      · rw [if_neg hn]
        have ext : ∀ (k' : Nat) (s' : SymEntry), ¬ k' < i → k' < i + 1 → syms[k']? = some s' →
            s'.name ≠ src := by
          intro k' s' h5 h6 h7
          cases show k' = i by omega
          rw [hk] at h7; cases h7; exact hn
        rcases hI with ⟨h5, h6⟩ | ⟨k, t, n', h5, h6, h7, h8, h9⟩
        · refine .inl ⟨h5, ?_⟩
          intro k' s' h7 h8
          by_cases h9 : k' < i
          · exact h6 k' s' h9 h8
          · exact ext k' s' h9 h7 h8
        · refine .inr ⟨k, t, n', by omega, h6, h7, ?_, h9⟩
          intro k' s' h10 h11 h12
          by_cases h13 : k' < i
          · exact h8 k' s' h10 h13 h12
          · exact ext k' s' h13 h11 h12
    · rw [if_neg hlt]
      refine ⟨acc, rfl, ?_⟩
      rcases hI with ⟨h5, h6⟩ | ⟨k, t, n', h5, h6, h7, h8, h9⟩
      · refine .inl ⟨h5, ?_⟩
        intro s hm
        obtain ⟨k, hk⟩ := List.mem_iff_getElem?.1 hm
        exact h6 k s (by have := (List.getElem?_eq_some_iff.1 hk).1; omega) hk
      · refine .inr ⟨k, t, n', ⟨h6, h7, ?_⟩, h9⟩
        intro k' s' h10 h11
        exact h8 k' s' h10 (by have := (List.getElem?_eq_some_iff.1 h11).1; omega) h11

theorem readInfo_some {g : List Byte} (hs : g.length < 2 ^ 64) {p : Nat} (h : p + 64 ≤ g.length) :
    ∃ r, readInfo g (BitVec.ofNat 64 p) = some r := by
  have e : ∀ k : Nat, BitVec.ofNat 64 p + BitVec.ofNat 64 k = BitVec.ofNat 64 (p + k) := by
    intro k; rw [BitVec.ofNat_add]
  have key : ∀ k n, 0 < n → k + n ≤ 64 → ∃ v, rd g (BitVec.ofNat 64 p + BitVec.ofNat 64 k) n = some v :=
    fun k n hn hk => ⟨_, rd_num' (Num.of_le (f := g) (off := p + k) (n := n) (by omega)) hn hs (e k)⟩
  obtain ⟨a, ha⟩ := key 0 4 (by omega) (by omega)
  obtain ⟨b, hb⟩ := key 4 8 (by omega) (by omega)
  obtain ⟨c, hc⟩ := key 12 8 (by omega) (by omega)
  obtain ⟨d, hd⟩ := key 20 8 (by omega) (by omega)
  obtain ⟨e', he⟩ := key 28 8 (by omega) (by omega)
  obtain ⟨f', hf⟩ := key 36 8 (by omega) (by omega)
  obtain ⟨g', hg⟩ := key 44 8 (by omega) (by omega)
  obtain ⟨h', hh⟩ := key 52 4 (by omega) (by omega)
  obtain ⟨i, hi⟩ := key 56 4 (by omega) (by omega)
  obtain ⟨j, hj⟩ := key 60 4 (by omega) (by omega)
  rw [show BitVec.ofNat 64 p + BitVec.ofNat 64 0 = BitVec.ofNat 64 p from e 0] at ha
  unfold readInfo
  rw [ha, show rd g (BitVec.ofNat 64 p + 4) 8 = _ from hb, show rd g (BitVec.ofNat 64 p + 12) 8 = _ from hc,
      show rd g (BitVec.ofNat 64 p + 20) 8 = _ from hd, show rd g (BitVec.ofNat 64 p + 28) 8 = _ from he,
      show rd g (BitVec.ofNat 64 p + 36) 8 = _ from hf, show rd g (BitVec.ofNat 64 p + 44) 8 = _ from hg,
      show rd g (BitVec.ofNat 64 p + 52) 4 = _ from hh, show rd g (BitVec.ofNat 64 p + 56) 4 = _ from hi,
      show rd g (BitVec.ofNat 64 p + 60) 4 = _ from hj]
  exact ⟨_, rfl⟩

/-- Reading the record from images that agree on it. -/
theorem readInfo_congr {f g : List Byte} (hl : g.length = f.length) (hs : f.length < 2 ^ 64) {p : Nat}
    (h : p + 64 ≤ f.length) (hsame : ∀ k, p ≤ k → k < p + 64 → g[k]? = f[k]?) :
    readInfo g (BitVec.ofNat 64 p) = readInfo f (BitVec.ofNat 64 p) := by
  have hk : Keep (fun k => ¬ (p ≤ k ∧ k < p + 64)) f g :=
    ⟨hl, fun k hk => by rw [Classical.not_not] at hk; exact hsame k hk.1 hk.2⟩
  have key : ∀ k n, 0 < n → k + n ≤ 64 → ∀ b, b = BitVec.ofNat 64 (p + k) → rd g b n = rd f b n := by
    intro k n hn hkn b hb
    have hv := Num.of_le (f := f) (off := p + k) (n := n) (by omega)
    rw [rd_num' hv hn hs hb, rd_num' (hk.num hv (by intro j h1 h2 h3; exact h3 (by omega))) hn (by omega) hb]
  have e : ∀ k : Nat, BitVec.ofNat 64 p + BitVec.ofNat 64 k = BitVec.ofNat 64 (p + k) := by
    intro k; rw [BitVec.ofNat_add]
  unfold readInfo
  rw [key 0 4 (by omega) (by omega) (BitVec.ofNat 64 p) rfl,
    key 4 8 (by omega) (by omega) (BitVec.ofNat 64 p + 4) (e 4),
    key 12 8 (by omega) (by omega) (BitVec.ofNat 64 p + 12) (e 12),
    key 20 8 (by omega) (by omega) (BitVec.ofNat 64 p + 20) (e 20),
    key 28 8 (by omega) (by omega) (BitVec.ofNat 64 p + 28) (e 28),
    key 36 8 (by omega) (by omega) (BitVec.ofNat 64 p + 36) (e 36),
    key 44 8 (by omega) (by omega) (BitVec.ofNat 64 p + 44) (e 44),
    key 52 4 (by omega) (by omega) (BitVec.ofNat 64 p + 52) (e 52),
    key 56 4 (by omega) (by omega) (BitVec.ofNat 64 p + 56) (e 56),
    key 60 4 (by omega) (by omega) (BitVec.ofNat 64 p + 60) (e 60)]

/-- The record `solve_patch_symbols` leaves. -/
def solved (r : ULPInfo) (maxId : BitVec 32) (target patch now : BitVec 64) : ULPInfo :=
  { r with ulpId := maxId + 1, target := target, patch := patch, virtual := target, time := now }

theorem solve_spec (l : Laid f secs o strs) (hS : Symbols f secs si st str syms) {inf : Info}
    {find : List Byte → Option (BitVec 64)} {now : BitVec 64} {maxId : BitVec 32} {ps pd pi : Nat}
    {src dst : List Byte} (hsi : inf.symIdx = si) (hstr : inf.strtab = BitVec.ofNat 64 str.offset)
    (hsrc : inf.srcFunc = BitVec.ofNat 64 ps) (hdst : inf.dstFunc = BitVec.ofNat 64 pd)
    (hinf : inf.ulpInfo = BitVec.ofNat 64 pi) (h1 : Str f ps src) (h2 : Str f pd dst)
    (h3 : pi + 64 ≤ f.length) :
    ∃ r, solve (BitVec.ofNat 64 o) inf find now maxId f = some r ∧
      ((r = .error ENOENT ∧ (find dst = none ∨ ∀ s ∈ syms, s.name ≠ src)) ∨
        ∃ a k s rec0, find dst = some a ∧ LastNamed syms src k s ∧
          readInfo f (BitVec.ofNat 64 pi) = some rec0 ∧
          r = .ok (store f pi (solved rec0 maxId a (BitVec.ofNat 64 s.value) now).bytes,
            solved rec0 maxId a (BitVec.ofNat 64 s.value) now, maxId + 1)) := by
  have hsm := l.describes.small
  obtain ⟨sh, hsh, hag, _⟩ := l.hdrAt hS.sec
  obtain ⟨res, h4, h5⟩ := findSrc_spec l hS src (f.length + 1) 0 none (by omega)
    (by have := hS.count; have := l.inside si st hS.sec (by rw [hS.type]; omega); omega)
    (.inl ⟨rfl, by intro k s h; omega⟩)
  obtain ⟨rec0, h6⟩ := readInfo_some hsm h3
  unfold solve
  rw [hdst, cstr_str hsm h2]
  dsimp only
  cases hfd : find dst with
  | none => exact ⟨_, rfl, .inl ⟨rfl, .inl rfl⟩⟩
  | some a =>
    dsimp only
    rw [hsrc, cstr_str hsm h1, hsi, hsh]
    dsimp only
    rw [hag.offset, hstr, h4]
    rcases h5 with ⟨rfl, h7⟩ | ⟨k, s, n, h7, rfl⟩
    · exact ⟨_, rfl, .inl ⟨rfl, .inr h7⟩⟩
    · dsimp only
      rw [hinf, h6]
      dsimp only
      rw [put_ofNat hsm (by rw [bytes_length]; exact h3)]
      exact ⟨_, rfl, .inr ⟨a, k, s, rec0, rfl, h7, rfl, rfl⟩⟩
end

end Ulp.LoadBytes
