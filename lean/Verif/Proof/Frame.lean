import Verif.Spec.Frame
import Verif.Proof.FileHist
namespace Ulp.LoadBytes
open Load PatchFile

theorem not_within {x a : Addr} {n : Nat} (h : ¬ Within x a n) : n ≤ (x - a).toNat := by
  apply Nat.le_of_not_lt
  intro hc
  refine h ⟨(x - a).toNat, hc, ?_⟩
  rw [BitVec.ofNat_toNat]
  simp only [BitVec.setWidth_eq]
  bv_omega

/-! ### The length of the image -/

theorem put_len {img img' : Image} {off : BitVec 64} {bs : List Byte} (h : put img off bs = some img') :
    img'.length = img.length := by
  unfold put at h
  by_cases hc : off.toNat + bs.length ≤ img.length
  · rw [if_pos hc] at h
    cases h
    exact store_length hc
  · rw [if_neg hc] at h
    cases h

theorem rewriteLoop_len {tbl strs th : BitVec 64} : ∀ (fuel i : Nat) {img img' : Image} {e : Int},
    rewriteLoop tbl strs th fuel i img = some (img', e) → img'.length = img.length := by
  intro fuel
  induction fuel with
  | zero => intro i img img' e h; cases h
  | succ fuel ih =>
    intro i img img' e h
    unfold rewriteLoop at h
    cases h1 : shnum img with
    | none => rw [h1] at h; cases h
    | some n =>
      rw [h1] at h
      dsimp only at h
      by_cases hi : i < n
      · rw [if_pos hi] at h
        cases h2 : hdrAt img tbl i with
        | none => rw [h2] at h; cases h
        | some s =>
          rw [h2] at h
          dsimp only at h
          cases h3 : rewriteOne img strs th s with
          | none => rw [h3] at h; cases h
          | some r =>
            rw [h3] at h
            cases r with
            | error e' => dsimp only at h; cases h; rfl
            | ok s' =>
              dsimp only at h
              cases h4 : put img (hdrPtr tbl i + 16) (leBytes 8 s'.addr) with
              | none => rw [h4] at h; cases h
              | some img1 =>
                rw [h4] at h
                dsimp only at h
                rw [ih _ h, put_len h4]
      · rw [if_neg hi] at h
        cases h
        rfl

theorem rewriteHeaders_len {tbl strs th : BitVec 64} {k : Nat} {img img' : Image} {e : Int}
    (h : rewriteHeaders tbl strs th k img = some (img', e)) : img'.length = img.length := by
  unfold rewriteHeaders at h
  cases h1 : put img (hdrPtr tbl 0 + 16) (leBytes 8 0) with
  | none => rw [h1] at h; cases h
  | some img0 =>
    rw [h1] at h
    dsimp only at h
    cases h2 : rewriteLoop tbl strs th (2 ^ 16) 1 img0 with
    | none => rw [h2] at h; cases h
    | some p =>
      obtain ⟨img1, e1⟩ := p
      have l1 : img1.length = img.length := (rewriteLoop_len _ _ h2).trans (put_len h1)
      rw [h2] at h
      dsimp only at h
      by_cases he : e1 ≠ 0
      · rw [if_pos he] at h
        cases h
        exact l1
      · rw [if_neg he] at h
        cases h3 : hdrAt img1 tbl k with
        | none => rw [h3] at h; cases h
        | some s =>
          rw [h3] at h
          dsimp only at h
          cases h4 : put img1 (hdrPtr tbl k + 8) (leBytes 8 (s.flags &&& ~~~SHF_ALLOC ||| SHF_RELA_LIVEPATCH)) with
          | none => rw [h4] at h; cases h
          | some img2 =>
            rw [h4] at h
            cases h
            exact (put_len h4).trans l1

theorem simplifyOne_len {tbl strtab : BitVec 64} {find : List Byte → Option (BitVec 64)} {img img' : Image}
    {p : BitVec 64} {ret ret' : Int} (h : simplifyOne tbl strtab find img p ret = some (img', ret')) :
    img'.length = img.length := by
  unfold simplifyOne at h
  cases h1 : symAt img p with
  | none => rw [h1] at h; cases h
  | some s =>
    rw [h1] at h
    dsimp only at h
    by_cases c1 : s.shndx = SHN_COMMON
    · rw [if_pos c1] at h
      cases h2 : cstr img (strtab + BitVec.ofNat 64 s.name) with
      | none => rw [h2] at h; cases h
      | some nm =>
        rw [h2] at h
        dsimp only at h
        split at h <;> (cases h; rfl)
    rw [if_neg c1] at h
    by_cases c2 : s.shndx = SHN_ABS
    · rw [if_pos c2] at h
      cases h
      rfl
    rw [if_neg c2] at h
    by_cases c3 : s.shndx = SHN_UNDEF
    · rw [if_pos c3] at h
      cases h2 : cstr img (strtab + BitVec.ofNat 64 s.name) with
      | none => rw [h2] at h; cases h
      | some nm =>
        rw [h2] at h
        dsimp only at h
        by_cases c4 : resolveSymbol find nm = 0
        · rw [if_pos c4] at h
          split at h <;> (cases h; rfl)
        · rw [if_neg c4] at h
          cases h3 : put img (p + 8) (leBytes 8 (resolveSymbol find nm)) with
          | none => rw [h3] at h; cases h
          | some i => rw [h3] at h; cases h; exact put_len h3
    rw [if_neg c3] at h
    cases h2 : hdrAt img tbl s.shndx with
    | none => rw [h2] at h; cases h
    | some hd =>
      rw [h2] at h
      dsimp only at h
      cases h3 : put img (p + 8) (leBytes 8 (s.value + hd.addr)) with
      | none => rw [h3] at h; cases h
      | some i => rw [h3] at h; cases h; exact put_len h3

theorem simplifyLoop_len {tbl strtab : BitVec 64} {find : List Byte → Option (BitVec 64)} {k : Nat} {base : BitVec 64} :
    ∀ (fuel i : Nat) {img img' : Image} {ret ret' : Int},
    simplifyLoop tbl strtab find k base fuel i img ret = some (img', ret') → img'.length = img.length := by
  intro fuel
  induction fuel with
  | zero => intro i img img' r r' h; cases h
  | succ fuel ih =>
    intro i img img' r r' h
    unfold simplifyLoop at h
    cases h1 : hdrAt img tbl k with
    | none => rw [h1] at h; cases h
    | some ss =>
      rw [h1] at h
      dsimp only at h
      by_cases hi : i < ss.size.toNat / 24
      · rw [if_pos hi] at h
        cases h2 : simplifyOne tbl strtab find img (base + BitVec.ofNat 64 (24 * i)) r with
        | none => rw [h2] at h; cases h
        | some q =>
          obtain ⟨i1, r1⟩ := q
          rw [h2] at h
          dsimp only at h
          exact (ih _ h).trans (simplifyOne_len h2)
      · rw [if_neg hi] at h
        cases h
        rfl

theorem simplify_len {tbl strtab th : BitVec 64} {find : List Byte → Option (BitVec 64)} {k : Nat} {img img' : Image}
    {r : Int} (h : simplify tbl strtab th find k img = some (img', r)) : img'.length = img.length := by
  unfold simplify at h
  cases h1 : hdrAt img tbl k with
  | none => rw [h1] at h; cases h
  | some ss => rw [h1] at h; exact simplifyLoop_len _ _ h

theorem relocLoop_len {M : Machine} {hdr th tbl rel : BitVec 64} {k sec : Nat} :
    ∀ (fuel i : Nat) {st : M.St} {img img' : Image} {e : Int},
    relocLoop M hdr th tbl rel k sec fuel i st img = some (img', e) → img'.length = img.length := by
  intro fuel
  induction fuel with
  | zero => intro i st img img' e h; cases h
  | succ fuel ih =>
    intro i st img img' e h
    unfold relocLoop at h
    cases h1 : hdrAt img tbl sec with
    | none => rw [h1] at h; cases h
    | some sh =>
      rw [h1] at h
      dsimp only at h
      by_cases hi : i < sh.size.toNat / 24
      · rw [if_pos hi] at h
        cases h2 : hdrAt img tbl sh.info with
        | none => rw [h2] at h; cases h
        | some t =>
        cases h3 : relaAt img (rel + BitVec.ofNat 64 (24 * i)) with
        | none => rw [h2, h3] at h; cases h
        | some r =>
        cases h4 : relaAt img rel with
        | none => rw [h2, h3, h4] at h; cases h
        | some r0 =>
        cases h5 : hdrAt img tbl k with
        | none => rw [h2, h3, h4, h5] at h; cases h
        | some ss =>
          rw [h2, h3, h4, h5] at h
          dsimp only at h
          cases h6 : symAt img (ss.addr - th + BitVec.ofNat 64 (24 * r.sym)) with
          | none => rw [h6] at h; cases h
          | some s =>
            rw [h6] at h
            dsimp only at h
            split at h
            · cases h
            · split at h
              · cases h
                exact Mem.read_length _ _ _
              · rw [ih _ h, Mem.read_length]
      · rw [if_neg hi] at h
        cases h
        rfl

theorem relocSection_len {M : Machine} {hdr th tbl : BitVec 64} {k sec : Nat} {img img' : Image} {e : Int}
    (h : relocSection M hdr th tbl k sec img = some (img', e)) : img'.length = img.length := by
  unfold relocSection at h
  cases h1 : hdrAt img tbl sec with
  | none => rw [h1] at h; cases h
  | some sh => rw [h1] at h; exact relocLoop_len _ _ h

theorem applyLoop_len {M : Machine} {hdr th tbl : BitVec 64} {k : Nat} :
    ∀ (fuel i : Nat) {img img' : Image} {e e' : Int},
    applyLoop M hdr th tbl k fuel i img e = some (img', e') → img'.length = img.length := by
  intro fuel
  induction fuel with
  | zero => intro i img img' e e' h; cases h
  | succ fuel ih =>
    intro i img img' e e' h
    unfold applyLoop at h
    cases h1 : shnum img with
    | none => rw [h1] at h; cases h
    | some n =>
      rw [h1] at h
      dsimp only at h
      by_cases hi : i < n
      · rw [if_pos hi] at h
        cases h2 : hdrAt img tbl i with
        | none => rw [h2] at h; cases h
        | some s =>
          rw [h2] at h
          dsimp only at h
          by_cases c1 : n ≤ s.info
          · rw [if_pos c1] at h
            exact ih _ h
          rw [if_neg c1] at h
          cases h3 : hdrAt img tbl s.info with
          | none => rw [h3] at h; cases h
          | some t =>
            rw [h3] at h
            dsimp only at h
            by_cases c2 : t.flags &&& SHF_ALLOC = 0
            · rw [if_pos c2] at h
              exact ih _ h
            rw [if_neg c2] at h
            by_cases c3 : s.type = SHT_REL
            · rw [if_pos c3] at h
              cases h
              rfl
            rw [if_neg c3] at h
            have hl : ∀ i' e1, (if s.type = SHT_RELA then relocSection M hdr th tbl k i img else some (img, e))
                = some (i', e1) → i'.length = img.length := by
              intro i' e1 hh
              split at hh
              · exact relocSection_len hh
              · cases hh; rfl
            revert h
            generalize (if s.type = SHT_RELA then relocSection M hdr th tbl k i img else some (img, e)) = o at hl
            intro h
            cases o with
            | none => cases h
            | some q =>
              obtain ⟨i1, e1⟩ := q
              dsimp only at h
              have := hl i1 e1 rfl
              split at h
              · cases h; exact this
              · exact (ih _ h).trans this
      · rw [if_neg hi] at h
        cases h
        rfl

theorem bytes_length (r : ULPInfo) : r.bytes.length = 64 := by
  unfold ULPInfo.bytes
  simp only [List.length_append, leBytes_length]

/-- What `solve_patch_symbols` makes sure of. -/
theorem solve_ok {tbl : BitVec 64} {inf : Info} {find : List Byte → Option (BitVec 64)} {now : BitVec 64}
    {mx : BitVec 32} {img img' : Image} {r : ULPInfo} {mx' : BitVec 32}
    (h : solve tbl inf find now mx img = some (.ok (img', r, mx'))) :
    img'.length = img.length ∧ (∃ n, find n = some r.target) ∧ inf.ulpInfo.toNat + 64 ≤ img.length := by
  unfold solve at h
  cases h1 : cstr img inf.dstFunc with
  | none => rw [h1] at h; cases h
  | some dst =>
    rw [h1] at h
    dsimp only at h
    cases h2 : find dst with
    | none => rw [h2] at h; cases h
    | some t =>
      rw [h2] at h
      dsimp only at h
      cases h3 : cstr img inf.srcFunc with
      | none => rw [h3] at h; cases h
      | some src =>
      cases h4 : hdrAt img tbl inf.symIdx with
      | none => rw [h3, h4] at h; cases h
      | some ss =>
        rw [h3, h4] at h
        dsimp only at h
        cases h5 : findSrc tbl inf.strtab inf.symIdx ss.offset src img (img.length + 1) 0 none with
        | none => rw [h5] at h; cases h
        | some o =>
          rw [h5] at h
          cases o with
          | none => cases h
          | some s =>
            dsimp only at h
            cases h6 : readInfo img inf.ulpInfo with
            | none => rw [h6] at h; cases h
            | some r0 =>
              rw [h6] at h
              dsimp only at h
              cases h7 : put img inf.ulpInfo
                  ({ r0 with ulpId := mx + 1, target := t, patch := s.value, virtual := t, time := now } : ULPInfo).bytes with
              | none => rw [h7] at h; cases h
              | some i' =>
                rw [h7] at h
                dsimp only at h
                cases h
                refine ⟨put_len h7, ⟨dst, h2⟩, ?_⟩
                unfold put at h7
                by_cases hc : inf.ulpInfo.toNat + ({ r0 with ulpId := mx + 1, target := t, patch := s.value, virtual := t, time := now } : ULPInfo).bytes.length ≤ img.length
                · rw [bytes_length] at hc
                  exact hc
                · rw [if_neg hc] at h7
                  cases h7

/-- What `load` makes sure of, whatever the file is. -/
theorem load_ok {M : Machine} {E : Env} {f : Image} {L : Loaded} (h : load M E f = some (.ok L)) :
    L.img.length = f.length ∧ (∃ n, E.find n = some L.record.target) ∧ L.inf.ulpInfo.toNat + 64 ≤ f.length := by
  unfold load at h
  cases h1 : shoff f with
  | none => rw [h1] at h; cases h
  | some o =>
    rw [h1] at h
    dsimp only at h
    cases h2 : setupLoadInfo f with
    | none => rw [h2] at h; cases h
    | some r =>
      rw [h2] at h
      cases r with
      | error e => cases h
      | ok inf =>
        dsimp only at h
        split at h
        · cases h
        · cases h
        cases h3 : rewriteHeaders (BitVec.ofNat 64 o) inf.secstrings E.th inf.infoIdx f with
        | none => rw [h3] at h; cases h
        | some q1 =>
          obtain ⟨i1, e1⟩ := q1
          rw [h3] at h
          dsimp only at h
          split at h
          · cases h
          cases h4 : simplify (BitVec.ofNat 64 o) inf.strtab E.th E.find inf.symIdx i1 with
          | none => rw [h4] at h; cases h
          | some q2 =>
            obtain ⟨i2, e2⟩ := q2
            rw [h4] at h
            dsimp only at h
            split at h
            · cases h
            cases h5 : applyRelocs M E.hdr E.th (BitVec.ofNat 64 o) inf.symIdx i2 with
            | none => rw [h5] at h; cases h
            | some q3 =>
              obtain ⟨i3, e3⟩ := q3
              rw [h5] at h
              dsimp only at h
              split at h
              · cases h
              have hl : i3.length = f.length := by
                unfold applyRelocs at h5
                exact (applyLoop_len _ _ h5).trans ((simplify_len h4).trans (rewriteHeaders_len h3))
              cases h6 : solve (BitVec.ofNat 64 o) inf E.find E.now E.maxId i3 with
              | none => rw [h6] at h; cases h
              | some q4 =>
                rw [h6] at h
                cases q4 with
                | error e => cases h
                | ok q =>
                  obtain ⟨i4, rr, mx⟩ := q
                  dsimp only at h
                  cases h
                  obtain ⟨a1, a2, a3⟩ := solve_ok h6
                  exact ⟨a1.trans hl, a2, by dsimp only; omega⟩

/-! ### One patch command -/

/-- The record of a patch that has been loaded. -/
def Solved (e : Patch.PatchEnv) (i : Patch.Info) : Prop := e.target = some i.virt ∧ i.orig.length = 16

theorem writeTask_off {w : Patch.World} {t x : Addr} {bs : List Byte} {n : Option Nat} {k : Nat} (hk : bs.length ≤ k)
    (h : k ≤ (x - t).toNat) : (Patch.writeTask w t bs n).1.mem x = w.mem x :=
  writeTask_out w t bs n x (by omega)

theorem kickEntry_off {w : Patch.World} {e : Patch.PatchEnv} {i : Patch.Info} {x : Addr} (h : 16 ≤ (x - i.virt).toNat) :
    (Patch.kickEntry w e i).1.mem x = w.mem x ∧ (Patch.kickEntry w e i).1.maps = w.maps := by
  unfold Patch.kickEntry
  cases e.attach2 with
  | fail n left => exact ⟨rfl, rfl⟩
  | ok =>
    dsimp only
    refine ⟨writeTask_off (Nat.le_of_eq (jmpEntry_length _ _)) h, ?_⟩
    exact Patch.writeTask_maps _ _ _ _

theorem kickImage_off {w : Patch.World} {e : Patch.PatchEnv} {hdr : Addr} {i : Patch.Info} {x : Addr}
    (h1 : (e.image i).length ≤ (x - hdr).toNat) (h : 16 ≤ (x - i.virt).toNat) :
    (Patch.kickImage w e hdr i).1.mem x = w.mem x := by
  unfold Patch.kickImage
  dsimp only
  generalize (if w.mapped hdr = true then e.imageN else none) = n
  have := writeTask_out w hdr (e.image i) n x h1
  split
  · rw [(kickEntry_off h).1, this]
  · exact this

theorem kickEntry_maps (w : Patch.World) (e : Patch.PatchEnv) (i : Patch.Info) :
    (Patch.kickEntry w e i).1.maps = w.maps := by
  unfold Patch.kickEntry
  cases e.attach2 with
  | fail n left => rfl
  | ok => exact Patch.writeTask_maps _ _ _ _

theorem kickImage_maps (w : Patch.World) (e : Patch.PatchEnv) (hdr : Addr) (i : Patch.Info) :
    (Patch.kickImage w e hdr i).1.maps = w.maps := by
  unfold Patch.kickImage
  dsimp only
  generalize (if w.mapped hdr = true then e.imageN else none) = n
  split
  · rw [kickEntry_maps, Patch.writeTask_maps]
  · exact Patch.writeTask_maps _ _ _ _

theorem orig_length (m : Mem) (a : Addr) (k : Nat) {l : List Byte} (h : l.length = 16) :
    (m.read a (min k 16) ++ l.drop (min k 16)).length = 16 := by
  rw [List.length_append, Mem.read_length, List.length_drop]
  omega

theorem updMap_mem (w : Patch.World) (a : Addr) (g : Patch.Mapping → Patch.Mapping) : (Patch.updMap w a g).mem = w.mem := rfl

theorem mem_updMap {w : Patch.World} {a : Addr} {g : Patch.Mapping → Patch.Mapping} {m : Patch.Mapping}
    (h : m ∈ (Patch.updMap w a g).maps) : ∃ m0 ∈ w.maps, (m0.start = a ∧ m = g m0) ∨ (m0.start ≠ a ∧ m = m0) := by
  unfold Patch.updMap at h
  dsimp only at h
  obtain ⟨m0, h0, h1⟩ := List.mem_map.1 h
  refine ⟨m0, h0, ?_⟩
  by_cases hc : m0.start = a
  · rw [if_pos hc] at h1; exact .inl ⟨hc, h1.symm⟩
  · rw [if_neg hc] at h1; exact .inr ⟨hc, h1.symm⟩

theorem kick_off {w : Patch.World} {e : Patch.PatchEnv} {hdr : Addr} {i : Patch.Info} {x : Addr} (ho : i.orig.length = 16)
    (himg : ∀ j : Patch.Info, j.orig.length = 16 → (e.image j).length ≤ (x - hdr).toNat)
    (h : 16 ≤ (x - i.virt).toNat) : (Patch.kick w e hdr i).1.mem x = w.mem x := by
  unfold Patch.kick
  cases e.preadN with
  | none => rfl
  | some k =>
    dsimp only
    split
    · rfl
    · exact (kickImage_off (himg _ (orig_length _ _ _ ho)) (by exact h)).trans rfl

/-- The record of every live patch is as before, or the new one. -/
theorem kick_maps {w : Patch.World} {e : Patch.PatchEnv} {hdr : Addr} {i : Patch.Info} (ho : i.orig.length = 16)
    {m : Patch.Mapping} (hm : m ∈ (Patch.kick w e hdr i).1.maps) :
    ∃ m0 ∈ w.maps, m.start = m0.start ∧ (m.info = m0.info ∨ (m.info.virt = i.virt ∧ m.info.orig.length = 16)) := by
  unfold Patch.kick at hm
  cases hk : e.preadN with
  | none => rw [hk] at hm; exact ⟨m, hm, rfl, .inl rfl⟩
  | some k =>
    rw [hk] at hm
    dsimp only at hm
    have : m ∈ (Patch.updMap w hdr fun m => { m with info := { i with orig := w.mem.read i.virt (min k 16) ++ i.orig.drop (min k 16) } }).maps := by
      split at hm
      · exact hm
      · rw [kickImage_maps] at hm; exact hm
    obtain ⟨m0, h0, ⟨_, rfl⟩ | ⟨_, rfl⟩⟩ := mem_updMap this
    · exact ⟨m0, h0, rfl, .inr ⟨rfl, orig_length _ _ _ ho⟩⟩
    · exact ⟨m, h0, rfl, .inl rfl⟩

theorem solveAndKick_off {w : Patch.World} {s : Patch.Session} {e : Patch.PatchEnv} {hdr x : Addr}
    (ho : e.info0.orig.length = 16)
    (himg : ∀ j : Patch.Info, j.orig.length = 16 → (e.image j).length ≤ (x - hdr).toNat)
    (h : ∀ t, e.target = some t → 16 ≤ (x - t).toNat) : (Patch.solveAndKick w s e hdr).1.mem x = w.mem x := by
  unfold Patch.solveAndKick
  cases ht : e.target with
  | none => rfl
  | some t =>
    dsimp only
    cases e.source with
    | none => rfl
    | some p =>
      dsimp only
      rw [kick_off (by exact ho) himg (h t ht), updMap_mem]

theorem solveAndKick_maps {w : Patch.World} {s : Patch.Session} {e : Patch.PatchEnv} {hdr : Addr}
    (ho : e.info0.orig.length = 16) {m : Patch.Mapping} (hm : m ∈ (Patch.solveAndKick w s e hdr).1.maps) :
    ∃ m0 ∈ w.maps, m.start = m0.start ∧
      ((m.info = m0.info ∧ (m.start = hdr → (Patch.solveAndKick w s e hdr).2.2 ≠ 0)) ∨ Solved e m.info) := by
  unfold Patch.solveAndKick at hm ⊢
  cases ht : e.target with
  | none => rw [ht] at hm; exact ⟨m, hm, rfl, .inl ⟨rfl, fun _ => enoent_ne⟩⟩
  | some t =>
    rw [ht] at hm
    dsimp only at hm ⊢
    cases hp : e.source with
    | none => rw [hp] at hm; exact ⟨m, hm, rfl, .inl ⟨rfl, fun _ => enoent_ne⟩⟩
    | some p =>
      rw [hp] at hm
      dsimp only at hm
      obtain ⟨m1, h1, hs, hi⟩ := kick_maps (by exact ho) hm
      obtain ⟨m0, h0, hc⟩ := mem_updMap h1
      have hstart : m.start = m0.start := by
        rcases hc with ⟨_, rfl⟩ | ⟨_, rfl⟩ <;> exact hs
      refine ⟨m0, h0, hstart, ?_⟩
      rcases hi with hi | ⟨hv, hl⟩
      · rcases hc with ⟨_, rfl⟩ | ⟨hne, rfl⟩
        · exact .inr ⟨by rw [hi, ht], by rw [hi]; exact ho⟩
        · exact .inl ⟨hi, fun hc => absurd (hstart.symm.trans hc) hne⟩
      · exact .inr ⟨by rw [hv, ht], hl⟩

theorem loadPatch_off {w : Patch.World} {s : Patch.Session} {e : Patch.PatchEnv} {hdr x : Addr}
    (ho : e.info0.orig.length = 16)
    (himg : ∀ j : Patch.Info, j.orig.length = 16 → (e.image j).length ≤ (x - hdr).toNat)
    (h : ∀ t, e.target = some t → 16 ≤ (x - t).toNat) : (Patch.loadPatch w s e hdr).1.mem x = w.mem x := by
  unfold Patch.loadPatch
  cases e.setup with
  | some n => rfl
  | none =>
    dsimp only
    split
    · rfl
    · cases e.rewrite with
      | some n => rfl
      | none =>
        dsimp only
        cases e.simplify with
        | some n => rfl
        | none =>
          dsimp only
          cases e.apply with
          | some n => rfl
          | none => exact (solveAndKick_off ho himg h).trans rfl

theorem loadPatch_maps {w : Patch.World} {s : Patch.Session} {e : Patch.PatchEnv} {hdr : Addr}
    (ho : e.info0.orig.length = 16) {m : Patch.Mapping} (hm : m ∈ (Patch.loadPatch w s e hdr).1.maps) :
    ∃ m0 ∈ w.maps, m.start = m0.start ∧
      ((m.info = m0.info ∧ (m.start = hdr → (Patch.loadPatch w s e hdr).2.2 ≠ 0)) ∨ Solved e m.info) := by
  have hneg : ∀ k, Patch.neg k ≠ 0 := fun k => by unfold Patch.neg; omega
  unfold Patch.loadPatch at hm ⊢
  cases h1 : e.setup with
  | some n => rw [h1] at hm; exact ⟨m, hm, rfl, .inl ⟨rfl, fun _ => hneg n⟩⟩
  | none =>
    rw [h1] at hm
    dsimp only at hm ⊢
    by_cases hb : (s.ulps.any fun u => decide (u.bid = e.bid)) = true
    · rw [if_pos hb] at hm ⊢
      exact ⟨m, hm, rfl, .inl ⟨rfl, fun _ => ealready_ne⟩⟩
    · rw [if_neg hb] at hm ⊢
      cases h2 : e.rewrite with
      | some n => rw [h2] at hm; exact ⟨m, hm, rfl, .inl ⟨rfl, fun _ => hneg n⟩⟩
      | none =>
        rw [h2] at hm
        dsimp only at hm ⊢
        have key : ∀ m1 ∈ (Patch.updMap w hdr fun m => { m with ready := true }).maps,
            ∃ m0 ∈ w.maps, m1.start = m0.start ∧ m1.info = m0.info := by
          intro m1 h1
          obtain ⟨m0, h0, ⟨_, rfl⟩ | ⟨_, rfl⟩⟩ := mem_updMap h1
          · exact ⟨m0, h0, rfl, rfl⟩
          · exact ⟨m1, h0, rfl, rfl⟩
        cases h3 : e.simplify with
        | some n =>
          rw [h3] at hm
          obtain ⟨m0, h0, a, b⟩ := key m hm
          exact ⟨m0, h0, a, .inl ⟨b, fun _ => hneg n⟩⟩
        | none =>
          rw [h3] at hm
          dsimp only at hm ⊢
          cases h4 : e.apply with
          | some n =>
            rw [h4] at hm
            obtain ⟨m0, h0, a, b⟩ := key m hm
            exact ⟨m0, h0, a, .inl ⟨b, fun _ => hneg n⟩⟩
          | none =>
            rw [h4] at hm
            dsimp only at hm ⊢
            obtain ⟨m1, g1, g2, g3⟩ := solveAndKick_maps ho hm
            obtain ⟨m0, h0, a, b⟩ := key m1 g1
            refine ⟨m0, h0, g2.trans a, ?_⟩
            rcases g3 with ⟨g3, g4⟩ | g3
            · exact .inl ⟨g3.trans b, g4⟩
            · exact .inr g3

theorem createMmap_hdr {w w' : Patch.World} {e : Patch.PatchEnv} {a : Addr} (h : Patch.createMmap w e = (w', .ok a)) :
    MapsAt e a := by
  unfold Patch.createMmap at h
  cases h1 : e.attach1 with
  | fail n l => rw [h1] at h; cases h
  | ok =>
    rw [h1] at h
    dsimp only at h
    split at h
    · cases h
    · split at h
      · cases h
      · unfold MapsAt
        cases hm : e.mmap with
        | created b => rw [hm] at h; cases h; exact .inl rfl
        | errno v => rw [hm] at h; cases h; exact .inr rfl
        | inject l => rw [hm] at h; cases l <;> cases h

/-- The mappings after `create_mmap_vma_file`. -/
theorem createMmap_maps {w w' : Patch.World} {e : Patch.PatchEnv} {r : Except Int Addr}
    (h : Patch.createMmap w e = (w', r)) {m : Patch.Mapping} (hm : m ∈ w'.maps) :
    m ∈ w.maps ∨ (m.info = e.info0 ∧ ((∃ a, r = .ok a ∧ m.start = a) ∨ ∃ a, e.mmap = .inject (some a))) := by
  unfold Patch.createMmap at h
  cases h1 : e.attach1 with
  | fail n l => rw [h1] at h; cases h; exact .inl hm
  | ok =>
    rw [h1] at h
    dsimp only at h
    split at h
    · cases h; exact .inl hm
    · split at h
      · cases h; exact .inl hm
      · cases h2 : e.mmap with
        | created b =>
          rw [h2] at h
          cases h
          rcases (Patch.mem_insertMap _ _ _).1 hm with rfl | hm
          · exact .inr ⟨rfl, .inl ⟨b, rfl, rfl⟩⟩
          · exact .inl hm
        | errno v => rw [h2] at h; cases h; exact .inl hm
        | inject l =>
          rw [h2] at h
          cases l with
          | none => cases h; exact .inl hm
          | some b =>
            cases h
            rcases (Patch.mem_insertMap _ _ _).1 hm with rfl | hm
            · exact .inr ⟨rfl, .inr ⟨b, rfl⟩⟩
            · exact .inl hm

theorem deleteMmap_maps {w : Patch.World} {e : Patch.PatchEnv} {hdr : Addr} {m : Patch.Mapping}
    (hm : m ∈ (Patch.deleteMmap w e hdr).maps) : m ∈ w.maps ∧ (m.start = hdr → ¬ e.CleanupOk) := by
  unfold Patch.deleteMmap at hm
  have hrem : ∀ w : Patch.World, m ∈ (Patch.removeMap w hdr).maps → m ∈ w.maps ∧ (m.start = hdr → ¬ e.CleanupOk) := by
    intro w hm
    unfold Patch.removeMap at hm
    dsimp only at hm
    rw [List.mem_filter, decide_eq_true_eq] at hm
    exact ⟨hm.1, fun h => absurd h hm.2⟩
  cases h1 : e.attach3 with
  | fail n l => rw [h1] at hm; exact ⟨hm, fun _ hc => by have := hc.1; rw [h1] at this; cases this⟩
  | ok =>
    rw [h1] at hm
    dsimp only at hm
    cases h2 : e.munmap3 with
    | done => rw [h2] at hm; exact hrem (Patch.attach .ok w).1 hm
    | failed gone =>
      rw [h2] at hm
      dsimp only at hm
      cases gone with
      | true => exact hrem (Patch.attach .ok w).1 hm
      | false => exact ⟨hm, fun _ hc => absurd h2 hc.2⟩

theorem initPatch_off {w : Patch.World} {s : Patch.Session} {e : Patch.PatchEnv} {x : Addr}
    (ho : e.info0.orig.length = 16)
    (himg : ∀ hdr, MapsAt e hdr → ∀ j : Patch.Info, j.orig.length = 16 → (e.image j).length ≤ (x - hdr).toNat)
    (h : ∀ t, e.target = some t → 16 ≤ (x - t).toNat) : (Patch.initPatch w s e).1.mem x = w.mem x := by
  have hm := (createMmap_mem w e).1
  unfold Patch.initPatch
  split
  · rfl
  cases e.alloc with
  | some k => rfl
  | none =>
    cases e.chown with
    | some k => rfl
    | none =>
      dsimp only
      cases hc : Patch.createMmap w e with
      | mk w' r =>
        rw [hc] at hm
        cases r with
        | error r => exact congrFun hm x
        | ok hdr =>
          dsimp only
          have := loadPatch_off (w := w') (s := s) ho (himg hdr (createMmap_hdr hc)) h
          split
          · rw [deleteMmap_mem, this]; exact congrFun hm x
          · rw [this]; exact congrFun hm x

theorem initPatch_maps {w : Patch.World} {s : Patch.Session} {e : Patch.PatchEnv} (ho : e.info0.orig.length = 16)
    {m : Patch.Mapping} (hm : m ∈ (Patch.initPatch w s e).1.maps) :
    (∃ m0 ∈ w.maps, m.info = m0.info) ∨ Solved e m.info ∨ (m.info = e.info0 ∧ ¬ CleansUp e) := by
  unfold Patch.initPatch at hm
  split at hm
  · exact .inl ⟨m, hm, rfl⟩
  cases h1 : e.alloc with
  | some k => rw [h1] at hm; exact .inl ⟨m, hm, rfl⟩
  | none =>
    rw [h1] at hm
    dsimp only at hm
    cases h2 : e.chown with
    | some k => rw [h2] at hm; exact .inl ⟨m, hm, rfl⟩
    | none =>
      rw [h2] at hm
      dsimp only at hm
      cases hc : Patch.createMmap w e with
      | mk w' r =>
        rw [hc] at hm
        cases r with
        | error r =>
          dsimp only at hm
          rcases createMmap_maps hc hm with h | ⟨h, ⟨a, ha, _⟩ | ⟨a, ha⟩⟩
          · exact .inl ⟨m, h, rfl⟩
          · cases ha
          · exact .inr (.inr ⟨h, fun hcl => hcl.2 a ha⟩)
        | ok hdr =>
          dsimp only at hm
          have key : m ∈ (Patch.loadPatch w' s e hdr).1.maps ∧
              (m.start = hdr → (Patch.loadPatch w' s e hdr).2.2 ≠ 0 → ¬ e.CleanupOk) := by
            by_cases h0 : (Patch.loadPatch w' s e hdr).2.2 ≠ 0
            · rw [if_pos h0] at hm
              exact ⟨(deleteMmap_maps hm).1, fun h _ => (deleteMmap_maps hm).2 h⟩
            · rw [if_neg h0] at hm
              exact ⟨hm, fun _ h => absurd h h0⟩
          obtain ⟨m0, g0, gs, g⟩ := loadPatch_maps ho key.1
          rcases g with ⟨gi, gr⟩ | g
          · rcases createMmap_maps hc g0 with h | ⟨h, ⟨a, ha, hs⟩ | ⟨a, ha⟩⟩
            · exact .inl ⟨m0, h, gi⟩
            · cases ha
              have hst := gs.trans hs
              exact .inr (.inr ⟨gi.trans h, fun hcl => key.2 hst (gr hst) hcl.1⟩)
            · exact .inr (.inr ⟨gi.trans h, fun hcl => hcl.2 a ha⟩)
          · exact .inr (.inl g)

theorem deletePatch_maps {w : Patch.World} {s : Patch.Session} {d : Patch.DeleteEnv} {m : Patch.Mapping}
    (hm : m ∈ (Patch.deletePatch w s d).1.maps) : m ∈ w.maps := by
  have hrem : ∀ (w : Patch.World) a, m ∈ (Patch.removeMap w a).maps → m ∈ w.maps := by
    intro w a hm
    unfold Patch.removeMap at hm
    exact (List.mem_filter.1 hm).1
  unfold Patch.deletePatch at hm
  cases h1 : s.ulps.find? fun u => decide (s.maxId = u.info.id) with
  | none => rw [h1] at hm; exact hm
  | some u =>
    rw [h1] at hm
    dsimp only at hm
    cases h2 : d.attach with
    | fail n l => rw [h2] at hm; exact hm
    | ok =>
      rw [h2] at hm
      dsimp only at hm
      have hw := Patch.writeTask_maps (Patch.attach .ok w).1 u.info.virt u.info.orig d.writeN
      split at hm
      · cases h3 : d.munmap with
        | done => rw [h3] at hm; have := hrem _ _ hm; rw [hw] at this; exact this
        | failed gone =>
          rw [h3] at hm
          dsimp only at hm
          cases gone with
          | true => have := hrem _ _ hm; rw [hw] at this; exact this
          | false => have : m ∈ _ := hm; change m ∈ (Patch.writeTask _ _ _ _).1.maps at this; rw [hw] at this; exact this
      · change m ∈ (Patch.writeTask _ _ _ _).1.maps at hm
        rw [hw] at hm
        exact hm

theorem loadUlps_sub {rd : Patch.Mapping → Patch.ReadRes} : ∀ (ms : List Patch.Mapping) {s s' : Patch.Session},
    Patch.loadUlps rd ms s = some s' → ∀ u ∈ s'.ulps, u ∈ s.ulps ∨ u ∈ ms := by
  intro ms
  induction ms with
  | nil => intro s s' h u hu; cases h; exact .inl hu
  | cons m ms ih =>
    intro s s' h u hu
    unfold Patch.loadUlps at h
    cases h1 : rd m with
    | noEhdr =>
      rw [h1] at h
      rcases ih h u hu with h | h
      · exact .inl h
      · exact .inr (List.mem_cons_of_mem _ h)
    | noBody => rw [h1] at h; cases h
    | ok =>
      rw [h1] at h
      dsimp only at h
      split at h
      · rcases ih h u hu with h | h
        · rcases List.mem_append.1 h with h | h
          · exact .inl h
          · exact .inr (List.mem_cons.2 (.inl (List.mem_singleton.1 h)))
        · exact .inr (List.mem_cons_of_mem _ h)
      · cases h

theorem openTask_sub {b : Bool} {rd : Patch.Mapping → Patch.ReadRes} {w : Patch.World} {s : Patch.Session}
    (h : Patch.openTask b rd w = some s) : ∀ u ∈ s.ulps, u ∈ w.maps := by
  intro u hu
  rcases loadUlps_sub _ h u hu with h | h
  · cases h
  · exact h

/-! ### Commands on files -/

/-- Addresses where a command may replace 16 bytes. -/
def FileCmd.Window (width : Nat → Nat) (c : FileCmd) (v : Addr) : Prop := c.Function width v ∨ c.Leftover v

/-- The records of the live patches have addresses in `V`. -/
def Kept (V : Addr → Prop) (w : Patch.World) : Prop := ∀ m ∈ w.maps, V m.info.virt ∧ m.info.orig.length = 16

theorem Kept.delete {V : Addr → Prop} {w w1 : Patch.World} {s : Patch.Session} (hs : ∀ u ∈ s.ulps, u ∈ w.maps)
    (h : Kept V w) (d : Patch.DeleteEnv) {x : Addr} (hx : ∀ v, V v → 16 ≤ (x - v).toNat) :
    (Patch.deletePatch w1 s d).1.mem x = w1.mem x :=
  deletePatch_frame w1 s d x fun u hu => by rw [(h u (hs u hu)).2]; exact hx _ (h u (hs u hu)).1

/-- The environment that a file gives to `init_patch`. -/
structure Gives (width : Nat → Nat) (find : List Byte → Option (BitVec 64)) (f : Image) (e e' : Patch.PatchEnv) : Prop where
  mmap : e'.mmap = e.mmap
  info : e'.info0 = e.info0
  clean : CleansUp e' ↔ CleansUp e
  image : ∀ j : Patch.Info, (e'.image j).length ≤ f.length
  names : ∀ t, e'.target = some t → NamesFunction width find f t

theorem gives_refused (width : Nat → Nat) (find : List Byte → Option (BitVec 64)) (f : Image) (e : Patch.PatchEnv)
    (done : Bool) (n : Int) : Gives width find f e { refused e f done n with target := none, image := fun _ => [] } where
  mmap := rfl
  info := rfl
  clean := Iff.rfl
  image _ := Nat.zero_le _
  names _ h := by cases h

theorem gives_loaded {M : Machine} {width : Nat → Nat}
    {value : Nat → BitVec 64 → BitVec 64 → BitVec 64 → Option (Nat × BitVec 64)} (hM : Links M width value)
    {E : Env} {f : Image} {L : Loaded} (h : load M E f = some (.ok L)) (e : Patch.PatchEnv) :
    Gives width E.find f e (withFile e f L) where
  mmap := rfl
  info := rfl
  clean := Iff.rfl
  image j := by
    obtain ⟨h1, _, h3⟩ := load_ok h
    change (store L.img _ _).length ≤ f.length
    have : (j.orig.take 16).length ≤ 16 := by rw [List.length_take]; omega
    rw [store_length (by omega)]
    omega
  names t ht := by
    obtain ⟨_, h2, _⟩ := load_ok h
    have : L.record.target = t := Option.some.inj ht
    subst this
    refine ⟨h2, fun p hp => ?_⟩
    obtain ⟨res, g1, g2⟩ := hM f p hp E
    rw [h] at g1
    cases g1
    obtain ⟨_, inf, t, k, s, S, k1, k2, k3, k4, k5, _⟩ := g2 L rfl
    rw [k5]
    exact k2

section
variable {M : Machine} {width : Nat → Nat}
  {value : Nat → BitVec 64 → BitVec 64 → BitVec 64 → Option (Nat × BitVec 64)}

/-- `init_patch` with a file. -/
theorem init_step {find : List Byte → Option (BitVec 64)} {f : Image} {e e' : Patch.PatchEnv}
    (g : Gives width find f e e') (ho : e.info0.orig.length = 16) {V : Addr → Prop} {w : Patch.World}
    (h : Kept V w) (s : Patch.Session) :
    Kept (fun v => V v ∨ NamesFunction width find f v ∨ (v = e.info0.virt ∧ ¬ CleansUp e)) (Patch.initPatch w s e').1 ∧
    ∀ x, (∀ a, MapsAt e a → ¬ Within x a f.length) → (∀ t, NamesFunction width find f t → ¬ Within x t 16) →
      (Patch.initPatch w s e').1.mem x = w.mem x := by
  have ho' : e'.info0.orig.length = 16 := by rw [g.info]; exact ho
  refine ⟨?_, ?_⟩
  · intro m hm
    rcases initPatch_maps ho' hm with ⟨m0, h0, hi⟩ | h1 | ⟨h1, h2⟩
    · rw [hi]
      exact ⟨.inl (h m0 h0).1, (h m0 h0).2⟩
    · exact ⟨.inr (.inl (g.names _ h1.1)), h1.2⟩
    · rw [h1, g.info]
      exact ⟨.inr (.inr ⟨rfl, fun hc => h2 (g.clean.2 hc)⟩), ho⟩
  · intro x h1 h2
    refine initPatch_off ho' ?_ fun t ht => not_within (h2 t (g.names t ht))
    intro hdr hm j _
    have hm' : MapsAt e hdr := by
      unfold MapsAt at hm ⊢
      rw [g.mmap] at hm
      exact hm
    have := not_within (h1 hdr hm')
    have := g.image j
    omega

/-- A patch command on a file. -/
theorem patchFile_eq (hM : Links M width value) {w w' : Patch.World} {r : Int} {rd : Patch.Mapping → Patch.ReadRes} {hdr : Addr}
    {find : List Byte → Option (BitVec 64)} {now : BitVec 64} {f : List Byte} {e : Patch.PatchEnv}
    (h : patchFile M w rd hdr find now f e = some (w', r)) :
    ∃ s e', Patch.openTask true rd w = some s ∧ Gives width find f e e' ∧ w' = (Patch.initPatch w s e').1 := by
  unfold patchFile at h
  cases h1 : Patch.openTask true rd w with
  | none => rw [h1] at h; cases h
  | some s =>
    rw [h1] at h
    dsimp only at h
    cases h2 : load M (sessionEnv s hdr (mmapAddr e.mmap) find now) f with
    | none => rw [h2] at h; cases h
    | some res =>
      rw [h2] at h
      cases res with
      | error n =>
        dsimp only at h
        rw [Option.some.injEq, Prod.mk.injEq] at h
        refine ⟨s, _, rfl, gives_refused width find f e (headersDone (sessionEnv s hdr (mmapAddr e.mmap) find now) f) n, ?_⟩
        rw [← h.1, initPatch_early w s _ _ (stops_refused e f _ n)]
      | ok L =>
        dsimp only at h
        rw [Option.some.injEq, Prod.mk.injEq] at h
        exact ⟨s, _, rfl, gives_loaded hM h2 e, h.1.symm⟩

/-- One command. -/
theorem frame_step (hM : Links M width value) {V : Addr → Prop} {w w' : Patch.World} {c : FileCmd} {r : Int}
    (hr : c.Record) (h : Kept V w) (hrun : runFile M w c = some (w', r)) :
    Kept (fun v => V v ∨ c.Window width v) w' ∧
      ∀ x, (∀ v, V v ∨ c.Window width v → ¬ Within x v 16) → ¬ c.Area x → w'.mem x = w.mem x := by
  cases c with
  | patch rd hdr find now f e =>
    obtain ⟨s, e', h1, g, rfl⟩ := patchFile_eq hM hrun
    obtain ⟨k1, k2⟩ := init_step g hr h s
    refine ⟨fun m hm => ⟨?_, (k1 m hm).2⟩, fun x hx ha => k2 x ?_ ?_⟩
    · rcases (k1 m hm).1 with h | h | ⟨h, h'⟩
      · exact .inl h
      · exact .inr (.inl (.patch h))
      · rw [h]; exact .inr (.inr (.patch h'))
    · exact fun a hm hw => ha (.patch hm hw)
    · exact fun t ht => hx t (.inr (.inl (.patch ht)))
  | unpatch rd d =>
    change (Patch.openTask true rd w).map _ = _ at hrun
    cases h1 : Patch.openTask true rd w with
    | none => rw [h1] at hrun; cases hrun
    | some s =>
      rw [h1] at hrun
      have hw : w' = (Patch.deletePatch w s d).1 := congrArg Prod.fst (Option.some.inj hrun).symm
      subst hw
      refine ⟨fun m hm => ⟨.inl (h m (deletePatch_maps hm)).1, (h m (deletePatch_maps hm)).2⟩, fun x hx _ => ?_⟩
      exact h.delete (openTask_sub h1) d fun v hv => not_within (hx v (.inl hv))
  | trace rd hdr find now func f e d =>
    change traceFile M w rd hdr find now func f e d = some (w', r) at hrun
    cases h1 : Patch.openTask true rd w with
    | none => unfold traceFile at hrun; rw [h1] at hrun; cases hrun
    | some s =>
      cases h2 : find func with
      | none =>
        unfold traceFile at hrun
        rw [h1] at hrun
        dsimp only at hrun
        rw [h2] at hrun
        cases hrun
        exact ⟨fun m hm => ⟨.inl (h m hm).1, (h m hm).2⟩, fun x _ _ => rfl⟩
      | some y =>
        cases h3 : patchFile M w rd hdr find now f e with
        | none =>
          unfold traceFile at hrun
          unfold patchFile at h3
          rw [h1] at hrun h3
          dsimp only at hrun h3
          rw [h2] at hrun
          dsimp only at hrun
          cases h4 : load M (sessionEnv s hdr (mmapAddr e.mmap) find now) f with
          | none => rw [h4] at hrun; cases hrun
          | some res => rw [h4] at h3; cases res <;> cases h3
        | some q =>
          obtain ⟨w1, r1⟩ := q
          obtain ⟨s1, hu, _, _, htr⟩ := traceFile_of_patch (func := func) (d := d) h1 h2 h3
          rw [htr] at hrun
          have hw : w' = (Patch.deletePatch w1 s1 d).1 := congrArg Prod.fst (Option.some.inj hrun).symm
          subst hw
          obtain ⟨s', e', h1', g, rfl⟩ := patchFile_eq hM h3
          obtain ⟨k1, k2⟩ := init_step g hr h s'
          refine ⟨fun m hm => ⟨?_, (k1 m (deletePatch_maps hm)).2⟩, fun x hx ha => ?_⟩
          · rcases (k1 m (deletePatch_maps hm)).1 with h | h | ⟨h, h'⟩
            · exact .inl h
            · exact .inr (.inl (.trace h))
            · rw [h]; exact .inr (.inr (.trace h'))
          · rw [h.delete (s := s1) (fun u hu' => openTask_sub h1 u (by rw [← hu]; exact hu')) d
              fun v hv => not_within (hx v (.inl hv))]
            refine k2 x ?_ ?_
            · exact fun a hm hw => ha (.trace hm hw)
            · exact fun t ht => hx t (.inr (.inl (.trace ht)))

/-- Any history. -/
theorem frame (hM : Links M width value) : ∀ (cs : List FileCmd) {V : Addr → Prop} {w w' : Patch.World} {rs : List Int},
    (∀ c ∈ cs, c.Record) → Kept V w → runFiles M w cs = some (w', rs) →
    ∀ x, (∀ v, V v → ¬ Within x v 16) → (∀ c ∈ cs, ∀ v, c.Window width v → ¬ Within x v 16) →
      (∀ c ∈ cs, ¬ c.Area x) → w'.mem x = w.mem x := by
  intro cs
  induction cs with
  | nil => intro V w w' rs _ _ h x _ _ _; cases h; rfl
  | cons c cs ih =>
    intro V w w' rs hr hk h x hV hW hA
    unfold runFiles at h
    cases h1 : runFile M w c with
    | none => rw [h1] at h; cases h
    | some q =>
      obtain ⟨w1, r⟩ := q
      rw [h1] at h
      dsimp only at h
      cases h2 : runFiles M w1 cs with
      | none => rw [h2] at h; cases h
      | some q =>
        obtain ⟨w2, rs2⟩ := q
        rw [h2] at h
        cases h
        obtain ⟨k1, k2⟩ := frame_step hM (hr c (by simp)) hk h1
        have hVW : ∀ v, V v ∨ c.Window width v → ¬ Within x v 16 := by
          intro v hv
          rcases hv with hv | hv
          · exact hV v hv
          · exact hW c (by simp) v hv
        rw [ih (fun c hc => hr c (List.mem_cons_of_mem _ hc)) k1 h2 x hVW
          (fun c hc => hW c (List.mem_cons_of_mem _ hc)) (fun c hc => hA c (List.mem_cons_of_mem _ hc))]
        exact k2 x hVW (hA c (by simp))

end

end Ulp.LoadBytes
