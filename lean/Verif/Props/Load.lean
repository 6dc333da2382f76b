/-
C13, C19-C23: parsing and preparing a patch image.
-/
import Verif.Proof.LoadSetup
import Verif.Spec.Load
import Verif.Proof.X86Reloc
import Verif.Proof.A64Reloc
namespace Ulp.Load
open PatchFile LoadSpec

/-! ### C13 -/

theorem alloc_bit (x : BitVec 64) : x &&& SHF_ALLOC = 0 ↔ x.getLsbD 1 = false := by
  constructor
  · intro h
    have : (x &&& SHF_ALLOC).getLsbD 1 = false := by rw [h]; rfl
    rw [BitVec.getLsbD_and] at this
    simpa [SHF_ALLOC] using this
  · intro h
    apply BitVec.eq_of_getLsbD_eq
    intro i hi
    rw [BitVec.getLsbD_and]
    refine Eq.trans ?_ (BitVec.getLsbD_zero (w := 64)).symm
    by_cases h1 : i = 1
    · subst h1; rw [h]; rfl
    · rw [show SHF_ALLOC = BitVec.twoPow 64 1 from rfl, BitVec.getLsbD_twoPow]
      simp [Ne.symm h1]

/-- Indices, in order, of the sections that satisfy `p`. -/
def indices (p : Shdr → Bool) (k : Nat) (ss : List Shdr) : List Nat :=
  ((ss.zipIdx k).filter fun x => p x.1).map (·.2)

theorem indices_cons (p : Shdr → Bool) (k : Nat) (s : Shdr) (ss : List Shdr) :
    indices p k (s :: ss) = if p s then k :: indices p (k + 1) ss else indices p (k + 1) ss := by
  unfold indices
  rw [List.zipIdx_cons, List.filter_cons]
  dsimp only
  split <;> rfl

theorem mem_indices (p : Shdr → Bool) (ss : List Shdr) (i : Nat) :
    i ∈ indices p 0 ss ↔ ∃ s, ss[i]? = some s ∧ p s = true := by
  unfold indices
  rw [List.mem_map]
  constructor
  · rintro ⟨⟨s, j⟩, h, rfl⟩
    rw [List.mem_filter, List.mem_zipIdx_iff_getElem?] at h
    exact ⟨s, h.1, h.2⟩
  · rintro ⟨s, h, hp⟩
    exact ⟨(s, i), by rw [List.mem_filter, List.mem_zipIdx_iff_getElem?]; exact ⟨h, hp⟩, rfl⟩

theorem indices_sorted (p : Shdr → Bool) (ss : List Shdr) : ∀ k, (indices p k ss).Pairwise (· < ·) ∧
    ∀ i ∈ indices p k ss, k ≤ i := by
  induction ss with
  | nil => intro k; exact ⟨List.Pairwise.nil, nofun⟩
  | cons s ss ih =>
    intro k
    obtain ⟨h1, h2⟩ := ih (k + 1)
    rw [indices_cons]
    split
    · refine ⟨List.pairwise_cons.2 ⟨fun i hi => h2 i hi, h1⟩, ?_⟩
      intro i hi
      rcases List.mem_cons.1 hi with rfl | hi
      · exact Nat.le_refl _
      · exact Nat.le_of_succ_le (h2 i hi)
    · exact ⟨h1, fun i hi => Nat.le_of_succ_le (h2 i hi)⟩

/-- RELA section of a loadable section. -/
def wanted (secs : List Shdr) (s : Shdr) : Bool :=
  match secs[s.info]? with
  | none => false
  | some t => decide (s.type = 4) && t.flags.getLsbD 1

theorem wanted_iff (secs : List Shdr) (s : Shdr) :
    wanted secs s = true ↔ s.type = 4 ∧ Loadable secs s := by
  unfold wanted Loadable
  cases secs[s.info]? <;> simp

theorem loop_spec {σ : Type} (arch : Nat → σ → Option (σ × Int)) (secs : List Shdr) :
    ∀ (ss : List Shdr) (k : Nat) (e : Int) (st st' : σ) (e' : Int), 0 ≤ e →
      applyRelocLoop arch secs k ss e st = some (st', e') →
      (0 ≤ e' ∧ Runs arch (indices (wanted secs) k ss) st st' ∧
        ∀ s ∈ ss, s.type = 9 → ¬ Loadable secs s) ∨
      (e' < 0 ∧ ∃ pre i mid, Runs arch pre st mid ∧
        ((∃ post, indices (wanted secs) k ss = pre ++ i :: post ∧ arch i mid = some (st', e')) ∨
         (∃ s, k ≤ i ∧ ss[i - k]? = some s ∧ s.type = 9 ∧ Loadable secs s ∧ st' = mid ∧ e' = -8 ∧
            pre = indices (wanted secs) k (ss.take (i - k))))) := by
  intro ss
  induction ss with
  | nil =>
    intro k e st st' e' he h
    cases h
    exact .inl ⟨he, .nil, nofun⟩
  | cons s ss ih =>
    intro k e st st' e' he h
    -- the section is skipped
    have skip : ∀ e, 0 ≤ e → wanted secs s = false → (s.type = 9 → ¬ Loadable secs s) →
        applyRelocLoop arch secs (k + 1) ss e st = some (st', e') →
        (0 ≤ e' ∧ Runs arch (indices (wanted secs) k (s :: ss)) st st' ∧
          ∀ s' ∈ s :: ss, s'.type = 9 → ¬ Loadable secs s') ∨
        (e' < 0 ∧ ∃ pre i mid, Runs arch pre st mid ∧
          ((∃ post, indices (wanted secs) k (s :: ss) = pre ++ i :: post ∧
              arch i mid = some (st', e')) ∨
           (∃ s', k ≤ i ∧ (s :: ss)[i - k]? = some s' ∧ s'.type = 9 ∧ Loadable secs s' ∧ st' = mid ∧
              e' = -8 ∧ pre = indices (wanted secs) k ((s :: ss).take (i - k))))) := by
      intro e he hw hl h
      rw [indices_cons, hw]
      rcases ih (k + 1) e st st' e' he h with ⟨h1, h2, h3⟩ | ⟨h1, pre, i, mid, hr, h2⟩
      · refine .inl ⟨h1, h2, ?_⟩
        intro s' hs' ht
        rcases List.mem_cons.1 hs' with rfl | hs'
        · exact hl ht
        · exact h3 s' hs' ht
      · refine .inr ⟨h1, pre, i, mid, hr, ?_⟩
        rcases h2 with ⟨post, h2, h3⟩ | ⟨s', hk, hs', ht, hld, hm, he', hp⟩
        · exact .inl ⟨post, h2, h3⟩
        · refine .inr ⟨s', by omega, ?_, ht, hld, hm, he', ?_⟩
          · rw [show i - k = (i - (k + 1)) + 1 by omega, List.getElem?_cons_succ]; exact hs'
          · rw [show i - k = (i - (k + 1)) + 1 by omega, List.take_succ_cons, indices_cons, hw]
            exact hp
    unfold applyRelocLoop at h
    cases ht : secs[s.info]? with
    | none =>
      rw [ht] at h
      refine skip e he (by unfold wanted; simp [ht]) ?_ h
      rintro _ ⟨t, h', _⟩
      rw [ht] at h'; cases h'
    | some t =>
      rw [ht] at h
      dsimp only at h
      by_cases hal : t.flags &&& SHF_ALLOC = 0
      · rw [if_pos hal] at h
        rw [alloc_bit] at hal
        refine skip e he (by unfold wanted; simp only [ht, hal, Bool.and_false]) ?_ h
        rintro _ ⟨t', h', hb⟩
        rw [ht] at h'; cases h'
        rw [hal] at hb; cases hb
      rw [if_neg hal] at h
      rw [alloc_bit, Bool.not_eq_false] at hal
      have hld : Loadable secs s := ⟨t, ht, hal⟩
      by_cases hrel : s.type = SHT_REL
      · rw [if_pos hrel] at h
        cases h
        refine .inr ⟨by decide, [], k, st, .nil, .inr ⟨s, Nat.le_refl _, ?_, hrel, hld, rfl, rfl, ?_⟩⟩
        · rw [Nat.sub_self]; rfl
        · rw [Nat.sub_self]; rfl
      rw [if_neg hrel] at h
      by_cases hrela : s.type = SHT_RELA
      · rw [if_pos hrela] at h
        have hw : wanted secs s = true := (wanted_iff secs s).2 ⟨hrela, hld⟩
        rw [indices_cons, if_pos hw]
        cases ha : arch k st with
        | none => rw [ha] at h; cases h
        | some p =>
          obtain ⟨st1, e1⟩ := p
          rw [ha] at h
          dsimp only at h
          by_cases hneg : e1 < 0
          · rw [if_pos hneg] at h
            cases h
            exact .inr ⟨hneg, [], k, st, .nil, .inl ⟨_, rfl, ha⟩⟩
          rw [if_neg hneg] at h
          have he1 : 0 ≤ e1 := by omega
          rcases ih (k + 1) e1 st1 st' e' he1 h with ⟨h1, h2, h3⟩ | ⟨h1, pre, i, mid, hr, h2⟩
          · refine .inl ⟨h1, .cons ha he1 h2, ?_⟩
            intro s' hs' ht'
            rcases List.mem_cons.1 hs' with rfl | hs'
            · exact absurd ht' hrel
            · exact h3 s' hs' ht'
          · refine .inr ⟨h1, k :: pre, i, mid, .cons ha he1 hr, ?_⟩
            rcases h2 with ⟨post, h2, h3⟩ | ⟨s', hk, hs', ht', hld', hm, he', hp⟩
            · exact .inl ⟨post, by rw [h2]; rfl, h3⟩
            · refine .inr ⟨s', by omega, ?_, ht', hld', hm, he', ?_⟩
              · rw [show i - k = (i - (k + 1)) + 1 by omega, List.getElem?_cons_succ]; exact hs'
              · rw [show i - k = (i - (k + 1)) + 1 by omega, List.take_succ_cons, indices_cons,
                  if_pos hw, hp]
      · rw [if_neg hrela] at h
        dsimp only at h
        rw [if_neg (by omega)] at h
        refine skip e he ?_ (fun h' => absurd h' hrel) h
        rw [Bool.eq_false_iff, Ne, wanted_iff]
        exact fun h' => hrela h'.1

/-- C13.  If relocating the sections of a patch succeeds, then the architecture's
relocation ran, successfully and in increasing section order, on exactly the
RELA sections of loadable sections, and no loadable section has a REL section. -/
theorem C13_success {σ : Type} (arch : Nat → σ → Option (σ × Int)) (secs : List Shdr) (st st' : σ)
    (e : Int) (h : applyRelocations arch secs st = some (st', e)) (he : 0 ≤ e) :
    (∃ is, is.Pairwise (· < ·) ∧ (∀ i, i ∈ is ↔ Reloc secs 4 i) ∧ Runs arch is st st') ∧
    ∀ i, ¬ Reloc secs 9 i := by
  rcases loop_spec arch secs secs 0 0 st st' e (by omega) h with ⟨_, h2, h3⟩ | ⟨h1, _⟩
  · refine ⟨⟨_, (indices_sorted _ _ 0).1, ?_, h2⟩, ?_⟩
    · intro i
      rw [mem_indices]
      constructor
      · rintro ⟨s, h1, hw⟩
        rw [wanted_iff] at hw
        exact ⟨s, h1, hw.1, hw.2⟩
      · rintro ⟨s, h1, h2, h3⟩
        exact ⟨s, h1, (wanted_iff _ _).2 ⟨h2, h3⟩⟩
    · rintro i ⟨s, hs, ht, hl⟩
      exact h3 s (List.mem_of_getElem? hs) ht hl
  · omega

/-- C13.  A REL section for a loadable section makes relocation fail. -/
theorem C13_rel_refused {σ : Type} (arch : Nat → σ → Option (σ × Int)) (secs : List Shdr) (st st' : σ)
    (e : Int) (h : applyRelocations arch secs st = some (st', e)) (i : Nat) (hr : Reloc secs 9 i) :
    e < 0 := by
  rcases Int.lt_or_le e 0 with h' | h'
  · exact h'
  · exact absurd hr ((C13_success arch secs st st' e h h').2 i)

/-- C13.  When relocation fails, the sections before the failing one, and only
those, have been relocated: the failing one is the first RELA section whose
relocation fails, or a REL section. -/
theorem C13_failure {σ : Type} (arch : Nat → σ → Option (σ × Int)) (secs : List Shdr) (st st' : σ)
    (e : Int) (h : applyRelocations arch secs st = some (st', e)) (he : e < 0) :
    ∃ is i mid, Runs arch is st mid ∧ is.Pairwise (· < ·) ∧
      (∀ j, j ∈ is ↔ j < i ∧ Reloc secs 4 j) ∧
      ((Reloc secs 4 i ∧ arch i mid = some (st', e)) ∨ (Reloc secs 9 i ∧ st' = mid ∧ e = -8)) := by
  rcases loop_spec arch secs secs 0 0 st st' e (by omega) h with ⟨h1, _⟩ | ⟨_, pre, i, mid, hr, h2⟩
  · omega
  refine ⟨pre, i, mid, hr, ?_⟩
  have key : ∀ j, j ∈ indices (wanted secs) 0 secs ↔ Reloc secs 4 j := by
    intro j
    rw [mem_indices]
    constructor
    · rintro ⟨s, h1, hw⟩
      rw [wanted_iff] at hw
      exact ⟨s, h1, hw.1, hw.2⟩
    · rintro ⟨s, h1, h2, h3⟩
      exact ⟨s, h1, (wanted_iff _ _).2 ⟨h2, h3⟩⟩
  rcases h2 with ⟨post, hp, ha⟩ | ⟨s, _, hs, ht, hl, hm, he', hp⟩
  · have hsort := (indices_sorted (wanted secs) secs 0).1
    rw [hp] at hsort key
    rw [List.pairwise_append, List.pairwise_cons] at hsort
    obtain ⟨s1, ⟨s2, s3⟩, s4⟩ := hsort
    refine ⟨s1, ?_, .inl ⟨(key i).1 (by simp), ha⟩⟩
    intro j
    constructor
    · intro hj
      exact ⟨s4 j hj i (by simp), (key j).1 (by simp [hj])⟩
    · rintro ⟨hlt, hj⟩
      have := (key j).2 hj
      rw [List.mem_append, List.mem_cons] at this
      rcases this with h | h | h
      · exact h
      · omega
      · have := s2 j h; omega
  · have hs' : secs[i]? = some s := by rw [Nat.sub_zero] at hs; exact hs
    refine ⟨by rw [hp]; exact (indices_sorted _ _ 0).1, ?_, .inr ⟨⟨s, hs', ht, hl⟩, hm, he'⟩⟩
    intro j
    rw [hp, mem_indices, Nat.sub_zero]
    constructor
    · rintro ⟨s', h1, hw⟩
      rw [wanted_iff] at hw
      have hlt : j < i := by
        have := (List.getElem?_eq_some_iff.1 h1).1
        rw [List.length_take] at this; omega
      rw [List.getElem?_take_of_lt hlt] at h1
      exact ⟨hlt, s', h1, hw.1, hw.2⟩
    · rintro ⟨hlt, s', h1, h2, h3⟩
      exact ⟨s', by rw [List.getElem?_take_of_lt hlt]; exact h1, (wanted_iff _ _).2 ⟨h2, h3⟩⟩

theorem rewriteOne_flags {img strs th s s'} (h : rewriteOne img strs th s = some (.ok s')) :
    s' = { s with addr := th + s.offset } := by
  unfold rewriteOne at h
  split at h
  · cases h
  · split at h
    · cases h
    · split at h
      · cases h
      · cases h; rfl

theorem rewriteLoop_map {img strs th} : ∀ {ss ss' : List Shdr},
    rewriteLoop img strs th ss = some (.ok ss') →
    ss' = ss.map fun s => { s with addr := th + s.offset } := by
  intro ss
  induction ss with
  | nil => intro ss' h; cases h; rfl
  | cons s ss ih =>
    intro ss' h
    unfold rewriteLoop at h
    split at h
    · cases h
    · cases h
    · split at h
      · cases h
      · cases h
      · cases h
        rename_i h1 _ _ h2
        rw [rewriteOne_flags h1, ih h2]; rfl

/-- What a successful `rewrite_section_headers` does to section `i`. -/
theorem rewrite_get {img strs th ii secs secs'}
    (h : rewriteSectionHeaders img strs th ii secs = some (.ok secs')) (i : Nat) (s : Shdr)
    (hs : secs[i]? = some s) :
    secs'[i]? = some { s with
      addr := if i = 0 then 0 else th + s.offset
      flags := if i = ii then s.flags &&& ~~~SHF_ALLOC ||| SHF_RELA_LIVEPATCH else s.flags } ∧
    secs'.length = secs.length := by
  cases secs with
  | nil => cases h
  | cons a ss =>
    simp only [rewriteSectionHeaders] at h
    cases hl : rewriteLoop img strs th ss with
    | none => rw [hl] at h; cases h
    | some r =>
      cases r with
      | error e => rw [hl] at h; cases h
      | ok ss' =>
        rw [hl] at h
        cases h
        rw [rewriteLoop_map hl]
        refine ⟨?_, by simp⟩
        rw [List.getElem?_modify]
        cases i with
        | zero =>
          rw [List.getElem?_cons_zero] at hs; cases hs
          by_cases h0 : ii = 0
          · subst h0; simp
          · simp [h0, Ne.symm h0]
        | succ i =>
          rw [List.getElem?_cons_succ] at hs
          rw [List.getElem?_cons_succ, List.getElem?_map, hs]
          by_cases h0 : ii = i + 1
          · subst h0; simp
          · simp [h0, Ne.symm h0]

/-- C13.  After the section headers were prepared, no relocation section for the
bookkeeping section (`.ulpatch.info`) is applied, whatever its flags were, and
every other section is treated as its own flags say. -/
theorem C13_bookkeeping_never_relocated (img : Image) (strs th : BitVec 64) (ii : Nat)
    (secs secs' : List Shdr) (h : rewriteSectionHeaders img strs th ii secs = some (.ok secs'))
    (type i : Nat) :
    Reloc secs' type i ↔ ∃ s, secs[i]? = some s ∧ s.type = type ∧ s.info ≠ ii ∧ Loadable secs s := by
  have hlen : ∀ j : Nat, secs'[j]? = none ↔ secs[j]? = none := by
    intro j
    cases secs with
    | nil => cases h
    | cons a ss =>
      have := (rewrite_get h 0 a rfl).2
      rw [List.getElem?_eq_none_iff, List.getElem?_eq_none_iff, this]
  have back : ∀ (j : Nat) (s' : Shdr), secs'[j]? = some s' → ∃ s, secs[j]? = some s := by
    intro j s' hj
    cases hs : secs[j]? with
    | none => rw [← hlen j] at hs; rw [hs] at hj; cases hj
    | some s => exact ⟨s, rfl⟩
  constructor
  · rintro ⟨s', h1, h2, t', h3, h4⟩
    obtain ⟨s, hs⟩ := back i s' h1
    have e := (rewrite_get h i s hs).1
    rw [h1] at e; injection e with e; subst e
    dsimp only at h2 h3
    obtain ⟨t, ht⟩ := back _ t' h3
    have e := (rewrite_get h _ t ht).1
    rw [h3] at e; injection e with e; subst e
    dsimp only at h4
    by_cases hii : s.info = ii
    · rw [if_pos hii, BitVec.getLsbD_or, BitVec.getLsbD_and] at h4
      revert h4
      simp [SHF_ALLOC, SHF_RELA_LIVEPATCH]
    · rw [if_neg hii] at h4
      exact ⟨s, hs, h2, hii, t, ht, h4⟩
  · rintro ⟨s, hs, h2, hii, t, ht, h4⟩
    refine ⟨_, (rewrite_get h i s hs).1, h2, _, (rewrite_get h _ t ht).1, ?_⟩
    dsimp only
    rw [if_neg hii]; exact h4

/-- C13.  What preparing the section headers does to them, bit by bit: section `i`
is placed at the patch's address plus its offset in the file (the null section at
0); of the flags only those of the bookkeeping section change, where the loadable
bit (bit 1) is cleared and the live-patch mark (bit 20) is set; nothing else of any
header changes. -/
theorem C13_prepared (img : Image) (strs th : BitVec 64) (ii : Nat)
    (secs secs' : List Shdr) (h : rewriteSectionHeaders img strs th ii secs = some (.ok secs'))
    (i : Nat) (s : Shdr) (hs : secs[i]? = some s) :
    secs'.length = secs.length ∧
    ∃ s', secs'[i]? = some s' ∧
      { s' with addr := s.addr, flags := s.flags } = s ∧
      s'.addr = (if i = 0 then 0 else th + s.offset) ∧
      ∀ b < 64, s'.flags.getLsbD b =
        if i = ii then (if b = 1 then false else if b = 20 then true else s.flags.getLsbD b)
        else s.flags.getLsbD b := by
  obtain ⟨e, hl⟩ := rewrite_get h i s hs
  refine ⟨hl, _, e, rfl, rfl, ?_⟩
  intro b hb
  dsimp only
  by_cases hii : i = ii
  · rw [if_pos hii, if_pos hii, BitVec.getLsbD_or, BitVec.getLsbD_and, BitVec.getLsbD_not]
    have t : ∀ b < 64, SHF_ALLOC.getLsbD b = decide (b = 1) ∧
        SHF_RELA_LIVEPATCH.getLsbD b = decide (b = 20) := by decide
    rw [(t b hb).1, (t b hb).2]
    by_cases h1 : b = 1
    · subst h1; simp
    · by_cases h2 : b = 20
      · subst h2; simp
      · simp [h1, h2, hb]
  · rw [if_neg hii, if_neg hii]

/-- Two sections, the second the bookkeeping one: loadable before, not after. -/
example : ∃ secs', rewriteSectionHeaders (List.replicate 80 0) 0 0x10000 1
      [⟨0, 0, 0, 0, 0, 0, 0, 0⟩, ⟨0, 1, 3, 0, 0x40, 16, 0, 0⟩] = some (.ok secs') ∧
    (secs'.map (·.flags) = [0, 0x100001]) := by
  refine ⟨_, rfl, ?_⟩
  decide

theorem x86_unsupported_applyAll (c : RelaCtx) (first : BitVec 64) (r : Rela)
    (hu : X86Reloc.RType.ofNat r.type = .other r.type) :
    ∀ (rs : List Rela) (m m' : Mem), r ∈ rs → X86Reloc.applyAll c first rs m ≠ some (m', 0) := by
  intro rs
  induction rs with
  | nil => intro m m' h; cases h
  | cons a rs ih =>
    intro m m' h hh
    unfold X86Reloc.applyAll at hh
    cases hs : c.syms[a.sym]? with
    | none => rw [hs] at hh; cases hh
    | some s =>
      rw [hs] at hh
      dsimp only at hh
      split at hh
      · rename_i hne
        injection hh with hh
        exact hne (by rw [hh])
      · rename_i hz
        rcases List.mem_cons.1 h with rfl | h
        · unfold X86Reloc.applyOne at hz
          rw [hu] at hz
          exact hz X86Reloc.enoexec_ne
        · exact ih _ _ h hh

/-- C13 (x86_64; for aarch64 see `C16_a64_unknown_refused`).  A relocation entry
whose type is not one of the types the x86_64 code names makes relocating its
section fail. -/
theorem C13_x86_unsupported_refused (c : RelaCtx) (m m' : Mem) (r : Rela) (hr : r ∈ c.rels)
    (hu : r.type ∉ [0, 1, 2, 4, 9, 10, 11, 18, 22, 23, 24, 41, 42]) :
    X86Reloc.relocate c m ≠ some (m', 0) := by
  intro h
  obtain ⟨first, he, _⟩ := X86Reloc.relocate_eq c m
  rw [he] at h
  refine x86_unsupported_applyAll c first r ?_ _ _ _ hr h
  unfold X86Reloc.RType.ofNat
  simp only [List.mem_cons, List.not_mem_nil, or_false, not_or] at hu
  simp [hu]

/-! ### C19 -/

/-- C19.  On a file whose section table is readable, `setup_load_info` reads
nothing outside the file and its return code is the code of the first missing
piece of metadata. -/
theorem C19_verdict (f : List Byte) (secs : List Sec) (hd : Describes f secs) (hr : Readable f secs) :
    ∃ r, setupLoadInfo f = some r ∧ Verdict f secs (code r) := by
  obtain ⟨o, x, strs, d⟩ := Describes.desc hd
  obtain ⟨r, h1, h2, _⟩ := setup_master d hr
  exact ⟨r, h1, h2⟩

/-- C19.  It succeeds exactly when the metadata is complete. -/
theorem C19_accepts_iff (f : List Byte) (secs : List Sec) (hd : Describes f secs)
    (hr : Readable f secs) : (∃ i, setupLoadInfo f = some (.ok i)) ↔ Complete f secs := by
  obtain ⟨o, x, strs, d⟩ := Describes.desc hd
  obtain ⟨r, h1, h2, _⟩ := setup_master d hr
  constructor
  · rintro ⟨i, hi⟩
    rw [hi] at h1; cases h1
    exact Verdict.zero_iff.1 h2
  · intro hc
    have hz := Verdict.unique h2 (.ok hc)
    cases r with
    | ok i => exact ⟨i, h1⟩
    | error e =>
      have hz : e = 0 := hz
      subst hz
      obtain ⟨r', hr1, hr2⟩ := C19_verdict f secs hd hr
      rw [h1] at hr1; cases hr1
      exfalso
      have := h1
      unfold setupLoadInfo at this
      simp only [Option.bind_eq_bind, Option.bind_eq_some_iff] at this
      obtain ⟨_, _, _, _, _, _, this⟩ := this
      repeat' (first
        | (split at this; first | cases this | skip)
        | (rw [Option.bind_eq_some_iff] at this; obtain ⟨_, _, this⟩ := this))
      all_goals cases this

/-- C19.  The first missing piece is unique, so the code tells it. -/
theorem C19_code_unique (f : List Byte) (secs : List Sec) (a b : Int) (ha : Verdict f secs a)
    (hb : Verdict f secs b) : a = b := Verdict.unique ha hb

/-! ### C20 -/

/-- C20.  If the string section holds what `ULPATCH_INFO(src, dst)` emits, the
names read back are `src` and `dst`. -/
theorem C20_names_roundtrip (f : List Byte) (secs : List Sec) (hd : Describes f secs)
    (hr : Readable f secs) (hc : Complete f secs) (src dst : List Byte) (hsrc : 0 ∉ src)
    (hdst : 0 ∉ dst) (s : Sec) (hs : Has secs ".ulpatch.strtab" s)
    (hm : macroStrtab src dst <+: f.drop s.offset) :
    ∃ i, setupLoadInfo f = some (.ok i) ∧ Str f i.srcFunc.toNat src ∧ Str f i.dstFunc.toNat dst := by
  obtain ⟨i, hi⟩ := (C19_accepts_iff f secs hd hr).2 hc
  refine ⟨i, hi, ?_⟩
  obtain ⟨o, x, strs, d⟩ := Describes.desc hd
  obtain ⟨r, h1, _, _, h3⟩ := setup_master d hr
  rw [hi] at h1; cases h1
  obtain ⟨s', magic, src', hs', hmg, hsr, e1, e2⟩ := (h3 i rfl).names
  cases Has.unique hs hs'
  obtain ⟨t, ht⟩ := hm
  have m1 : Str f s.offset (lit ".ULPATCH") :=
    ⟨by decide, src ++ [0] ++ dst ++ [0] ++ t, by rw [← ht]; simp [macroStrtab]⟩
  cases Str.unique' hd.small hmg m1
  have m2 : Str f (s.offset + (lit ".ULPATCH").length + 1) src := by
    refine ⟨hsrc, dst ++ [0] ++ t, ?_⟩
    rw [Nat.add_assoc, ← List.drop_drop, ← ht]
    unfold macroStrtab
    rw [show (lit ".ULPATCH").length + 1 = (lit ".ULPATCH" ++ [0]).length from rfl]
    simp only [List.append_assoc]
    rw [← List.append_assoc (lit ".ULPATCH"), List.drop_left]
  cases Str.unique' hd.small hsr m2
  have m3 : Str f (s.offset + (lit ".ULPATCH").length + 1 + src.length + 1) dst := by
    refine ⟨hdst, t, ?_⟩
    rw [show s.offset + (lit ".ULPATCH").length + 1 + src.length + 1
      = s.offset + (lit ".ULPATCH" ++ [0] ++ (src ++ [0])).length by
        simp only [List.length_append, List.length_singleton]; omega,
      ← List.drop_drop, ← ht]
    unfold macroStrtab
    rw [show lit ".ULPATCH" ++ [0] ++ src ++ [0] ++ dst ++ [0] ++ t
      = (lit ".ULPATCH" ++ [0] ++ (src ++ [0])) ++ (dst ++ [0] ++ t) by
        simp only [List.append_assoc], List.drop_left]
  have l2 := m2.lt
  have l3 := m3.lt
  have hsm := hd.small
  rw [e1, e2, BitVec.toNat_ofNat, BitVec.toNat_ofNat, Nat.mod_eq_of_lt (by omega),
    Nat.mod_eq_of_lt (by omega)]
  exact ⟨m2, m3⟩

theorem rd_split {img : Image} {p : Nat} (pre bs : List Byte) (hsm : img.length < 2 ^ 64)
    (hb : (pre ++ bs) <+: img.drop p) (n k : Nat) (hk : pre.length = k) (hn : bs.length = n) (hpos : 0 < n) :
    rd img (BitVec.ofNat 64 (p + k)) n = some (leNat bs) := by
  refine rd_num ⟨bs, hn, ?_, rfl⟩ hpos hsm
  obtain ⟨t, ht⟩ := hb
  refine ⟨t, ?_⟩
  rw [← List.drop_drop, ← ht, ← hk, List.append_assoc, List.drop_left]

theorem leNat_le4 (v : BitVec 32) : BitVec.ofNat 32 (leNat (leBytes 4 (v.setWidth 64))) = v := by
  rw [leNat_leBytes]
  apply BitVec.eq_of_toNat_eq
  rw [BitVec.toNat_ofNat, BitVec.toNat_setWidth]
  have := v.isLt
  omega

theorem leNat_le8 (v : BitVec 64) : BitVec.ofNat 64 (leNat (leBytes 8 v)) = v := by
  rw [leNat_leBytes]
  apply BitVec.eq_of_toNat_eq
  rw [BitVec.toNat_ofNat]
  have := v.isLt
  omega

/-- Reading a record whose bytes are at `p`. -/
theorem readInfo_bytes (img : Image) (p : Nat) (r : ULPInfo) (hsm : img.length < 2 ^ 64)
    (h : r.bytes <+: img.drop p) : readInfo img (BitVec.ofNat 64 p) = some r := by
  have e : ∀ k : Nat, BitVec.ofNat 64 p + BitVec.ofNat 64 k = BitVec.ofNat 64 (p + k) := by
    intro k; rw [BitVec.ofNat_add]
  obtain ⟨t, ht⟩ := h
  have key : ∀ (pre bs post : List Byte) (k n : Nat), r.bytes = pre ++ bs ++ post → pre.length = k →
      bs.length = n → 0 < n → rd img (BitVec.ofNat 64 (p + k)) n = some (leNat bs) := by
    intro pre bs post k n he hk hn hpos
    exact rd_split pre bs hsm ⟨post ++ t, by rw [← ht, he]; simp only [List.append_assoc]⟩ n k hk hn hpos
  have k0 := key [] (leBytes 4 (r.ulpId.setWidth 64)) _ 0 4
    (by simp only [ULPInfo.bytes, List.append_assoc]; rfl) rfl (leBytes_length ..) (by omega)
  have k1 := key (leBytes 4 (r.ulpId.setWidth 64)) (leBytes 8 r.target) _ 4 8
    (by simp only [ULPInfo.bytes, List.append_assoc]; rfl) (leBytes_length ..) (leBytes_length ..)
    (by omega)
  have k2 := key (leBytes 4 (r.ulpId.setWidth 64) ++ leBytes 8 r.target) (leBytes 8 r.patch) _ 12 8
    (by simp only [ULPInfo.bytes, List.append_assoc]; rfl)
    (by simp [leBytes_length]) (leBytes_length ..) (by omega)
  have k3 := key (leBytes 4 (r.ulpId.setWidth 64) ++ leBytes 8 r.target ++ leBytes 8 r.patch)
    (leBytes 8 r.virtual) _ 20 8 (by simp only [ULPInfo.bytes, List.append_assoc]; rfl)
    (by simp [leBytes_length]) (leBytes_length ..) (by omega)
  have k4 := key (leBytes 4 (r.ulpId.setWidth 64) ++ leBytes 8 r.target ++ leBytes 8 r.patch
    ++ leBytes 8 r.virtual) (leBytes 8 r.orig0) _ 28 8
    (by simp only [ULPInfo.bytes, List.append_assoc]; rfl)
    (by simp [leBytes_length]) (leBytes_length ..) (by omega)
  have k5 := key (leBytes 4 (r.ulpId.setWidth 64) ++ leBytes 8 r.target ++ leBytes 8 r.patch
    ++ leBytes 8 r.virtual ++ leBytes 8 r.orig0) (leBytes 8 r.orig1) _ 36 8
    (by simp only [ULPInfo.bytes, List.append_assoc]; rfl)
    (by simp [leBytes_length]) (leBytes_length ..) (by omega)
  have k6 := key (leBytes 4 (r.ulpId.setWidth 64) ++ leBytes 8 r.target ++ leBytes 8 r.patch
    ++ leBytes 8 r.virtual ++ leBytes 8 r.orig0 ++ leBytes 8 r.orig1) (leBytes 8 r.time) _ 44 8
    (by simp only [ULPInfo.bytes, List.append_assoc]; rfl)
    (by simp [leBytes_length]) (leBytes_length ..) (by omega)
  have k7 := key (leBytes 4 (r.ulpId.setWidth 64) ++ leBytes 8 r.target ++ leBytes 8 r.patch
    ++ leBytes 8 r.virtual ++ leBytes 8 r.orig0 ++ leBytes 8 r.orig1 ++ leBytes 8 r.time)
    (leBytes 4 (r.flags.setWidth 64)) _ 52 4
    (by simp only [ULPInfo.bytes, List.append_assoc]; rfl)
    (by simp [leBytes_length]) (leBytes_length ..) (by omega)
  have k8 := key (leBytes 4 (r.ulpId.setWidth 64) ++ leBytes 8 r.target ++ leBytes 8 r.patch
    ++ leBytes 8 r.virtual ++ leBytes 8 r.orig0 ++ leBytes 8 r.orig1 ++ leBytes 8 r.time
    ++ leBytes 4 (r.flags.setWidth 64)) (leBytes 4 (r.version.setWidth 64)) _ 56 4
    (by simp only [ULPInfo.bytes, List.append_assoc]; rfl)
    (by simp [leBytes_length]) (leBytes_length ..) (by omega)
  have k9 := key (leBytes 4 (r.ulpId.setWidth 64) ++ leBytes 8 r.target ++ leBytes 8 r.patch
    ++ leBytes 8 r.virtual ++ leBytes 8 r.orig0 ++ leBytes 8 r.orig1 ++ leBytes 8 r.time
    ++ leBytes 4 (r.flags.setWidth 64) ++ leBytes 4 (r.version.setWidth 64))
    (leBytes 4 (r.pad.setWidth 64)) [] 60 4
    (by simp only [ULPInfo.bytes, List.append_assoc, List.append_nil])
    (by simp [leBytes_length]) (leBytes_length ..) (by omega)
  unfold readInfo
  rw [show rd img (BitVec.ofNat 64 p) 4 = _ from k0,
    show rd img (BitVec.ofNat 64 p + 4) 8 = _ from (e 4) ▸ k1,
    show rd img (BitVec.ofNat 64 p + 12) 8 = _ from (e 12) ▸ k2,
    show rd img (BitVec.ofNat 64 p + 20) 8 = _ from (e 20) ▸ k3,
    show rd img (BitVec.ofNat 64 p + 28) 8 = _ from (e 28) ▸ k4,
    show rd img (BitVec.ofNat 64 p + 36) 8 = _ from (e 36) ▸ k5,
    show rd img (BitVec.ofNat 64 p + 44) 8 = _ from (e 44) ▸ k6,
    show rd img (BitVec.ofNat 64 p + 52) 4 = _ from (e 52) ▸ k7,
    show rd img (BitVec.ofNat 64 p + 56) 4 = _ from (e 56) ▸ k8,
    show rd img (BitVec.ofNat 64 p + 60) 4 = _ from (e 60) ▸ k9]
  dsimp only
  rw [leNat_le4, leNat_le4, leNat_le4, leNat_le4, leNat_le8, leNat_le8, leNat_le8, leNat_le8,
    leNat_le8, leNat_le8]

theorem bytes_length (r : ULPInfo) : r.bytes.length = 64 := by
  simp [ULPInfo.bytes, leBytes_length]

theorem store_drop (img : Image) (p : Nat) (bs : List Byte) (h : p + bs.length ≤ img.length) :
    bs <+: (store img p bs).drop p := by
  refine ⟨img.drop (p + bs.length), ?_⟩
  have hp : (img.take p).length = p := by rw [List.length_take]; omega
  unfold store
  rw [List.append_assoc]
  exact ((List.drop_append_of_le_length (by omega)).trans (by
    rw [List.drop_of_length_le (by omega), List.nil_append])).symm

/-- C20.  A metadata record written into the image is read back equal, field by
field, and writing it changes nothing else of the image. -/
theorem C20_record_roundtrip (img : Image) (p : Nat) (r : ULPInfo) (hsm : img.length < 2 ^ 64)
    (h : p + 64 ≤ img.length) :
    readInfo (store img p r.bytes) (BitVec.ofNat 64 p) = some r ∧
    ∀ k, k < p ∨ p + 64 ≤ k → (store img p r.bytes)[k]? = img[k]? := by
  have hb := bytes_length r
  have hl : (store img p r.bytes).length = img.length := by
    unfold store
    rw [List.length_append, List.length_append, List.length_take, List.length_drop, hb]; omega
  refine ⟨readInfo_bytes _ _ _ (by omega) (store_drop img p _ (by omega)), ?_⟩
  intro k hk
  have hp : (img.take p).length = p := by rw [List.length_take]; omega
  unfold store
  rcases hk with hk | hk
  · rw [List.append_assoc, List.getElem?_append_left (by omega), List.getElem?_take_of_lt hk]
  · rw [List.getElem?_append_right (by rw [List.length_append]; omega), List.getElem?_drop]
    congr 1
    rw [List.length_append, hp, hb]; omega

/-- C20.  The record emitted by the `ULPATCH_INFO` macro reads back as an unused
record of the supported version. -/
theorem C20_macro_record (img : Image) (p : Nat) (hsm : img.length < 2 ^ 64)
    (h : macroInfo <+: img.drop p) :
    readInfo img (BitVec.ofNat 64 p) = some ⟨0, 0, 0, 0, 0, 0, 0, 0, 5, 0x44332211⟩ :=
  readInfo_bytes img p _ hsm (by
    rw [show ULPInfo.bytes ⟨0, 0, 0, 0, 0, 0, 0, 0, 5, 0x44332211⟩ = macroInfo by decide]; exact h)

/-! ### C21 -/

/-- C21.  A file shorter than an ELF header is refused. -/
theorem C21_short_refused (e : FileEnv) (file : Image) (h : file.length < 64) :
    ∃ c, c < 0 ∧ allocPatchFile e file = some (c, none) := by
  unfold allocPatchFile
  rw [if_pos h]
  split
  · exact ⟨EEXIST, by decide, rfl⟩
  · exact ⟨ENOEXEC, by decide, rfl⟩

/-- C21.  A file without the ELF magic is refused. -/
theorem C21_magic_refused (e : FileEnv) (file : Image)
    (h : ¬ [0x7f, 0x45, 0x4c, 0x46] <+: file) :
    ∃ c, c < 0 ∧ allocPatchFile e file = some (c, none) := by
  unfold allocPatchFile
  by_cases h1 : e.exist = false
  · rw [if_pos h1]; exact ⟨_, by decide, rfl⟩
  rw [if_neg h1]
  by_cases h2 : file.length < 64
  · rw [if_pos h2]; exact ⟨_, by decide, rfl⟩
  rw [if_neg h2]
  by_cases h3 : e.mmap = false
  · rw [if_pos h3]; exact ⟨_, by decide, rfl⟩
  rw [if_neg h3]
  by_cases h4 : e.copy = false
  · rw [if_pos h4]; exact ⟨_, by decide, rfl⟩
  rw [if_neg h4]
  have hm : magicOk file = some false := by
    match file, h2, h with
    | a :: b :: c :: d :: rest, h2, h =>
      have hr : ∀ k : BitVec 64, k.toNat < 4 → rd (a :: b :: c :: d :: rest) k 1
          = some (leNat (((a :: b :: c :: d :: rest).drop k.toNat).take 1)) := by
        intro k hk
        unfold rd
        rw [if_pos (by simp only [List.length_cons] at *; omega)]
      unfold magicOk
      rw [hr 0 (by decide), hr 1 (by decide), hr 2 (by decide), hr 3 (by decide)]
      dsimp only
      refine congrArg some ?_
      rw [Bool.eq_false_iff]
      intro hh
      simp only [Bool.and_eq_true, decide_eq_true_eq] at hh
      obtain ⟨⟨⟨ha, hb⟩, hc⟩, hd⟩ := hh
      refine h ⟨rest, ?_⟩
      have z : ∀ (x : Byte) (n : Nat), leNat [x] = n → x = BitVec.ofNat 8 n := by
        intro x n hx
        simp only [leNat] at hx
        apply BitVec.eq_of_toNat_eq
        rw [BitVec.toNat_ofNat]; have := x.isLt; omega
      have ha' := z a _ ha
      have hb' := z b _ hb
      have hc' := z c _ hc
      have hd' := z d _ hd
      rw [ha', hb', hc', hd']; rfl
    | [], h2, _ => simp at h2
    | [_], h2, _ => simp at h2
    | [_, _], h2, _ => simp at h2
    | [_, _, _], h2, _ => simp at h2
  rw [hm]
  exact ⟨_, by decide, rfl⟩

/-- The section header table of `file` extends past its end. -/
def TablePastEnd (file : List Byte) : Prop :=
  ∃ o n, Num file 40 8 o ∧ Num file 60 2 n ∧ (file.length ≤ o ∨ file.length < o + 64 * n)

/-- C21.  The image is kept only if its section header table is inside the file. -/
theorem C21_table_inside (e : FileEnv) (file img : Image) (c : Int) (hsm : file.length < 2 ^ 64)
    (h : allocPatchFile e file = some (c, some img)) : img = file ∧ c = 0 ∧ ¬ TablePastEnd file := by
  unfold allocPatchFile at h
  repeat' (split at h)
  all_goals first | (cases h; done) | skip
  rename_i hchk
  cases h
  refine ⟨rfl, rfl, ?_⟩
  rintro ⟨o, n, ho, hn, hp⟩
  unfold chkLen shoff shnum at hchk
  rw [show rd file 40 8 = some o from rd_num ho (by omega) hsm,
    show rd file 60 2 = some n from rd_num hn (by omega) hsm] at hchk
  dsimp only at hchk
  split at hchk
  · cases hchk
  · simp only [Option.some.injEq, decide_eq_true_eq] at hchk
    omega

/-- C21 does not hold: a file with the ELF magic whose section header table
extends past its end is not refused: `alloc_patch_file` unmaps the image and
returns 0, so the caller carries on with a dangling image. -/
theorem C21_table_past_end_not_refused (file : Image) (hsm : file.length < 2 ^ 64)
    (h64 : 64 ≤ file.length) (hm : [0x7f, 0x45, 0x4c, 0x46] <+: file) (h : TablePastEnd file) :
    allocPatchFile ⟨true, true, true⟩ file = some (0, none) := by
  obtain ⟨o, n, ho, hn, hp⟩ := h
  have h1 : magicOk file = some true := by
    obtain ⟨t, rfl⟩ := hm
    unfold magicOk
    have hr : ∀ k : BitVec 64, k.toNat < 4 → rd ([0x7f, 0x45, 0x4c, 0x46] ++ t) k 1
        = some (leNat ((([0x7f, 0x45, 0x4c, 0x46] ++ t).drop k.toNat).take 1)) := by
      intro k hk
      unfold rd
      rw [if_pos (by omega)]
    rw [hr 0 (by decide), hr 1 (by decide), hr 2 (by decide), hr 3 (by decide)]
    rfl
  have h2 : chkLen file = some false := by
    unfold chkLen shoff shnum
    rw [show rd file 40 8 = some o from rd_num ho (by omega) hsm,
      show rd file 60 2 = some n from rd_num hn (by omega) hsm]
    dsimp only
    split
    · rfl
    · simp only [Option.some.injEq, decide_eq_false_iff_not]
      omega
  unfold allocPatchFile
  rw [if_neg (by decide), if_neg (by omega), if_neg (by decide), if_neg (by decide), h1]
  dsimp only
  rw [h2]

/-- C21, partial.  If preparing the section headers succeeds, every section with
contents whose end does not wrap around 64 bits lies inside the file.  Missing:
sections whose `sh_offset + sh_size` wraps, see `C21_wrapping_section_accepted`. -/
theorem C21_sections_inside_partial (img : Image) (strs th : BitVec 64) (ii : Nat)
    (secs secs' : List Shdr) (hsm : img.length < 2 ^ 64)
    (h : rewriteSectionHeaders img strs th ii secs = some (.ok secs'))
    (i : Nat) (hi : 0 < i) (s : Shdr) (hs : secs[i]? = some s) (hb : s.type ≠ 8)
    (hw : s.offset.toNat + s.size.toNat < 2 ^ 64) :
    s.offset.toNat + s.size.toNat ≤ img.length := by
  have key : ∀ (ss ss' : List Shdr), rewriteLoop img strs th ss = some (.ok ss') → ∀ s ∈ ss,
      ∃ s', rewriteOne img strs th s = some (.ok s') := by
    intro ss
    induction ss with
    | nil => intro _ _ s hs; cases hs
    | cons a ss ih =>
      intro ss' h s hs
      unfold rewriteLoop at h
      split at h
      · cases h
      · cases h
      · rename_i h1
        split at h
        · cases h
        · cases h
        · rename_i h2
          rcases List.mem_cons.1 hs with rfl | hs
          · exact ⟨_, h1⟩
          · exact ih _ h2 s hs
  cases secs with
  | nil => cases h
  | cons a ss =>
    simp only [rewriteSectionHeaders] at h
    split at h
    · cases h
    · cases h
    · rename_i hl
      have hmem : s ∈ ss := by
        rw [show i = (i - 1) + 1 by omega, List.getElem?_cons_succ] at hs
        exact List.mem_of_getElem? hs
      obtain ⟨s', h1⟩ := key _ _ hl s hmem
      unfold rewriteOne at h1
      split at h1
      · cases h1
      · rename_i hn
        have hn' : ¬ BitVec.ofNat 64 img.length < s.offset + s.size := fun h => hn ⟨hb, h⟩
        rw [BitVec.lt_def, BitVec.toNat_add, BitVec.toNat_ofNat, Nat.mod_eq_of_lt hsm,
          Nat.mod_eq_of_lt hw] at hn'
        omega

/-- C21 does not hold: a section whose offset plus size wraps around is
accepted although it ends far outside the file. -/
theorem C21_wrapping_section_accepted (img : Image) (strs th : BitVec 64) (s : Shdr)
    (hsm : img.length < 2 ^ 64) (ho : s.offset = BitVec.ofNat 64 img.length)
    (hz : s.size = -s.offset) (hpos : 0 < img.length) (hb : s.type ≠ 8)
    (hn : strEq img (strs + BitVec.ofNat 64 s.name) (lit ".bss") = some false) :
    rewriteOne img strs th s = some (.ok { s with addr := th + s.offset }) ∧
      img.length < s.offset.toNat + s.size.toNat := by
  have hz' : s.offset + s.size = 0 := by
    rw [hz]; exact BitVec.add_right_neg _
  constructor
  · unfold rewriteOne
    rw [hz', if_neg (by rintro ⟨_, h⟩; exact absurd h (by rw [BitVec.lt_def]; simp)),
      if_neg (show ¬ s.type = SHT_NOBITS from hb), hn]
    rfl
  · have h1 : s.offset.toNat = img.length := by
      rw [ho, BitVec.toNat_ofNat, Nat.mod_eq_of_lt hsm]
    have h2 : s.size.toNat = 2 ^ 64 - img.length := by
      rw [hz, BitVec.toNat_neg, h1]; omega
    omega

/-! ### C22 -/

theorem isPrefixOf_false {a b : List Byte} (h : ¬ a.isPrefixOf b = true) : ¬ a <+: b :=
  fun h' => h (List.isPrefixOf_iff_prefix.2 h')

theorem simplifyOne_value {secs resolve ret s s' ret'}
    (h : simplifyOne secs resolve ret s = some (s', ret')) :
    SymValue secs resolve s s'.value ∧ s'.name = s.name ∧ s'.bind = s.bind ∧ s'.type = s.type ∧
      s'.shndx = s.shndx := by
  unfold simplifyOne at h
  unfold SymValue
  split at h
  · rename_i hc
    have : s' = s := by split at h <;> (cases h; rfl)
    subst this
    simp [hc, SHN_COMMON]
  split at h
  · rename_i _ hc
    cases h
    simp [hc, SHN_ABS]
  split at h
  · rename_i hc
    dsimp only at h
    split at h
    · rename_i ha
      have : s' = s := by split at h <;> (cases h; rfl)
      subst this
      simp [hc, SHN_UNDEF, ha]
    · rename_i ha
      cases h
      have ha' : ¬ resolve s.name = 0#64 := ha
      simp [hc, SHN_UNDEF, ha']
  · rename_i h1 h2 h3
    split at h
    · cases h
    · rename_i hd hsec
      cases h
      have h1' : ¬ s.shndx = 65522 := h1
      have h2' : ¬ s.shndx = 65521 := h2
      have h3' : ¬ s.shndx = 0 := h3
      refine ⟨⟨?_, fun h => absurd h h3', fun h => absurd h h3', fun _ _ _ => ⟨hd, hsec, ?_⟩⟩,
        rfl, rfl, rfl, rfl⟩
      · rintro (h | h)
        · exact absurd h h2'
        · exact absurd h h1'
      · exact BitVec.add_comm _ _

theorem simplifyLoop_value {secs resolve} : ∀ (ss : List PSym) {ret ss' r},
    simplifyLoop secs resolve ret ss = some (ss', r) → ss'.length = ss.length ∧
    ∀ (i : Nat) (s : PSym), ss[i]? = some s → ∃ s' : PSym, ss'[i]? = some s' ∧ SymValue secs resolve s s'.value ∧
      s'.name = s.name ∧ s'.bind = s.bind ∧ s'.type = s.type ∧ s'.shndx = s.shndx := by
  intro ss
  induction ss with
  | nil => intro ret ss' r h; cases h; exact ⟨rfl, nofun⟩
  | cons a ss ih =>
    intro ret ss' r h
    unfold simplifyLoop at h
    split at h
    · cases h
    · split at h
      · cases h
      · rename_i h1 _ _ _ h2
        cases h
        obtain ⟨hl, hv⟩ := ih h2
        refine ⟨by simp [hl], ?_⟩
        intro i s hs
        cases i with
        | zero => cases hs; exact ⟨_, rfl, simplifyOne_value h1⟩
        | succ i => exact hv i s hs

/-- C22.  Whatever the return code, every symbol except the null symbol gets the
right value and keeps its name and attributes; the null symbol is untouched. -/
theorem C22_values (secs : List Shdr) (resolve : List Byte → BitVec 64) (syms syms' : List PSym)
    (r : Int) (h : simplifySymbols secs resolve syms = some (syms', r)) :
    syms'.length = syms.length ∧ syms'[0]? = syms[0]? ∧
    ∀ (i : Nat) (s : PSym), 0 < i → syms[i]? = some s → ∃ s' : PSym, syms'[i]? = some s' ∧
      SymValue secs resolve s s'.value ∧ s'.name = s.name ∧ s'.bind = s.bind ∧
      s'.type = s.type ∧ s'.shndx = s.shndx := by
  cases syms with
  | nil => cases h; exact ⟨rfl, rfl, fun i s _ hs => by simp at hs⟩
  | cons a ss =>
    simp only [simplifySymbols] at h
    split at h
    · cases h
    · rename_i h1
      cases h
      obtain ⟨hl, hv⟩ := simplifyLoop_value _ h1
      refine ⟨by simp [hl], rfl, ?_⟩
      intro i s hi hs
      rw [show i = (i - 1) + 1 by omega, List.getElem?_cons_succ] at hs
      obtain ⟨s', h1, h2⟩ := hv (i - 1) s hs
      exact ⟨s', by rw [show i = (i - 1) + 1 by omega, List.getElem?_cons_succ]; exact h1, h2⟩

theorem simplifyOne_code {secs resolve ret s s' ret'}
    (h : simplifyOne secs resolve ret s = some (s', ret')) :
    (Bad resolve s → ret' < 0) ∧ (Resolved resolve s → ret' = 0) ∧
    (¬ Bad resolve s → ¬ Resolved resolve s → ret' = ret) := by
  unfold simplifyOne at h
  unfold Bad Resolved
  split at h
  · rename_i hc
    have hc : s.shndx = 65522 := hc
    split at h
    · rename_i hp
      cases h
      have := List.isPrefixOf_iff_prefix.1 hp
      simp [hc, this]
    · rename_i hp
      cases h
      have := isPrefixOf_false hp
      simp [hc, this, ENOEXEC]
  split at h
  · rename_i _ hc
    have hc : s.shndx = 65521 := hc
    cases h
    simp [hc]
  split at h
  · rename_i hc
    have hc : s.shndx = 0 := hc
    dsimp only at h
    split at h
    · rename_i ha
      split at h
      · rename_i hw
        have hw : s.bind = 2 := hw
        cases h
        simp [hc, ha, hw]
      · rename_i hw
        have hw : ¬ s.bind = 2 := hw
        cases h
        simp [hc, ha, hw, ENOENT]
    · rename_i ha
      cases h
      have ha' : ¬ resolve s.name = 0#64 := ha
      simp [hc, ha']
  · rename_i h1 h2 h3
    have h1 : ¬ s.shndx = 65522 := h1
    have h3 : ¬ s.shndx = 0 := h3
    split at h
    · cases h
    · cases h
      simp [h1, h3]

theorem simplifyLoop_code {secs resolve} : ∀ (ss : List PSym) {ret ss' r},
    simplifyLoop secs resolve ret ss = some (ss', r) →
    (∀ pre s post, ss = pre ++ s :: post → Bad resolve s → (∀ t ∈ post, ¬ Resolved resolve t) → r < 0) ∧
    (ret ≤ 0 → r ≤ 0) ∧
    ((∀ t ∈ ss, ¬ Resolved resolve t) → ret < 0 → r < 0) ∧
    ((∀ t ∈ ss, ¬ Bad resolve t) → ret = 0 → r = 0) ∧
    (∀ pre s post, ss = pre ++ s :: post → Resolved resolve s → (∀ t ∈ post, ¬ Bad resolve t) → r = 0) := by
  intro ss
  induction ss with
  | nil =>
    intro ret ss' r h
    cases h
    refine ⟨?_, id, fun _ => id, fun _ => id, ?_⟩ <;>
    · intro pre s post h
      cases pre <;> cases h
  | cons a ss ih =>
    intro ret ss' r h
    unfold simplifyLoop at h
    split at h
    · cases h
    · split at h
      · cases h
      · rename_i s1 ret1 h1 _ _ _ h2
        cases h
        obtain ⟨ha, hb, hc, hd, he⟩ := ih h2
        obtain ⟨ka, kb, kc⟩ := simplifyOne_code h1
        refine ⟨?_, ?_, ?_, ?_, ?_⟩
        · intro pre s post heq hbad hpost
          cases pre with
          | nil =>
            injection heq with e1 e2
            subst e1; subst e2
            exact hc hpost (ka hbad)
          | cons x pre =>
            injection heq with e1 e2
            exact ha pre s post e2 hbad hpost
        · intro hr
          refine hb ?_
          by_cases hB : Bad resolve a
          · exact Int.le_of_lt (ka hB)
          · by_cases hR : Resolved resolve a
            · rw [kb hR]; exact Int.le_refl _
            · rw [kc hB hR]; exact hr
        · intro hall hr
          refine hc (fun t ht => hall t (List.mem_cons_of_mem _ ht)) ?_
          by_cases hB : Bad resolve a
          · exact ka hB
          · rw [kc hB (hall a List.mem_cons_self)]; exact hr
        · intro hall hr
          refine hd (fun t ht => hall t (List.mem_cons_of_mem _ ht)) ?_
          by_cases hR : Resolved resolve a
          · exact kb hR
          · rw [kc (hall a List.mem_cons_self) hR]; exact hr
        · intro pre s post heq hres hpost
          cases pre with
          | nil =>
            injection heq with e1 e2
            subst e1; subst e2
            exact hd hpost (kb hres)
          | cons x pre =>
            injection heq with e1 e2
            exact he pre s post e2 hres hpost

/-- C22, partial.  A symbol that must make the patch fail does so if no undefined
symbol after it in the table is found in the target.  Missing: the case with a
later resolved symbol, where the code returns success, see
`C22_bad_symbol_accepted`. -/
theorem C22_bad_symbol_refused_partial (secs : List Shdr) (resolve : List Byte → BitVec 64)
    (syms syms' : List PSym) (r : Int) (h : simplifySymbols secs resolve syms = some (syms', r))
    (i : Nat) (s : PSym) (hi : 0 < i) (hs : syms[i]? = some s) (hb : Bad resolve s)
    (hlast : ∀ j t, i < j → syms[j]? = some t → ¬ Resolved resolve t) : r < 0 := by
  cases syms with
  | nil => cases hs
  | cons a ss =>
    simp only [simplifySymbols] at h
    split at h
    · cases h
    · rename_i h1
      cases h
      rw [show i = (i - 1) + 1 by omega, List.getElem?_cons_succ] at hs
      obtain ⟨hlt, hget⟩ := List.getElem?_eq_some_iff.1 hs
      refine (simplifyLoop_code _ h1).1 (ss.take (i - 1)) s (ss.drop (i - 1 + 1)) ?_ hb ?_
      · rw [← hget, ← List.drop_eq_getElem_cons hlt, List.take_append_drop]
      · intro t ht
        obtain ⟨k, hk⟩ := List.getElem?_of_mem ht
        rw [List.getElem?_drop] at hk
        refine hlast (i + k + 1) t (by omega) ?_
        rw [List.getElem?_cons_succ, ← hk]
        congr 1; omega

/-- C22.  A patch without such symbols is not refused. -/
theorem C22_good_accepted (secs : List Shdr) (resolve : List Byte → BitVec 64)
    (syms syms' : List PSym) (r : Int) (h : simplifySymbols secs resolve syms = some (syms', r))
    (hb : ∀ i s, 0 < i → syms[i]? = some s → ¬ Bad resolve s) : r = 0 := by
  cases syms with
  | nil => cases h; rfl
  | cons a ss =>
    simp only [simplifySymbols] at h
    split at h
    · cases h
    · rename_i h1
      cases h
      refine (simplifyLoop_code _ h1).2.2.2.1 ?_ rfl
      intro t ht
      obtain ⟨k, hk⟩ := List.getElem?_of_mem ht
      exact hb (k + 1) t (by omega) (by rw [List.getElem?_cons_succ]; exact hk)

/-- C22 does not hold: however many symbols cannot be resolved, one resolved
undefined symbol after them makes the code report success. -/
theorem C22_bad_symbol_accepted (secs : List Shdr) (resolve : List Byte → BitVec 64)
    (syms syms' : List PSym) (r : Int) (h : simplifySymbols secs resolve syms = some (syms', r))
    (i : Nat) (s : PSym) (hi : 0 < i) (hs : syms[i]? = some s) (hr : Resolved resolve s)
    (hlast : ∀ j t, i < j → syms[j]? = some t → ¬ Bad resolve t) : r = 0 := by
  cases syms with
  | nil => cases hs
  | cons a ss =>
    simp only [simplifySymbols] at h
    split at h
    · cases h
    · rename_i h1
      cases h
      rw [show i = (i - 1) + 1 by omega, List.getElem?_cons_succ] at hs
      obtain ⟨hlt, hget⟩ := List.getElem?_eq_some_iff.1 hs
      refine (simplifyLoop_code _ h1).2.2.2.2 (ss.take (i - 1)) s (ss.drop (i - 1 + 1)) ?_ hr ?_
      · rw [← hget, ← List.drop_eq_getElem_cons hlt, List.take_append_drop]
      · intro t ht
        obtain ⟨k, hk⟩ := List.getElem?_of_mem ht
        rw [List.getElem?_drop] at hk
        refine hlast (i + k + 1) t (by omega) ?_
        rw [List.getElem?_cons_succ, ← hk]
        congr 1; omega

/-! ### C23 -/

theorem hexDigit_spec (n : Nat) (h : n < 16) :
    (ascii "0123456789abcdef")[n]? = some (hexDigit n) := by
  have : ∀ n : Fin 16, (ascii "0123456789abcdef")[n.val]? = some (hexDigit n.val) := by decide
  exact this ⟨n, h⟩

theorem hexDigit_inj (a b : Nat) (ha : a < 16) (hb : b < 16) (h : hexDigit a = hexDigit b) : a = b := by
  have : ∀ a b : Fin 16, hexDigit a.val = hexDigit b.val → a = b := by decide
  exact congrArg Fin.val (this ⟨a, ha⟩ ⟨b, hb⟩ h)

theorem hex2_inj {a b : Byte} (h : hex2 a = hex2 b) : a = b := by
  have ha := a.isLt
  have hb := b.isLt
  unfold hex2 at h
  injection h with h1 h2
  injection h2 with h2 _
  have e1 := hexDigit_inj _ _ (by omega) (by omega) h1
  have e2 := hexDigit_inj _ _ (by omega) (by omega) h2
  apply BitVec.eq_of_toNat_eq
  omega

theorem flatMap_hex2_length (bs : List Byte) : (bs.flatMap hex2).length = 2 * bs.length := by
  induction bs with
  | nil => rfl
  | cons b bs ih => rw [List.flatMap_cons, List.length_append, ih]; simp [hex2]; omega

theorem flatMap_hex2_inj : ∀ {as bs : List Byte}, as.flatMap hex2 = bs.flatMap hex2 → as = bs := by
  intro as
  induction as with
  | nil =>
    intro bs h
    have := congrArg List.length h
    rw [flatMap_hex2_length, flatMap_hex2_length] at this
    cases bs with
    | nil => rfl
    | cons b bs => simp at this
  | cons a as ih =>
    intro bs h
    cases bs with
    | nil =>
      have := congrArg List.length h
      rw [flatMap_hex2_length, flatMap_hex2_length] at this
      simp at this
    | cons b bs =>
      rw [List.flatMap_cons, List.flatMap_cons] at h
      obtain ⟨h1, h2⟩ := List.append_inj h rfl
      rw [hex2_inj h1, ih h2]

/-- C23.  Two Build-IDs whose text fits get the same text exactly when their
bytes are equal. -/
theorem C23_text_injective (a b : List Byte) (la lb : Nat) (ta tb : List Byte)
    (ha : elfStrbuildid a la = some ta) (hb : elfStrbuildid b lb = some tb) : ta = tb ↔ a = b := by
  unfold elfStrbuildid at ha hb
  split at ha; · cases ha
  split at hb; · cases hb
  cases ha; cases hb
  exact ⟨flatMap_hex2_inj, fun h => by rw [h]⟩

/-- C23.  The text consists of two lower-case hexadecimal digits per byte and has
no NUL. -/
theorem C23_text_digits (a : List Byte) (l : Nat) (t : List Byte) (h : elfStrbuildid a l = some t) :
    t.length = 2 * a.length ∧ 0 ∉ t ∧ ∀ i b, a[i]? = some b →
      ∃ hi lo, t[2 * i]? = some hi ∧ t[2 * i + 1]? = some lo ∧ HexDigits b hi lo := by
  unfold elfStrbuildid at h
  split at h
  · cases h
  cases h
  refine ⟨flatMap_hex2_length a, ?_, ?_⟩
  · rw [List.mem_flatMap]
    rintro ⟨b, _, hb⟩
    have : ∀ n : Fin 16, hexDigit n.val ≠ 0 := by decide
    have hlt := b.isLt
    unfold hex2 at hb
    rcases List.mem_cons.1 hb with h | h
    · exact this ⟨b.toNat / 16, by omega⟩ h.symm
    · exact this ⟨b.toNat % 16, by omega⟩ (List.mem_singleton.1 h).symm
  · induction a with
    | nil => intro i b h; simp at h
    | cons c a ih =>
      intro i b hb
      rw [List.flatMap_cons]
      cases i with
      | zero =>
        cases hb
        have hlt := c.isLt
        exact ⟨hexDigit (c.toNat / 16), hexDigit (c.toNat % 16), rfl, rfl, c.toNat / 16, c.toNat % 16,
          by omega, by omega, by omega, hexDigit_spec _ (by omega), hexDigit_spec _ (by omega)⟩
      | succ i =>
        obtain ⟨hi, lo, h1, h2, h3⟩ := ih (by simp only [List.length_cons] at *; omega) i b hb
        refine ⟨hi, lo, ?_, ?_, h3⟩
        · rw [List.getElem?_append_right (by simp [hex2]; omega)]
          rw [← h1]; rfl
        · rw [List.getElem?_append_right (by simp [hex2]; omega)]
          rw [← h2]; rfl

/-- C23.  A buffer is refused exactly when it cannot hold the digits and the
terminating NUL. -/
theorem C23_small_buffer (a : List Byte) (l : Nat) :
    elfStrbuildid a l = none ↔ l < 2 * a.length + 1 := by
  unfold elfStrbuildid
  split <;> simp <;> omega

/-! ### C49 -/

theorem lastNamed_spec (src : List Byte) : ∀ (syms : List PSym) (acc : Option PSym) (r : Option PSym),
    lastNamed src syms acc = r →
    ((∀ s ∈ syms, s.name ≠ src) ∧ r = acc) ∨
    ∃ pre s post, syms = pre ++ s :: post ∧ s.name = src ∧ (∀ t ∈ post, t.name ≠ src) ∧ r = some s := by
  intro syms
  induction syms with
  | nil => intro acc r h; exact .inl ⟨nofun, h.symm⟩
  | cons a ss ih =>
    intro acc r h
    unfold lastNamed at h
    rcases ih _ r h with ⟨h1, h2⟩ | ⟨pre, s, post, h1, h2, h3, h4⟩
    · by_cases ha : a.name = src
      · rw [if_pos ha] at h2
        exact .inr ⟨[], a, ss, rfl, ha, h1, h2⟩
      · rw [if_neg ha] at h2
        refine .inl ⟨?_, h2⟩
        intro s hs
        rcases List.mem_cons.1 hs with rfl | hs
        · exact ha
        · exact h1 s hs
    · exact .inr ⟨a :: pre, s, post, by rw [h1]; rfl, h2, h3, h4⟩

/-- C49.  The record of a patch names the functions the patch file names: the
target address is where the process has `dst`, the patch address is the value of
a symbol of the patch called `src`, the redirected address is the start of the
target function, and the id is the one after the largest in use.  Nothing else
of the record changes. -/
theorem C49_record (find : List Byte → Option (BitVec 64)) (src dst : List Byte)
    (syms : List PSym) (now : BitVec 64) (maxId maxId' : BitVec 32) (r r' : ULPInfo)
    (h : solvePatchSymbols find src dst syms now maxId r = .ok (r', maxId')) :
    find dst = some r'.target ∧ (∃ s ∈ syms, s.name = src ∧ s.value = r'.patch) ∧
    r'.virtual = r'.target ∧ r'.ulpId = maxId + 1 ∧ maxId' = r'.ulpId ∧ r'.time = now ∧
    r'.orig0 = r.orig0 ∧ r'.orig1 = r.orig1 ∧ r'.flags = r.flags ∧ r'.version = r.version ∧
    r'.pad = r.pad := by
  unfold solvePatchSymbols at h
  cases hf : find dst with
  | none => rw [hf] at h; cases h
  | some ta =>
    rw [hf] at h
    dsimp only at h
    cases hl : lastNamed src syms none with
    | none => rw [hl] at h; cases h
    | some s =>
      rw [hl] at h
      cases h
      rcases lastNamed_spec src syms none _ hl with ⟨_, h2⟩ | ⟨pre, s', post, h1, h2, _, h4⟩
      · cases h2
      · cases h4
        exact ⟨rfl, ⟨s, by rw [h1]; simp, h2, rfl⟩, rfl, rfl, rfl, rfl, rfl, rfl, rfl, rfl, rfl⟩

/-- C49.  If several symbols of the patch have that name, the last one counts. -/
theorem C49_last_wins (find : List Byte → Option (BitVec 64)) (src dst : List Byte)
    (pre post : List PSym) (s : PSym) (now : BitVec 64) (maxId : BitVec 32) (r : ULPInfo)
    (ta : BitVec 64) (hf : find dst = some ta) (hn : s.name = src) (hp : ∀ t ∈ post, t.name ≠ src) :
    ∃ r' m, solvePatchSymbols find src dst (pre ++ s :: post) now maxId r = .ok (r', m) ∧
      r'.patch = s.value := by
  unfold solvePatchSymbols
  rw [hf]
  dsimp only
  rcases lastNamed_spec src (pre ++ s :: post) none _ rfl with ⟨h1, _⟩ | ⟨pre', s', post', h1, h2, h3, h4⟩
  · exact absurd hn (h1 s (by simp))
  · have : s' = s := by
      rcases List.append_eq_append_iff.1 h1 with ⟨as, ha, hb⟩ | ⟨as, ha, hb⟩
      · cases as with
        | nil => injection hb with e _; exact e.symm
        | cons x as =>
          injection hb with e1 e2
          exact absurd h2 (hp s' (by rw [e2]; simp))
      · cases as with
        | nil => injection hb with e _
        | cons x as =>
          injection hb with e1 e2
          exact absurd hn (h3 s (by rw [e2]; simp))
    subst this
    rw [h4]
    exact ⟨_, _, rfl, rfl⟩

/-- C49.  The command fails, and leaves the id counter alone, exactly when the
process has no `dst` or the patch has no symbol called `src`. -/
theorem C49_missing (find : List Byte → Option (BitVec 64)) (src dst : List Byte)
    (syms : List PSym) (now : BitVec 64) (maxId : BitVec 32) (r : ULPInfo) :
    solvePatchSymbols find src dst syms now maxId r = .error (-2) ↔
      find dst = none ∨ ∀ s ∈ syms, s.name ≠ src := by
  unfold solvePatchSymbols
  cases hf : find dst with
  | none => simp [ENOENT]
  | some ta =>
    dsimp only
    rcases lastNamed_spec src syms none _ rfl with ⟨h1, h2⟩ | ⟨pre, s, post, h1, h2, h3, h4⟩
    · rw [h2]
      simp [ENOENT]
      exact h1
    · rw [h4]
      simp only [reduceCtorEq, false_or, false_iff]
      exact fun h => h s (by rw [h1]; simp) h2

end Ulp.Load
