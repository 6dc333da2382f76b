import Verif.Proof.LoadSolve
namespace Ulp.LoadBytes
open Load PatchFile

/-- The Build ID as text. -/
def BidText (f : List Byte) (secs : List Sec) (b : List Byte) : Prop :=
  ∃ s namesz descsz, Has secs ".note.gnu.build-id" s ∧ Num f s.offset 4 namesz ∧
    Num f (s.offset + 4) 4 descsz ∧ b = ((f.drop (s.offset + 12 + namesz)).take descsz).flatMap hex2

/-- What is true of a loaded patch. -/
structure Good (M : Machine) (E : Env) (f : List Byte) (secs : List Sec) (o : Nat) (st : Sec)
    (syms : List SymEntry) (rels : Nat → List RelEntry) (src dst : List Byte) (L : Loaded) : Prop where
  complete : Complete f secs
  fresh : ∀ b, BidText f secs b → b ∉ E.bids
  nobss : ∀ (j : Nat) (s : Sec), 0 < j → secs[j]? = some s → ¬ Bss s
  ret : ¬ (syms.drop 1).foldl (retStep E.find) 0 < 0
  keep : Keep (Touched M.width secs o st rels) f L.img
  fields : ∀ i k t r, Reloc secs rels i k t r →
    Done M f E.hdr E.th (newSyms secs E.th E.find syms) rels L.img i t r
  values : ∀ (k : Nat) (s : SymEntry), syms[k]? = some s →
    Num L.img (st.offset + 24 * k + 8) 8 (newVal secs E.th E.find k s)
  addrs : ∀ (j : Nat) (s : Sec), 0 < j → secs[j]? = some s →
    Num L.img (o + 64 * j + 16) 8 (E.th + BitVec.ofNat 64 s.offset).toNat
  record : ∃ inf a k s r0, Has secs ".ulpatch.info" inf ∧ E.find dst = some a ∧ LastNamed syms src k s ∧
    readInfo f (BitVec.ofNat 64 inf.offset) = some r0 ∧
    L.record = solved r0 E.maxId a (BitVec.ofNat 64 (newVal secs E.th E.find k s)) E.now ∧
    L.inf.ulpInfo = BitVec.ofNat 64 inf.offset ∧
    L.record.bytes <+: L.img.drop inf.offset
  maxId : L.maxId = E.maxId + 1
  noRel : ¬ ∃ (i : Nat) (s t : Sec), secs[i]? = some s ∧ s.type = 9 ∧ secs[s.info]? = some t ∧
    t.flags.testBit 1 = true ∧ ¬ Has secs ".ulpatch.info" t

/-- Reasons to refuse a patch. -/
inductive Why (M : Machine) (E : Env) (f : List Byte) (secs : List Sec)
    (syms : List SymEntry) (rels : Nat → List RelEntry) (src dst : List Byte) : Prop
  | incomplete : ¬ Complete f secs → Why M E f secs syms rels src dst
  | live {b} : BidText f secs b → b ∈ E.bids → Why M E f secs syms rels src dst
  | bss {j : Nat} {s} : 0 < j → secs[j]? = some s → Bss s → Why M E f secs syms rels src dst
  | symbol : (syms.drop 1).foldl (retStep E.find) 0 < 0 → Why M E f secs syms rels src dst
  | reloc {i k t r x} : Reloc secs rels i k t r →
      StepOf M f E.hdr E.th (newSyms secs E.th E.find syms) rels i t r x → x.2.2 ≠ 0 →
      Why M E f secs syms rels src dst
  | rel {i : Nat} {s t : Sec} : secs[i]? = some s → s.type = 9 → secs[s.info]? = some t →
      t.flags.testBit 1 = true → ¬ Has secs ".ulpatch.info" t → Why M E f secs syms rels src dst
  | noTarget : E.find dst = none → Why M E f secs syms rels src dst
  | noSource : (∀ s ∈ syms, s.name ≠ src) → Why M E f secs syms rels src dst

theorem newVal_mapIdx {u : Nat → Sec → Sec} (hu : SecUpd u) (secs : List Sec) (th : BitVec 64)
    (find : List Byte → Option (BitVec 64)) (k : Nat) (s : SymEntry) :
    newVal (secs.mapIdx u) th find k s = newVal secs th find k s := by
  unfold newVal
  rw [List.getElem?_mapIdx]
  cases secs[s.shndx]? with
  | none => rfl
  | some t => rw [Option.map_some]; dsimp only; rw [hu.offset]

theorem newSyms_mapIdx {u : Nat → Sec → Sec} (hu : SecUpd u) (secs : List Sec) (th : BitVec 64)
    (find : List Byte → Option (BitVec 64)) (syms : List SymEntry) :
    newSyms (secs.mapIdx u) th find syms = newSyms secs th find syms := by
  unfold newSyms
  simp only [newVal_mapIdx hu]

theorem newFlags_bit (s : Sec) : (newFlags s).testBit 1 = false := by
  unfold newFlags
  rw [BitVec.testBit_toNat, BitVec.getLsbD_or, BitVec.getLsbD_and, BitVec.getLsbD_not]
  rw [show SHF_ALLOC.getLsbD 1 = true from rfl, show SHF_RELA_LIVEPATCH.getLsbD 1 = false from rfl]
  simp

section
variable {M : Machine} {f : List Byte} {secs : List Sec} {o : Nat} {strs : Sec} {th : BitVec 64}
  {si : Nat} {st str : Sec} {syms : List SymEntry} {rels : Nat → List RelEntry} {src dst : List Byte}

/-- The loader's own section is known by its place. -/
theorem info_idx (l : Laid f secs o strs) (hm : Meta f secs src dst) {ii j : Nat} {inf t : Sec}
    (hh : Has secs ".ulpatch.info" inf) (hi : secs[ii]? = some inf) (hj : secs[j]? = some t) :
    Has secs ".ulpatch.info" t ↔ j = ii := by
  constructor
  · intro ht
    cases Has.unique hh ht
    obtain ⟨h1, h2⟩ := hm.info _ hh
    exact l.apart j ii _ _ inf.offset hj hi ⟨by omega, by omega, by omega⟩ ⟨by omega, by omega, by omega⟩
  · rintro rfl
    rw [hi] at hj; cases hj; exact hh

theorem loadable_iff (l : Laid f secs o strs) (hm : Meta f secs src dst) {ii j : Nat} {inf t : Sec}
    (hh : Has secs ".ulpatch.info" inf) (hi : secs[ii]? = some inf) (hj : secs[j]? = some t) :
    (rewritten th ii j t).flags.testBit 1 = true ↔
      t.flags.testBit 1 = true ∧ ¬ Has secs ".ulpatch.info" t := by
  rw [info_idx l hm hh hi hj]
  unfold rewritten
  dsimp only
  by_cases h : j = ii
  · rw [if_pos h, newFlags_bit]; simp [h]
  · rw [if_neg h]; simp [h]

theorem of_relocB (l : Laid f secs o strs) (hm : Meta f secs src dst) {ii : Nat} {inf : Sec}
    (hh : Has secs ".ulpatch.info" inf) (hi : secs[ii]? = some inf) {i k t' r}
    (h : RelocB (secs.mapIdx (rewritten th ii)) rels i k t' r) :
    ∃ (j : Nat) (t : Sec), secs[j]? = some t ∧ t' = rewritten th ii j t ∧ Reloc secs rels i k t r := by
  obtain ⟨s', h1, h2, h3, h4, h5⟩ := h
  obtain ⟨s, h1', rfl⟩ := getElem?_mapIdx h1
  obtain ⟨t, h3', rfl⟩ := getElem?_mapIdx h3
  obtain ⟨h6, h7⟩ := (loadable_iff l hm hh hi h3').1 h4
  exact ⟨_, t, h3', rfl, s, h1', h2, h3', h6, h7, h5⟩

theorem to_relocB (l : Laid f secs o strs) (hm : Meta f secs src dst) {ii : Nat} {inf : Sec}
    (hh : Has secs ".ulpatch.info" inf) (hi : secs[ii]? = some inf) {i k t r}
    (h : Reloc secs rels i k t r) :
    ∃ j : Nat, secs[j]? = some t ∧ RelocB (secs.mapIdx (rewritten th ii)) rels i k (rewritten th ii j t) r := by
  obtain ⟨s, h1, h2, h3, h4, h5, h6⟩ := h
  exact ⟨s.info, h3, _, mapIdx_some h1, h2, mapIdx_some h3, (loadable_iff l hm hh hi h3).2 ⟨h4, h5⟩, h6⟩

/-- A relocation that is in the headers or the symbol table is none. -/
theorem field_in (hR : Relocs M.width f secs syms.length rels) {i k t r} (h : Reloc secs rels i k t r)
    {b : Nat} (h1 : t.offset + r.offset ≤ b) (h2 : b < t.offset + r.offset + M.width r.type) :
    ∃ j : Nat, secs[j]? = some t ∧ InSec t b := by
  have := hR.fits i k t r h
  have ht := hR.target i k t r h
  obtain ⟨s, _, _, h3, _⟩ := h
  exact ⟨s.info, h3, ht.2.2.2.1, by omega, by omega⟩

/-- The addresses and flags in the section table are in no section. -/
theorem hdr_out (l : Laid f secs o strs) {j : Nat} {s : Sec} (hs : secs[j]? = some s) {b : Nat}
    (h : InSec s b) {ii : Nat} (hii : ii < secs.length) : ¬ (Addrs o secs.length b ∨ FlagsOf o ii b) := by
  have := l.headers j s b hs h
  rintro (⟨i, h1, h2, h3⟩ | ⟨h2, h3⟩)
  · have : 64 * i + 64 ≤ 64 * secs.length := by omega
    omega
  · have : 64 * ii + 64 ≤ 64 * secs.length := by omega
    omega

theorem load_spec (hM : Lawful M) (l : Laid f secs o strs) (hr : Readable f secs)
    (hm : Meta f secs src dst) (hS : Symbols f secs si st str syms)
    (hR : Relocs M.width f secs syms.length rels) (E : Env) :
    ∃ r, load M E f = some r ∧ (∀ L, r = .ok L → Good M E f secs o st syms rels src dst L) ∧
      (∀ e, r = .error e → e < 0 ∧ Why M E f secs syms rels src dst) := by
  have hsm := l.describes.small
  obtain ⟨x, d⟩ := l.desc
  obtain ⟨r0, h1, hver, herr, hrec⟩ := setup_master d hr
  unfold load
  rw [show shoff f = some o from rd_num' l.tab (by omega) hsm rfl]
  dsimp only
  rw [h1]
  cases r0 with
  | error e =>
    refine ⟨_, rfl, nofun, ?_⟩
    rintro e' ⟨⟩
    have he := herr e rfl
    refine ⟨he, .incomplete fun hc => ?_⟩
    have := Verdict.unique hver (Verdict.ok hc)
    rw [show code (.error e) = e from rfl] at this
    omega
  | ok inf =>
  have hcomp : Complete f secs := Verdict.zero_iff.1 hver
  have hI := hrec inf rfl
  clear herr hrec hver
  dsimp only
  -- the Build ID
  obtain ⟨sb, namesz, descsz, type, hb1, hb2, hb3, hb4, hb5⟩ := hI.buildId
  rw [if_pos (hb4.unique (hm.note sb hb1))] at hb5
  have hbt : BidText f secs _ := ⟨sb, namesz, descsz, hb1, hb2, hb3, rfl⟩
  have hbu : ∀ b, BidText f secs b →
      b = ((f.drop (sb.offset + 12 + namesz)).take descsz).flatMap hex2 := by
    rintro b ⟨sb', n', d', e1, e2, e3, rfl⟩
    cases Has.unique hb1 e1
    rw [e2.unique hb2, e3.unique hb3]
  rw [hb5]
  dsimp only
  by_cases hlive : ((f.drop (sb.offset + 12 + namesz)).take descsz).flatMap hex2 ∈ E.bids
  · rw [List.contains_iff_mem.2 hlive]
    refine ⟨_, rfl, nofun, ?_⟩
    rintro e' ⟨⟩
    exact ⟨by decide, .live hbt hlive⟩
  rw [show E.bids.contains (((f.drop (sb.offset + 12 + namesz)).take descsz).flatMap hex2) = false by
    rw [← Bool.not_eq_true, List.contains_iff_mem]; exact hlive]
  dsimp only
  -- the section headers
  obtain ⟨infs, hi1, hi2, hi0, hi3⟩ := hI.info
  have hii : inf.infoIdx < secs.length := (List.getElem?_eq_some_iff.1 hi2).1
  have hss : inf.secstrings = BitVec.ofNat 64 strs.offset := by
    obtain ⟨x', s', e1, e2, e3⟩ := hI.secstrings
    obtain ⟨y, e4, e5⟩ := l.strsAt
    cases e1.unique e4
    rw [e5] at e2; cases e2; exact e3
  obtain ⟨g1, e1, hrw, hrw'⟩ := rewriteHeaders_spec l E.th hii
  rw [hss, hrw]
  dsimp only
  rcases hrw' with ⟨rfl, j, sj, hj0, hj, hbss⟩ | ⟨rfl, hnb, hk1, x1, hx1, hxs1, l1⟩
  · rw [if_pos (by decide)]
    refine ⟨_, rfl, nofun, ?_⟩
    rintro e' ⟨⟩
    exact ⟨by decide, .bss hj0 hj hbss⟩
  rw [if_neg (by decide)]
  generalize hsecs : secs.mapIdx (rewritten E.th inf.infoIdx) = secs1 at l1
  have hu := rewritten_upd E.th inf.infoIdx
  have hB : Based E.th secs1 := by
    intro j s hj hs
    rw [← hsecs] at hs
    obtain ⟨s0, _, rfl⟩ := getElem?_mapIdx hs
    unfold rewritten newAddr
    dsimp only
    rw [if_neg (by omega)]
  -- the symbols
  have hsi : inf.symIdx = si := by
    obtain ⟨s', t', p1, p2, p3, p4, _⟩ := hI.sym
    rcases Nat.lt_trichotomy inf.symIdx si with h | h | h
    · exact absurd p3 (hS.first _ s' p1 h p2)
    · exact h
    · exact absurd hS.type (p4 si st hS.pos h hS.sec)
  have hstr : inf.strtab = BitVec.ofNat 64 str.offset := by
    obtain ⟨s', t', p1, p2, p3, p4, p5, p6, p7⟩ := hI.sym
    rw [hsi, hS.sec] at p2; cases p2
    rw [p5, hS.link] at p6; cases p6
    exact p7
  have hS1 : Symbols g1 secs1 si (rewritten E.th inf.infoIdx si st)
      (rewritten E.th inf.infoIdx st.link str) syms := by
    rw [← hsecs]
    refine ⟨mapIdx_some hS.sec, hS.pos, hS.type, ?_, mapIdx_some hS.link, hS.strType, hS.count, ?_, ?_⟩
    · intro j t hj0 hj ht
      obtain ⟨t0, ht0, rfl⟩ := getElem?_mapIdx ht
      exact hS.first j t0 hj0 hj ht0
    · intro k s hks
      have h := SymAt_keep hk1 (by rw [hS.type]; omega) (by rw [hS.strType]; omega)
        (by rw [hS.count]; exact (List.getElem?_eq_some_iff.1 hks).1) (hS.entries k s hks)
        (fun b hw hin => hdr_out l hS.sec hin hii hw) (fun b hw hin => hdr_out l hS.link hin hii hw)
      exact ⟨h.name, h.info, h.shndx, h.value⟩
    · intro s hs
      rw [List.length_mapIdx]; exact hS.sections s hs
  obtain ⟨g2, hsy, hSI⟩ := simplify_spec (find := E.find) l1 hB hS1
  rw [hsi, hstr, show simplify (BitVec.ofNat 64 o) (BitVec.ofNat 64 str.offset) E.th E.find si g1 = _ from hsy]
  dsimp only
  by_cases hret : (syms.drop 1).foldl (retStep E.find) 0 < 0
  · rw [if_pos hret]
    refine ⟨_, rfl, nofun, ?_⟩
    rintro e' ⟨⟩
    exact ⟨hret, .symbol hret⟩
  rw [if_neg hret]
  have l2 := hSI.laid l1 hS1
  have hS2 := hSI.symbols l1 hS1
  -- bytes of other sections so far
  have hk12 : ∀ (j : Nat) (s : Sec) (b : Nat), secs[j]? = some s → s.type ≠ 2 → InSec s b →
      g2[b]? = f[b]? := by
    intro j s b hj ht hin
    rw [hSI.keep.same b, hk1.same b (hdr_out l hj hin hii)]
    intro hv
    have hin' : InSec st b := hv.inSec hS.type
    cases l.apart j si s st b hj hS.sec hin hin'
    rw [hS.sec] at hj; cases hj
    exact ht hS.type
  have hlen12 : g2.length = f.length := hSI.keep.len.trans hk1.len
  have hkp : ∀ (j : Nat) (s : Sec), secs[j]? = some s → s.type ≠ 2 → Keep (fun b => ¬ InSec s b) f g2 :=
    fun j s hj ht => ⟨hlen12, fun b hb => hk12 j s b hj ht (Classical.not_not.1 hb)⟩
  have hsyms : newSyms secs1 E.th E.find syms = newSyms secs E.th E.find syms := by
    rw [← hsecs]; exact newSyms_mapIdx hu ..
  rw [hsyms] at hS2
  have hC : RCtx M g2 secs1 o (rewritten E.th inf.infoIdx x1 strs) si (rewritten E.th inf.infoIdx si st)
      (rewritten E.th inf.infoIdx st.link str) (newSyms secs E.th E.find syms) rels E.th := by
    refine ⟨l2, hB, hS2, ?_, ?_, ?_, ?_, ?_, ?_, ?_⟩
    · intro s hs
      rw [← hsecs] at hs
      obtain ⟨s0, hs0, rfl⟩ := getElem?_mapIdx hs
      unfold rewritten
      dsimp only
      rw [if_neg (fun h => hi0 h.symm)]
      exact (hR.null s0 hs0).1
    · intro i s hs ht
      rw [← hsecs] at hs
      obtain ⟨s0, hs0, rfl⟩ := getElem?_mapIdx hs
      exact hR.count i s0 hs0 ht
    · intro i k s r hs ht hr
      rw [← hsecs] at hs
      obtain ⟨s0, hs0, rfl⟩ := getElem?_mapIdx hs
      have ht0 : s0.type = 4 := ht
      have he := hR.entries i k s0 r hs0 ht0 hr
      have hc := hR.count i s0 hs0 ht0
      have hkl := (List.getElem?_eq_some_iff.1 hr).1
      have hk := hkp i s0 hs0 (by omega)
      have hno : ∀ a n, a + n ≤ 24 → ∀ b, s0.offset + 24 * k + a ≤ b → b < s0.offset + 24 * k + a + n →
          ¬ ¬ InSec s0 b := fun a n ha b h3 h4 hw => hw ⟨by omega, by omega, by omega⟩
      exact ⟨hk.num he.offset (fun b q1 q2 => hno 0 8 (by omega) b q1 q2),
        hk.num he.info (hno 8 8 (by omega)), he.type, hk.num he.addend (hno 16 8 (by omega))⟩
    · intro i k t r h
      rw [← hsecs] at h
      obtain ⟨j, t0, _, rfl, hq⟩ := of_relocB l hm hi1 hi2 h
      unfold newSyms
      rw [List.length_mapIdx]
      exact hR.syms i k t0 r hq
    · intro i k t r h
      rw [← hsecs] at h
      obtain ⟨j, t0, _, rfl, hq⟩ := of_relocB l hm hi1 hi2 h
      exact hR.fits i k t0 r hq
    · intro i k t r h
      rw [← hsecs] at h
      obtain ⟨j, t0, _, rfl, hq⟩ := of_relocB l hm hi1 hi2 h
      obtain ⟨q1, q2, q3, q4, _⟩ := hR.target i k t0 r hq
      exact ⟨q1, q2, q3, q4⟩
    · intro i k t r i' k' t' r' h h'
      rw [← hsecs] at h h'
      obtain ⟨j, t0, _, rfl, hq⟩ := of_relocB l hm hi1 hi2 h
      obtain ⟨j', t0', _, rfl, hq'⟩ := of_relocB l hm hi1 hi2 h'
      exact hR.disjoint i k t0 r i' k' t0' r' hq hq'
  have h04 : ∀ s : Sec, secs1[0]? = some s → s.type ≠ 4 := by
    intro s hs
    rw [← hsecs] at hs
    obtain ⟨s0, hs0, rfl⟩ := getElem?_mapIdx hs
    exact (hR.null s0 hs0).2
  obtain ⟨g3, e3, hap, hap'⟩ := applyRelocs_spec (hdr := E.hdr) hM hC h04
  rw [hap]
  dsimp only
  -- steps in terms of the file
  have hstep : ∀ i k (j : Nat) t r y, secs[j]? = some t → Reloc secs rels i k t r →
      StepOf M g2 E.hdr E.th (newSyms secs E.th E.find syms) rels i (rewritten E.th inf.infoIdx j t) r y →
      StepOf M f E.hdr E.th (newSyms secs E.th E.find syms) rels i t r y := by
    rintro i k j t r y hj hrel ⟨sx, m, s, r0, q1, q2, q3, q4⟩
    refine ⟨sx, m, s, r0, q1, q2, ?_, q4⟩
    intro a ha
    obtain ⟨j', hj', hin⟩ := field_in hR hrel (b := t.offset + r.offset + a) (by omega) (by omega)
    rw [← hk12 j' t _ hj' (hR.target i k t r hrel).1 hin]
    exact q3 a ha
  have hrelsec : RelSection secs1 ↔ ∃ (i : Nat) (s t : Sec), secs[i]? = some s ∧ s.type = 9 ∧
      secs[s.info]? = some t ∧ t.flags.testBit 1 = true ∧ ¬ Has secs ".ulpatch.info" t := by
    rw [← hsecs]
    constructor
    · rintro ⟨i, s, t, q1, q2, q3, q4⟩
      obtain ⟨s0, q1', rfl⟩ := getElem?_mapIdx q1
      obtain ⟨t0, q3', rfl⟩ := getElem?_mapIdx q3
      obtain ⟨q5, q6⟩ := (loadable_iff l hm hi1 hi2 q3').1 q4
      exact ⟨i, s0, t0, q1', q2, q3', q5, q6⟩
    · rintro ⟨i, s, t, q1, q2, q3, q4, q5⟩
      exact ⟨i, _, _, mapIdx_some q1, q2, mapIdx_some q3, (loadable_iff l hm hi1 hi2 q3).2 ⟨q4, q5⟩⟩
  rcases hap' with ⟨rfl, hJ, hnorel⟩ | ⟨hneg, hwhy⟩
  case inr =>
    rw [if_pos hneg]
    refine ⟨_, rfl, nofun, ?_⟩
    rintro e' ⟨⟩
    refine ⟨hneg, ?_⟩
    rcases hwhy with ⟨i, k, t, r, y, q1, q2, q3⟩ | hwhy
    · rw [← hsecs] at q1
      obtain ⟨j, t0, hj, rfl, hq⟩ := of_relocB l hm hi1 hi2 q1
      exact .reloc hq (hstep i k j t0 r y hj hq q2) q3
    · obtain ⟨i, s, t, q1, q2, q3, q4, q5⟩ := hrelsec.1 hwhy
      exact .rel q1 q2 q3 q4 q5
  rw [if_neg (by decide)]
  have l3 := hJ.laid hC
  have hS3 := hJ.symbols hC
  -- bytes of sections without relocated fields
  have hbefore : ∀ b, Before M.width secs1 rels secs1.length 0 b →
      ∃ i k t r, Reloc secs rels i k t r ∧ t.offset + r.offset ≤ b ∧
        b < t.offset + r.offset + M.width r.type := by
    rintro b ⟨i, k, t, r, q1, _, q2, q3⟩
    rw [← hsecs] at q1
    obtain ⟨j, t0, hj, rfl, hq⟩ := of_relocB l hm hi1 hi2 q1
    exact ⟨i, k, t0, r, hq, q2, q3⟩
  have hk13 : ∀ (j : Nat) (s : Sec) (b : Nat), secs[j]? = some s → s.type ≠ 2 →
      (∀ i k r, ¬ Reloc secs rels i k s r) → InSec s b → g3[b]? = f[b]? := by
    intro j s b hj ht hno hin
    rw [hJ.keep.same b, hk12 j s b hj ht hin]
    intro hb
    obtain ⟨i, k, t, r, q1, q2, q3⟩ := hbefore b hb
    obtain ⟨j', hj', hin'⟩ := field_in hR q1 q2 q3
    cases l.apart j j' s t b hj hj' hin hin'
    rw [hj] at hj'; cases hj'
    exact hno i k r q1
  -- the names of the functions
  obtain ⟨sn, magic, src0, hn1, hn2, hn3, hn4, hn5⟩ := hI.names
  obtain ⟨hnt, magic', hm1, hm2, hm3, hm4⟩ := hm.strtab sn hn1
  cases Str.unique' hsm hn2 hm1
  cases Str.unique' hsm hn3 hm2
  have hnidx : ∃ j : Nat, secs[j]? = some sn := by
    obtain ⟨j, _, hj, _⟩ := hn1
    exact ⟨j, hj⟩
  obtain ⟨jn, hjn⟩ := hnidx
  have hkn : Keep (fun b => ¬ InSec sn b) f g3 :=
    ⟨hJ.keep.len.trans hlen12, fun b hb => hk13 jn sn b hjn (by omega)
      (fun i k r hrel => (hR.target i k sn r hrel).2.2.2.2 hn1) (Classical.not_not.1 hb)⟩
  have hsrc3 : Str g3 (sn.offset + magic.length + 1) src :=
    hkn.str hm2 fun b q1 q2 hw => hw ⟨by omega, by omega, by omega⟩
  have hdst3 : Str g3 (sn.offset + magic.length + 1 + src.length + 1) dst :=
    hkn.str hm3 fun b q1 q2 hw => hw ⟨by omega, by omega, by omega⟩
  obtain ⟨hit, hisz⟩ := hm.info infs hi1
  have hinl := l.inside _ infs hi2 (by omega)
  have hlen3 : g3.length = f.length := hkn.len
  obtain ⟨r4, hso, hso'⟩ := solve_spec (find := E.find) (now := E.now) (maxId := E.maxId) l3 hS3 hsi hstr
    hn4 hn5 hi3 hsrc3 hdst3 (by omega)
  rw [hso]
  rcases hso' with ⟨rfl, hwhy⟩ | ⟨a, k, s, rec0, ha, hlast, hrd, rfl⟩
  · refine ⟨_, rfl, nofun, ?_⟩
    rintro e' ⟨⟩
    refine ⟨by decide, ?_⟩
    rcases hwhy with hwhy | hwhy
    · exact .noTarget hwhy
    · refine .noSource ?_
      intro s hs
      obtain ⟨k, hk⟩ := List.mem_iff_getElem?.1 hs
      exact hwhy { s with value := newVal secs E.th E.find k s } (List.mem_of_getElem? (newSyms_some hk))
  refine ⟨_, rfl, ?_, nofun⟩
  rintro L ⟨⟩
  have hle4 : infs.offset + (solved rec0 E.maxId a (BitVec.ofNat 64 s.value) E.now).bytes.length ≤ g3.length := by
    rw [bytes_length]; omega
  have hk4 := store_keep hle4
  rw [bytes_length] at hk4
  have hinfo : ∀ b, infs.offset ≤ b ∧ b < infs.offset + 64 → InSec infs b :=
    fun b hb => ⟨by omega, by omega, by omega⟩
  obtain ⟨s0, hs0, rfl⟩ := of_newSyms hlast.1
  refine ⟨hcomp, ?_, hnb, hret, ?_, ?_, ?_, ?_, ?_, rfl, fun hh => hnorel (hrelsec.2 hh)⟩
  · intro b hb hmem
    rw [hbu b hb] at hmem
    exact hlive hmem
  · refine ⟨hk4.len.trans hlen3, ?_⟩
    intro b hb
    rw [hk4.same b fun hh => hb (.record hi1 hh.1 hh.2), hJ.keep.same b, hSI.keep.same b, hk1.same b]
    · rintro (⟨i, q1, q2, q3⟩ | ⟨q1, q2⟩)
      · exact hb (.addr q1 q2 q3)
      · exact hb (.flags hi2 hi1 q1 q2)
    · rintro ⟨j, _, _, q1, q2, q3⟩
      exact hb (.value q1 q2 q3)
    · intro hh
      obtain ⟨i, k, t, r, q1, q2, q3⟩ := hbefore b hh
      exact hb (.field q1 q2 q3)
  · intro i k' t r hrel
    obtain ⟨j, hj, hrb⟩ := to_relocB (th := E.th) l hm hi1 hi2 hrel
    rw [hsecs] at hrb
    have hil : i < secs1.length := by
      obtain ⟨sx, q1, _⟩ := hrb
      exact (List.getElem?_eq_some_iff.1 q1).1
    obtain ⟨y, q1, q2, q3⟩ := hJ.done i k' _ r hrb (.inl hil)
    refine ⟨y, hstep i k' j t r y hj hrel q1, q2, ?_⟩
    intro c hc
    rw [hk4.same]
    · exact q3 c hc
    · intro hh
      obtain ⟨j', hj', hin⟩ := field_in hR hrel (b := t.offset + r.offset + c) (by omega) (by omega)
      cases l.apart j' _ t infs _ hj' hi2 hin (hinfo _ hh)
      rw [hi2] at hj'; cases hj'
      obtain ⟨_, _, _, _, _, q4, _⟩ := hrel
      exact q4 hi1
  · intro k' s' hs'
    have hv := (hS3.entries k' _ (newSyms_some hs')).value
    refine hk4.num hv ?_
    intro b q1 q2 hh
    have hkl := (List.getElem?_eq_some_iff.1 hs').1
    have hc := hS.count
    have hin : InSec st b := ⟨by rw [hS.type]; omega, by
      have : st.offset + 24 * k' + 8 ≤ b := q1
      omega, by
      have : b < st.offset + 24 * k' + 8 + 8 := q2
      omega⟩
    cases l.apart _ _ st infs b hS.sec hi2 hin (hinfo b hh)
    have := hS.sec
    rw [hi2] at this; cases this
    have := hS.type
    omega
  · intro j sj hj0 hj
    obtain ⟨x3, d3⟩ := l3.desc
    have hh := (d3.hdr j _ (by rw [← hsecs]; exact mapIdx_some hj)).addr
    unfold rewritten newAddr at hh
    dsimp only at hh
    rw [if_neg (by omega)] at hh
    refine hk4.num hh ?_
    intro b q1 q2 q3
    have := l.headers _ infs b hi2 (hinfo b q3)
    have hjl := (List.getElem?_eq_some_iff.1 hj).1
    have : 64 * j + 64 ≤ 64 * secs.length := by omega
    omega
  · refine ⟨infs, a, k, s0, rec0, hi1, ha, ⟨hs0, hlast.2.1, ?_⟩, ?_, rfl, hi3, store_drop_take hle4⟩
    · intro k' s' q1 q2
      exact hlast.2.2 k' { s' with value := newVal secs E.th E.find k' s' } q1 (newSyms_some q2)
    · rw [← hrd]
      refine (readInfo_congr hlen3 hsm (by omega) ?_).symm
      intro b q1 q2
      exact hk13 _ infs b hi2 (by omega) (fun i k r hrel => by
        obtain ⟨_, _, _, _, _, q4, _⟩ := hrel
        exact q4 hi1) (hinfo b ⟨q1, q2⟩)
end

end Ulp.LoadBytes
