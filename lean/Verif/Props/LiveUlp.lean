/-
C83: `ulpinfo --pid` shows of every live patch what was loaded.
C84: a mapping that is not a usable patch is left out.
-/
import Verif.Proof.LiveUlp
import Verif.Props.LoadPatch
namespace Ulp.Live
open Load LoadBytes PatchFile

/-- A patch in the memory of a process: the file with its sections, symbols and relocations,
where it was loaded, and the bytes of its mapping now. -/
structure LivePatch where
  f : List Byte
  secs : List Sec
  o : Nat
  strs : Sec
  si : Nat
  st : Sec
  str : Sec
  syms : List SymEntry
  rels : Nat → List RelEntry
  src : List Byte
  dst : List Byte
  start : BitVec 64
  find : List Byte → Option (BitVec 64)
  target : BitVec 64
  now : BitVec 64
  id : BitVec 32
  orig : List Byte
  bytes : List Byte

/-- It is a complete patch file, laid out as linkers do it and linked at its address. -/
structure LivePatch.Ok (width : Nat → Nat) (p : LivePatch) : Prop where
  elf : [0x7f, 0x45, 0x4c, 0x46] <+: p.f
  laid : Laid p.f p.secs p.o p.strs
  readable : Readable p.f p.secs
  complete : Complete p.f p.secs
  names : Meta p.f p.secs p.src p.dst
  symbols : Symbols p.f p.secs p.si p.st p.str p.syms
  relocs : Relocs width p.f p.secs p.syms.length p.rels
  plain : Plain p.f p.secs p.rels
  image : LiveImage width p.f p.secs p.o p.st p.syms p.rels p.start p.find p.src p.target p.now p.id p.orig
    p.bytes
  small : p.bytes.length < 2 ^ 64

/-- The mapping can be read: the header and the whole. -/
def LivePatch.ReadBy (p : LivePatch) (read : Pread) : Prop :=
  read p.start 64 = some (p.bytes.take 64) ∧ read p.start p.bytes.length = some p.bytes

/-- Where the mapping ends. -/
def LivePatch.stop (p : LivePatch) : BitVec 64 := p.start + BitVec.ofNat 64 p.bytes.length

/-- What a line of `ulpinfo --pid` should say of a patch. -/
structure Says (p : LivePatch) (verbose : Bool) (num : Nat) (l : Line) : Prop where
  num : l.num = num
  id : l.id = p.id
  time : l.time = p.now
  start : l.start = p.start
  dst : l.dst = p.dst
  less : verbose = false → l.more = none
  more : verbose = true → ∃ author license info bid, l.more = some (p.src, author, license, info, bid) ∧
    Texts p.f p.secs p.src p.dst author license ∧ BuildIdText p.f p.secs bid ∧
    info.ulpId = p.id ∧ info.target = p.target ∧ info.virtual = p.target ∧ info.time = p.now ∧
    info.version = 5 ∧ leBytes 8 info.orig0 ++ leBytes 8 info.orig1 = p.orig ∧
    ∃ k s, LastNamed p.syms p.src k s ∧ SymAddr p.secs p.start p.find k s info.patch

theorem touched_behind {width : Nat → Nat} {f : List Byte} {secs : List Sec} {o : Nat} {strs : Sec} {si : Nat}
    {st str : Sec} {syms : List SymEntry} {rels : Nat → List RelEntry} {src dst : List Byte}
    (l : Laid f secs o strs) (hm : Meta f secs src dst)
    (hS : Symbols f secs si st str syms) (hR : Relocs width f secs syms.length rels) {k : Nat}
    (ht : Touched width secs o st rels k) : 64 ≤ k := by
  by_cases hn : AddrFlags o secs.length k
  · obtain ⟨i, hi, h1, h2⟩ := hn
    have := l.tabFrom
    omega
  · exact (touched_out l hm hS hR ht hn).1

theorem stop_sub {p : LivePatch} (h : p.bytes.length < 2 ^ 64) : (p.stop - p.start).toNat = p.bytes.length := by
  unfold LivePatch.stop
  rw [BitVec.add_comm, BitVec.add_sub_cancel, ofNat_toNat h]

theorem live_elf {width : Nat → Nat} {p : LivePatch} (hp : p.Ok width) :
    64 ≤ p.bytes.length ∧ magicOk (p.bytes.take 64) = some true := by
  have hf := Num.le hp.laid.tab (by omega)
  have h64 : 64 ≤ p.f.length := by
    have := hp.laid.tabFrom
    have := hp.laid.tabTo
    omega
  have hl := hp.image.length
  refine ⟨by omega, PFile.magicOk_elf ?_⟩
  have e : p.bytes.take 64 = p.f.take 64 := by
    apply List.ext_getElem?
    intro k
    rw [List.getElem?_take, List.getElem?_take]
    split
    · refine hp.image.untouched k (by omega) fun ht => ?_
      have := touched_behind hp.laid hp.names hp.symbols hp.relocs ht
      omega
    · rfl
  rw [e, List.prefix_take_iff]
  exact ⟨hp.elf, by decide⟩

/-- One mapping. -/
theorem load_one {width : Nat → Nat} {p : LivePatch} (hp : p.Ok width) {read : Pread} (hr : p.ReadBy read)
    (t : Task) : ∃ d r, vmaLoadUlp read p.start p.stop t =
      .ok (⟨t.ulps ++ [⟨p.start, p.bytes, some d⟩], if t.maxId < p.id then p.id else t.maxId, t.syms ++ r⟩, 0) ∧
      Told p.f p.secs p.syms p.start p.find p.src p.dst p.target p.now p.id p.orig p.bytes d r := by
  obtain ⟨h64, hmag⟩ := live_elf hp
  obtain ⟨d, r, inf, h1, h2, h3⟩ := read_live hp.laid hp.readable hp.complete hp.names hp.symbols hp.relocs
    hp.plain hp.image hp.small
  refine ⟨d, r, ?_, h3⟩
  unfold vmaLoadUlp
  rw [hr.1]
  dsimp only
  rw [if_neg (by rw [List.length_take]; omega), hmag]
  dsimp only
  rw [stop_sub hp.small, hr.2]
  dsimp only
  rw [if_neg (by omega), h2]
  dsimp only
  unfold finish
  dsimp only
  obtain ⟨inf2, k, s, S, b1, b2, b3, b4, -⟩ := hp.image.record
  cases Load.Has.unique h1 b1
  rw [rd_num b4 (by omega) hp.small]
  dsimp only
  rw [BitVec.ofNat_toNat, BitVec.setWidth_eq]

theorem show_one {width : Nat → Nat} {p : LivePatch} (hp : p.Ok width) {d : Data}
    {r : List (List Byte × BitVec 64)}
    (h : Told p.f p.secs p.syms p.start p.find p.src p.dst p.target p.now p.id p.orig p.bytes d r)
    (verbose : Bool) (num : Nat) :
    ∃ l, showUlp verbose num ⟨p.start, p.bytes, some d⟩ = .ok l ∧ Says p verbose num l := by
  obtain ⟨sa, ta, a1, a2, a3⟩ := h.author
  obtain ⟨sl, tl, l1, l2, l3⟩ := h.license
  unfold showUlp
  dsimp only
  rw [h.dstIs]
  dsimp only
  cases verbose with
  | false =>
    rw [if_neg (by decide)]
    exact ⟨_, rfl, rfl, h.idIs, h.timeIs, rfl, rfl, fun _ => rfl, nofun⟩
  | true =>
    rw [if_pos rfl, h.srcIs, a3, l3]
    refine ⟨_, rfl, rfl, h.idIs, h.timeIs, rfl, rfl, nofun, fun _ => ⟨ta, tl, d.info, d.buildId, rfl, ?_,
      h.buildId, h.idIs, h.targetIs, h.virtual, h.timeIs, h.version, h.origIs, h.patch⟩⟩
    refine ⟨?_, ⟨sa, a1, a2⟩, ⟨sl, l1, l2⟩⟩
    obtain ⟨-, -, -, -, -, -, ⟨s, m1, m2⟩, -⟩ := hp.complete
    obtain ⟨-, magic, m3, m4, m5, -⟩ := hp.names.strtab s m1
    cases Load.Str.unique' hp.laid.describes.small m3 m2
    exact ⟨s, m1, m2, m4, m5⟩

/-! ### C83 -/

/-- C83.  When every patch in a process can be read, `ulpinfo --pid` prints one line for each of
them, in the order of the mappings, with what was loaded: the number, the two functions, author
and license, the time, the addresses, the code that was replaced and the Build ID.  The next patch
gets a number larger than these, and the symbols that each patch defines are known at their
addresses. -/
theorem C83_shows (width : Nat → Nat) (read : Pread) (verbose : Bool) :
    ∀ (ps : List LivePatch), (∀ p ∈ ps, p.Ok width ∧ p.ReadBy read) → ∀ (t : Task) (num : Nat),
    ∃ us m rs ls, loadAll read (ps.map fun p => (p.start, p.stop)) t = .ok ⟨t.ulps ++ us, m, t.syms ++ rs⟩ ∧
      showTask verbose num us = .ok ls ∧ ls.length = ps.length ∧
      (∀ (i : Nat) (p : LivePatch), ps[i]? = some p → ∃ l, ls[i]? = some l ∧ Says p verbose (num + i) l) ∧
      (t.maxId ≤ m ∧ (∀ p ∈ ps, p.id ≤ m) ∧ (m = t.maxId ∨ ∃ p ∈ ps, m = p.id)) ∧
      ∀ name x, (name, x) ∈ rs ↔ ∃ p ∈ ps, ∃ k s, p.syms[k]? = some s ∧ Defined s ∧ s.name = name ∧
        SymAddr p.secs p.start p.find k s x := by
  intro ps
  induction ps with
  | nil =>
    intro _ t num
    refine ⟨[], t.maxId, [], [], ?_, rfl, rfl, nofun, ⟨BitVec.le_refl _, nofun, Or.inl rfl⟩, ?_⟩
    · rw [List.append_nil, List.append_nil]
      rfl
    · intro name x
      exact ⟨nofun, fun ⟨_, h, _⟩ => nomatch h⟩
  | cons p ps ih =>
    intro hps t num
    obtain ⟨hp, hr⟩ := hps p (List.mem_cons_self ..)
    obtain ⟨d, r, h1, h2⟩ := load_one hp hr t
    obtain ⟨us, m, rs, ls, i1, i2, i3, i4, ⟨i5, i6, i7⟩, i8⟩ :=
      ih (fun q hq => hps q (List.mem_cons_of_mem _ hq))
        ⟨t.ulps ++ [⟨p.start, p.bytes, some d⟩], if t.maxId < p.id then p.id else t.maxId, t.syms ++ r⟩ (num + 1)
    dsimp only at i1 i5 i7
    obtain ⟨l, h3, h4⟩ := show_one hp h2 verbose num
    refine ⟨⟨p.start, p.bytes, some d⟩ :: us, m, r ++ rs, l :: ls, ?_, ?_, ?_, ?_, ⟨?_, ?_, ?_⟩, ?_⟩
    · rw [List.map_cons]
      unfold loadAll
      dsimp only
      rw [h1]
      dsimp only
      rw [i1, List.append_assoc, List.append_assoc]
      rfl
    · unfold showTask
      rw [h3]
      dsimp only
      rw [i2]
    · rw [List.length_cons, List.length_cons, i3]
    · intro i q hq
      cases i with
      | zero =>
        rw [List.getElem?_cons_zero] at hq
        cases hq
        exact ⟨l, rfl, h4⟩
      | succ i =>
        rw [List.getElem?_cons_succ] at hq
        obtain ⟨l', a, b⟩ := i4 i q hq
        refine ⟨l', by rw [List.getElem?_cons_succ]; exact a, ?_⟩
        rw [show num + (i + 1) = num + 1 + i by omega]
        exact b
    · split at i5 <;> bv_omega
    · intro q hq
      rcases List.mem_cons.1 hq with rfl | hq
      · split at i5 <;> bv_omega
      · exact i6 q hq
    · rcases i7 with h | ⟨q, hq, h⟩
      · split at h
        · exact Or.inr ⟨p, List.mem_cons_self .., h⟩
        · exact Or.inl h
      · exact Or.inr ⟨q, List.mem_cons_of_mem _ hq, h⟩
    · intro name x
      rw [List.mem_append, i8, h2.symsIs]
      constructor
      · rintro (h | ⟨q, hq, h⟩)
        · exact ⟨p, List.mem_cons_self .., h⟩
        · exact ⟨q, List.mem_cons_of_mem _ hq, h⟩
      · rintro ⟨q, hq, h⟩
        rcases List.mem_cons.1 hq with rfl | hq
        · exact Or.inl h
        · exact Or.inr ⟨q, hq, h⟩

theorem read_take (m : Mem) (a : Addr) {k n : Nat} (h : k ≤ n) : (m.read a n).take k = m.read a k := by
  apply List.ext_getElem?
  intro i
  rw [List.getElem?_take, Mem.read_getElem?, Mem.read_getElem?]
  split
  · rw [if_pos (by omega)]
  · rfl

/-- The bytes of a mapping in which a file was linked and put into memory. -/
theorem live_of_patched {width : Nat → Nat}
    {value : Nat → BitVec 64 → BitVec 64 → BitVec 64 → Option (Nat × BitVec 64)} {f : List Byte}
    {secs : List Sec} {o : Nat} {st : Sec} {syms : List SymEntry} {rels : Nat → List RelEntry}
    {a t : BitVec 64} {find : List Byte → Option (BitVec 64)} {src : List Byte} {now : BitVec 64}
    {id : BitVec 32} {g : List Byte} {inf strs str : Sec} {si : Nat} {dst : List Byte} {m m1 : Mem} {n : Nat}
    (l : Laid f secs o strs) (hm : Meta f secs src dst) (hS : Symbols f secs si st str syms)
    (hr : Readable f secs) (hi : Has secs ".ulpatch.info" inf)
    (hL : Linked width value f secs o st syms rels a find src t now id g)
    (hP : Patched g inf.offset a t m m1) (hn : f.length ≤ n) :
    LiveImage width f secs o st syms rels a find src t now id (m.read t 16) (m1.read a n) := by
  have hin := hr.info inf hi
  have hlen := hL.length
  have hi' := hi
  obtain ⟨ji, -, hji, -⟩ := hi'
  have hst := l.inside si st hS.sec (by rw [hS.type]; omega)
  have hcnt := hS.count
  have hh : ∀ k, inf.offset ≤ k → k < inf.offset + 64 → k < o ∨ o + 64 * secs.length ≤ k := fun k h1 h2 =>
    (l.headers ji inf k hji (record_in hm hi h1 h2)).2
  have hq : ∀ k, inf.offset ≤ k → k < inf.offset + 64 → ∀ i, i < st.size / 24 →
      ¬ (st.offset + 24 * i + 8 ≤ k ∧ k < st.offset + 24 * i + 16) := by
    intro k h1 h2 i h3 h4
    have := l.apart ji si inf st k hji hS.sec (record_in hm hi h1 h2) (value_in hS h3 h4.1 h4.2)
    subst this
    rw [hS.sec] at hji
    cases hji
    have := (hm.info _ hi).1
    rw [hS.type] at this
    omega
  have img : ∀ k, k < f.length → ¬ (inf.offset + 28 ≤ k ∧ k < inf.offset + 44) →
      (m1.read a n)[k]? = g[k]? := by
    intro k hk ho
    have e : g[k]? = some g[k] := List.getElem?_eq_getElem (by omega)
    rw [Mem.read_getElem?, if_pos (by omega), e, hP.image k _ e ho]
  have num : ∀ {off w v : Nat}, 0 < w → Num g off w v → off + w ≤ inf.offset + 28 ∨ inf.offset + 44 ≤ off →
      Num (m1.read a n) off w v := by
    intro off w v h0 h1 h2
    have h3 := Num.le h1 h0
    exact num_congr h1 fun k _ _ => img k (by omega) (by omega)
  constructor
  · rw [Mem.read_length]
    exact hn
  · intro k hk ht
    rw [img k hk fun h => ht (.record hi (by omega) (by omega))]
    exact hL.untouched k ht
  · intro k s hs
    obtain ⟨S, h1, h2⟩ := hL.symbols k s hs
    refine ⟨S, h1, ?_⟩
    have h3 := Num.le h2 (by omega)
    have hk := (List.getElem?_eq_some_iff.1 hs).1
    exact num_congr h2 fun k' _ _ => img k' (by omega) fun h =>
      hq k' (by omega) (by omega) k (by omega) ⟨by omega, by omega⟩
  · intro j s hj hs
    have h2 := hL.sections j s hj hs
    have h3 := Num.le h2 (by omega)
    have h4 := (List.getElem?_eq_some_iff.1 hs).1
    exact num_congr h2 fun k' _ _ => img k' (by omega) fun h => by
      have := hh k' (by omega) (by omega)
      omega
  · obtain ⟨inf2, k, s, S, b1, b2, b3, b4, b5, b6, b7, b8, b9⟩ := hL.record
    cases Load.Has.unique hi b1
    refine ⟨inf, k, s, S, hi, b2, b3, num (by omega) b4 (by omega), num (by omega) b5 (by omega),
      num (by omega) b6 (by omega), num (by omega) b7 (by omega), Mem.read_length .., ?_,
      num (by omega) b8 (by omega), ?_⟩
    · rw [List.prefix_iff_eq_take, Mem.read_length]
      apply List.ext_getElem?
      intro j
      rw [List.getElem?_take, List.getElem?_drop, Mem.read_getElem?, Mem.read_getElem?]
      split
      · rename_i hj
        rw [if_pos (by omega), hP.saved j hj]
      · rfl
    · intro k h1
      rw [img _ (by omega) (by omega)]
      exact b9 k (Or.inr h1)

section
variable {f : List Byte} {secs : List Sec} {o : Nat} {strs : Sec} {si : Nat} {st str : Sec}
  {syms : List SymEntry} {rels : Nat → List RelEntry} {src dst : List Byte}

/-- C83, x86_64.  After a patch command that succeeds, `ulpinfo --pid` shows the patch: with the
number after the largest of the live patches, at the address of the mapping, with the address of
the replaced function, the new one and the 16 bytes of code that were replaced. -/
theorem C83_x86_patched (l : Laid f secs o strs) (hr : Readable f secs) (hm : Meta f secs src dst)
    (hS : Symbols f secs si st str syms) (hR : Relocs Psabi.x86Width f secs syms.length rels)
    (helf : [0x7f, 0x45, 0x4c, 0x46] <+: f) (hp : Plain f secs rels)
    {w w1 : Patch.World} {rd : Patch.Mapping → Patch.ReadRes}
    {hdr a : Addr} {find : List Byte → Option (BitVec 64)} {now : BitVec 64} {e : Patch.PatchEnv}
    (harch : w.arch = .x86_64) (hrec : e.info0.orig.length = 16) (hmap : e.mmap = .created a)
    (hsep : ∀ t, find dst = some t → ∀ k j, k < f.length → j < 16 →
      a + BitVec.ofNat 64 k ≠ t + BitVec.ofNat 64 j)
    (h : patchFile x86 w rd hdr find now f e = some (w1, 0))
    {n : Nat} (hn : f.length ≤ n) (hn' : n < 2 ^ 64) {read : Pread}
    (hread : ∀ k, k ≤ n → read a k = some (w1.mem.read a k)) (t : Task) (verbose : Bool) (num : Nat) :
    ∃ ses target u m rs line, Patch.openTask true rd w = some ses ∧ find dst = some target ∧
      vmaLoadUlp read a (a + BitVec.ofNat 64 n) t = .ok (⟨t.ulps ++ [u], m, t.syms ++ rs⟩, 0) ∧
      showUlp verbose num u = .ok line ∧
      Says ⟨f, secs, o, strs, si, st, str, syms, rels, src, dst, a, find, target, now, ses.maxId + 1,
        w.mem.read target 16, w1.mem.read a n⟩ verbose num line := by
  obtain ⟨g, inf, target, ses, h1, hc, h2, h3, h4, h5, -⟩ :=
    C58_x86_patched l hr hm hS hR harch hrec hmap hsep h
  have himg := live_of_patched l hm hS hr h2 h4 h5 hn
  have hok : LivePatch.Ok Psabi.x86Width ⟨f, secs, o, strs, si, st, str, syms, rels, src, dst, a, find, target,
      now, ses.maxId + 1, w.mem.read target 16, w1.mem.read a n⟩ :=
    ⟨helf, l, hr, hc, hm, hS, hR, hp, himg, by dsimp only; rw [Mem.read_length]; exact hn'⟩
  have h64 : 64 ≤ n := by
    have := (live_elf hok).1
    dsimp only at this
    rw [Mem.read_length] at this
    exact this
  have hrb : LivePatch.ReadBy ⟨f, secs, o, strs, si, st, str, syms, rels, src, dst, a, find, target,
      now, ses.maxId + 1, w.mem.read target 16, w1.mem.read a n⟩ read := by
    constructor
    · dsimp only
      rw [hread 64 h64]
      rw [read_take _ _ h64]
    · dsimp only
      rw [Mem.read_length]
      exact hread n (Nat.le_refl _)
  obtain ⟨d, r, h6, h7⟩ := load_one hok hrb t
  obtain ⟨line, h8, h9⟩ := show_one hok h7 verbose num
  unfold LivePatch.stop at h6
  dsimp only at h6
  rw [Mem.read_length] at h6
  exact ⟨ses, target, _, _, r, line, h1, h3, h6, h8, h9⟩

/-- C83, aarch64. -/
theorem C83_a64_patched (l : Laid f secs o strs) (hr : Readable f secs) (hm : Meta f secs src dst)
    (hS : Symbols f secs si st str syms) (hR : Relocs Psabi.a64Width f secs syms.length rels)
    (helf : [0x7f, 0x45, 0x4c, 0x46] <+: f) (hp : Plain f secs rels) (junk : Bool)
    {w w1 : Patch.World} {rd : Patch.Mapping → Patch.ReadRes}
    {hdr a : Addr} {find : List Byte → Option (BitVec 64)} {now : BitVec 64} {e : Patch.PatchEnv}
    (harch : w.arch = .aarch64) (hrec : e.info0.orig.length = 16) (hmap : e.mmap = .created a)
    (hsep : ∀ t, find dst = some t → ∀ k j, k < f.length → j < 16 →
      a + BitVec.ofNat 64 k ≠ t + BitVec.ofNat 64 j)
    (h : patchFile (a64 junk) w rd hdr find now f e = some (w1, 0))
    {n : Nat} (hn : f.length ≤ n) (hn' : n < 2 ^ 64) {read : Pread}
    (hread : ∀ k, k ≤ n → read a k = some (w1.mem.read a k)) (t : Task) (verbose : Bool) (num : Nat) :
    ∃ ses target u m rs line, Patch.openTask true rd w = some ses ∧ find dst = some target ∧
      vmaLoadUlp read a (a + BitVec.ofNat 64 n) t = .ok (⟨t.ulps ++ [u], m, t.syms ++ rs⟩, 0) ∧
      showUlp verbose num u = .ok line ∧
      Says ⟨f, secs, o, strs, si, st, str, syms, rels, src, dst, a, find, target, now, ses.maxId + 1,
        w.mem.read target 16, w1.mem.read a n⟩ verbose num line := by
  obtain ⟨g, inf, target, ses, h1, hc, h2, h3, h4, h5, -⟩ :=
    C58_a64_patched_partial l hr hm hS hR junk harch hrec hmap hsep h
  have himg := live_of_patched l hm hS hr h2 h4 h5 hn
  have hok : LivePatch.Ok Psabi.a64Width ⟨f, secs, o, strs, si, st, str, syms, rels, src, dst, a, find, target,
      now, ses.maxId + 1, w.mem.read target 16, w1.mem.read a n⟩ :=
    ⟨helf, l, hr, hc, hm, hS, hR, hp, himg, by dsimp only; rw [Mem.read_length]; exact hn'⟩
  have h64 : 64 ≤ n := by
    have := (live_elf hok).1
    dsimp only at this
    rw [Mem.read_length] at this
    exact this
  have hrb : LivePatch.ReadBy ⟨f, secs, o, strs, si, st, str, syms, rels, src, dst, a, find, target,
      now, ses.maxId + 1, w.mem.read target 16, w1.mem.read a n⟩ read := by
    constructor
    · dsimp only
      rw [hread 64 h64]
      rw [read_take _ _ h64]
    · dsimp only
      rw [Mem.read_length]
      exact hread n (Nat.le_refl _)
  obtain ⟨d, r, h6, h7⟩ := load_one hok hrb t
  obtain ⟨line, h8, h9⟩ := show_one hok h7 verbose num
  unfold LivePatch.stop at h6
  dsimp only at h6
  rw [Mem.read_length] at h6
  exact ⟨ses, target, _, _, r, line, h1, h3, h6, h8, h9⟩

end

/-! ### An example -/

theorem lk_plain : Plain lkFile lkSecs lkRels := by
  refine ⟨?_, ?_, ?_, ?_⟩
  · intro s hs
    cases Load.Has.unique lk_author hs
    exact ⟨rfl, lit "Tao", str_of (by decide +kernel), by decide⟩
  · intro s hs
    cases Load.Has.unique lk_license hs
    exact ⟨rfl, lit "GPL", str_of (by decide +kernel), by decide⟩
  · intro s hs
    cases Load.Has.unique lk_note hs
    exact ⟨4, 4, num_of (by decide +kernel), num_of (by decide +kernel), by decide⟩
  · intro i k t r hr
    obtain ⟨-, rfl, -⟩ := lk_reloc hr
    refine ⟨?_, ?_, ?_⟩ <;> (rintro ⟨_, -, -, h, -⟩; revert h; decide)

/-- The patch of `pfWorld` (C58) as the next command sees it: number 4, because number 3 was there. -/
example : ∃ w1 u m rs line, patchFile x86 pfWorld Patch.allOk 0x7f0000000000 lkEnv.find 77 lkFile pfEnv = some (w1, 0) ∧
    vmaLoadUlp (fun a n => some (w1.mem.read a n)) 0x10000000 0x10001000 ⟨[], 0, []⟩ = .ok (⟨[u], m, rs⟩, 0) ∧
    showUlp false 1 u = .ok line ∧ line.id = 4 ∧ line.dst = lit "old_f" ∧ line.time = 77 ∧
    line.start = 0x10000000 := by
  obtain ⟨w1, h⟩ := pf_applied
  obtain ⟨ses, target, u, m, rs, line, h1, h2, h3, h4, h5⟩ := C83_x86_patched lk_laid lk_readable lk_meta lk_symbols
    lk_relocs (List.isPrefixOf_iff_prefix.1 (by decide +kernel)) lk_plain rfl (by decide) rfl pf_sep h
    (n := 4096) (by decide +kernel) (by decide) (read := fun a n => some (w1.mem.read a n))
    (fun _ _ => rfl) ⟨[], 0, []⟩ false 1
  refine ⟨w1, u, m, rs, line, h, h3, h4, ?_, h5.dst, h5.time, h5.start⟩
  rw [h5.id]
  dsimp only
  have ho := Patch.openTask_ok Patch.allOk pfWorld true (fun _ _ => rfl) (by decide)
  rw [ho] at h1
  cases h1
  decide

/-- All patches of `pfWorld` after this command that can be read: the one line. -/
example (n : Nat) (hn : 1082 ≤ n) (hn' : n < 2 ^ 64) : ∃ (w1 : Patch.World) (p : LivePatch),
    patchFile x86 pfWorld Patch.allOk 0x7f0000000000 lkEnv.find 77 lkFile pfEnv = some (w1, 0) ∧
    p.bytes = w1.mem.read 0x10000000 n ∧ p.Ok Psabi.x86Width ∧ p.ReadBy fun a n => some (w1.mem.read a n) := by
  obtain ⟨w1, h⟩ := pf_applied
  obtain ⟨g, inf, target, ses, h1, hc, h2, h3, h4, h5, -⟩ :=
    C58_x86_patched lk_laid lk_readable lk_meta lk_symbols lk_relocs rfl (by decide) rfl pf_sep h
  have helf : [0x7f, 0x45, 0x4c, 0x46] <+: lkFile := List.isPrefixOf_iff_prefix.1 (by decide +kernel)
  have h64 : 64 ≤ n := by omega
  have himg := live_of_patched (n := n) lk_laid lk_meta lk_symbols lk_readable h2 h4 h5
    (by rw [show lkFile.length = 1082 by decide +kernel]; exact hn)
  refine ⟨w1, ⟨lkFile, lkSecs, 442, ⟨lit ".strtab", 3, 0, 0, 313, 129, 0, 0⟩, 8,
    ⟨lit ".symtab", 2, 0, 0, 193, 72, 9, 1⟩, ⟨lit ".strtab", 3, 0, 0, 313, 129, 0, 0⟩, lkSyms, lkRels,
    lit "new_f", lit "old_f", 0x10000000, lkEnv.find, target, 77, ses.maxId + 1,
    pfWorld.mem.read target 16, w1.mem.read 0x10000000 n⟩, h, rfl,
    ⟨helf, lk_laid, lk_readable, hc, lk_meta, lk_symbols, lk_relocs,
      lk_plain, himg, ?_⟩, ?_, ?_⟩
  · dsimp only
    rw [Mem.read_length]
    exact hn'
  · dsimp only
    rw [read_take _ _ h64]
  · dsimp only
    rw [Mem.read_length]

/-! ### C84 -/

theorem magicOk_other {e : List Byte} (hl : 4 ≤ e.length) (hm : ¬ [0x7f, 0x45, 0x4c, 0x46] <+: e) :
    magicOk e = some false := by
  match e, hl, hm with
  | a :: b :: c :: d :: e, hl, hm =>
    have rd1 : ∀ k : Nat, k < 4 → Load.rd (a :: b :: c :: d :: e) (BitVec.ofNat 64 k) 1 =
        some (leNat (((a :: b :: c :: d :: e).drop k).take 1)) := by
      intro k hk
      unfold Load.rd
      rw [ofNat_toNat (by omega), if_pos (by omega)]
    unfold magicOk
    rw [show (0 : BitVec 64) = BitVec.ofNat 64 0 from rfl, rd1 0 (by omega),
      show (1 : BitVec 64) = BitVec.ofNat 64 1 from rfl, rd1 1 (by omega),
      show (2 : BitVec 64) = BitVec.ofNat 64 2 from rfl, rd1 2 (by omega),
      show (3 : BitVec 64) = BitVec.ofNat 64 3 from rfl, rd1 3 (by omega)]
    dsimp only [List.drop, List.take, leNat]
    congr 1
    rw [Bool.eq_false_iff]
    intro hall
    simp only [Bool.and_eq_true, decide_eq_true_eq] at hall
    refine hm ⟨e, ?_⟩
    have ha : a = 0x7f := BitVec.eq_of_toNat_eq (by rw [show (0x7f : Byte).toNat = 0x7f from rfl]; omega)
    have hb : b = 0x45 := BitVec.eq_of_toNat_eq (by rw [show (0x45 : Byte).toNat = 0x45 from rfl]; omega)
    have hc : c = 0x4c := BitVec.eq_of_toNat_eq (by rw [show (0x4c : Byte).toNat = 0x4c from rfl]; omega)
    have hd : d = 0x46 := BitVec.eq_of_toNat_eq (by rw [show (0x46 : Byte).toNat = 0x46 from rfl]; omega)
    rw [ha, hb, hc, hd]
    rfl

/-- C84, partial.  A mapping whose first 64 bytes cannot be read or are not an ELF header is left
out and nothing is changed.  Missing: that any other mapping that is not a usable patch is left
out; see `C84_short`, `C84_no_record`, `C84_incomplete` and `C84_no_build_id`. -/
theorem C84_skipped_partial (read : Pread) (start stop : Addr) (t : Task)
    (h : read start 64 = none ∨ ∃ e, read start 64 = some e ∧
      (e.length < 64 ∨ ¬ [0x7f, 0x45, 0x4c, 0x46] <+: e)) :
    ∃ c, vmaLoadUlp read start stop t = .ok (t, c) ∧ c < 0 := by
  unfold vmaLoadUlp
  rcases h with h | ⟨e, h, h'⟩
  · rw [h]
    exact ⟨_, rfl, by decide⟩
  · rw [h]
    dsimp only
    by_cases hl : e.length < 64
    · rw [if_pos hl]
      exact ⟨_, rfl, by decide⟩
    · rw [if_neg hl]
      have hm := h'.resolve_left hl
      rw [magicOk_other (by omega) hm]
      exact ⟨_, rfl, by decide⟩

/-- C84, partial.  A mapping whose first 64 bytes cannot be read or are not an ELF header makes no
difference to the other mappings: what the process is known to have is the same as without it.
Missing: the same for the mappings of `C84_short`, `C84_no_record`, `C84_incomplete` and
`C84_no_build_id`. -/
theorem C84_others_partial (read : Pread) (start stop : Addr)
    (h : read start 64 = none ∨ ∃ e, read start 64 = some e ∧
      (e.length < 64 ∨ ¬ [0x7f, 0x45, 0x4c, 0x46] <+: e)) (a b : List (Addr × Addr)) (t : Task) :
    loadAll read (a ++ (start, stop) :: b) t = loadAll read (a ++ b) t := by
  induction a generalizing t with
  | nil =>
    obtain ⟨c, hc, _⟩ := C84_skipped_partial read start stop t h
    rw [List.nil_append, List.nil_append]
    show loadAll read ((start, stop) :: b) t = _
    conv => lhs; unfold loadAll
    dsimp only
    rw [hc]
  | cons m a ih =>
    rw [List.cons_append, List.cons_append]
    unfold loadAll
    split
    · rfl
    · exact ih _

example : vmaLoadUlp (fun _ n => some (List.replicate n 0)) 0x1000 0x2000 ⟨[], 3, []⟩ = .ok (⟨[], 3, []⟩, -2) := by
  decide +kernel

/-- C84 is violated.  A mapping with an ELF header that cannot be read to its end (it was unmapped in
between, or the file under it is shorter): a list node that was never initialised is unlinked. -/
theorem C84_short (read : Pread) (start stop : Addr) (t : Task) (e : List Byte)
    (h1 : read start 64 = some e) (h2 : 64 ≤ e.length) (h3 : [0x7f, 0x45, 0x4c, 0x46] <+: e)
    (h4 : read start (stop - start).toNat = none ∨
      ∃ b, read start (stop - start).toNat = some b ∧ b.length < (stop - start).toNat) :
    vmaLoadUlp read start stop t = .error .garbage := by
  unfold vmaLoadUlp
  rw [h1]
  dsimp only
  rw [if_neg (by omega), PFile.magicOk_elf h3]
  dsimp only
  rcases h4 with h4 | ⟨b, h4, h5⟩
  · rw [h4]
  · rw [h4]
    dsimp only
    rw [if_pos h5]

example : vmaLoadUlp (fun _ n => some ((lkFile.take 1000).take n)) 0x1000 0x2000 ⟨[], 3, []⟩ = .error .garbage :=
  C84_short _ _ _ _ (lkFile.take 64) (by decide +kernel) (by decide +kernel)
    (List.isPrefixOf_iff_prefix.1 (by decide +kernel)) (Or.inr ⟨_, rfl, by decide +kernel⟩)

/-- The mapping of a readable ELF file. -/
structure Mapped (read : Pread) (start stop : Addr) (h : List Byte) (secs : List Sec) : Prop where
  head : read start 64 = some (h.take 64)
  whole : read start (stop - start).toNat = some h
  length : (stop - start).toNat = h.length
  elf : [0x7f, 0x45, 0x4c, 0x46] <+: h
  describes : Describes h secs
  readable : Readable h secs

theorem mapped_load {read : Pread} {start stop : Addr} {h : List Byte} {secs : List Sec}
    (m : Mapped read start stop h secs) (t : Task) : vmaLoadUlp read start stop t =
      match loadUlpInfo start h with
      | .error b => .error b
      | .ok r => finish start h r t := by
  have h64 : 64 ≤ h.length := by
    obtain ⟨o, x, strs, d⟩ := Describes.desc m.describes
    exact Num.le d.hx (by omega)
  have hpre : [0x7f, 0x45, 0x4c, 0x46] <+: h.take 64 := by
    rw [List.prefix_take_iff]
    exact ⟨m.elf, by decide⟩
  unfold vmaLoadUlp
  rw [m.head]
  dsimp only
  rw [if_neg (by rw [List.length_take]; omega), PFile.magicOk_elf hpre]
  dsimp only
  rw [m.whole]
  dsimp only
  rw [m.length, if_neg (by omega)]
  rfl

theorem infoPtr_spec {h : List Byte} {secs : List Sec} (hd : Describes h secs) :
    (infoPtr h = some none ∧ ¬ HasInfo secs) ∨
    ∃ s, infoPtr h = some (some (BitVec.ofNat 64 s.offset)) ∧ Has secs ".ulpatch.info" s := by
  obtain ⟨o, x, strs, d⟩ := Describes.desc hd
  obtain ⟨ssh, hssh, hsa, -⟩ := d.shdr d.hstrs
  unfold infoPtr
  rw [show shstrndx h = some x from rd_num' d.hx (by omega) d.small rfl]
  dsimp only
  rw [hssh]
  dsimp only
  rw [hsa.offset]
  rcases findSec_has d ".ulpatch.info" (by decide) with ⟨hf, hno⟩ | ⟨k, s, hf, hk, hhas, hat⟩
  · rw [hf]
    dsimp only
    rw [if_pos rfl]
    exact Or.inl ⟨rfl, hno⟩
  · rw [hf]
    dsimp only
    obtain ⟨sh, h1, ha, -⟩ := d.shdr hat
    rw [if_neg hk, h1]
    dsimp only
    rw [ha.offset]
    exact Or.inr ⟨s, rfl, hhas⟩

theorem load_incomplete {h : List Byte} {secs : List Sec} (hd : Describes h secs) (hr : Readable h secs)
    (hc : ¬ Complete h secs) (start : Addr) : ∃ p, infoPtr h = some p ∧ loadUlpInfo start h = .ok ⟨none, [], p⟩ := by
  obtain ⟨o, x, strs, d⟩ := Describes.desc hd
  obtain ⟨r, h1, -, -, -⟩ := setup_master d hr
  unfold loadUlpInfo
  rw [PFile.chkLen_describes hd]
  dsimp only
  rw [h1]
  cases r with
  | ok i => exact absurd ((C19_accepts_iff h secs hd hr).mp ⟨i, h1⟩) hc
  | error e =>
    dsimp only
    rcases infoPtr_spec hd with ⟨h2, -⟩ | ⟨s, h2, -⟩ <;> rw [h2] <;> exact ⟨_, rfl, rfl⟩

/-- C84 is violated.  The mapping of an ELF file without `.ulpatch.info`: a null pointer is used. -/
theorem C84_no_record {read : Pread} {start stop : Addr} {h : List Byte} {secs : List Sec}
    (m : Mapped read start stop h secs) (hi : ¬ HasInfo secs) (t : Task) :
    vmaLoadUlp read start stop t = .error .null := by
  rw [mapped_load m]
  obtain ⟨p, h1, h2⟩ := load_incomplete m.describes m.readable (fun h => hi h.1) start
  rw [h2]
  dsimp only
  rcases infoPtr_spec m.describes with ⟨h3, -⟩ | ⟨s, -, h4⟩
  · rw [h3] at h1
    cases h1
    rfl
  · exact absurd ⟨s, h4⟩ hi

/-- C84 is violated.  The mapping of a patch with a record but of another version, or without a
section, magic or symbols: it stays in the list with fields that were never set, and listing the
patches of the process uses them. -/
theorem C84_incomplete {read : Pread} {start stop : Addr} {h : List Byte} {secs : List Sec}
    (m : Mapped read start stop h secs) (hi : HasInfo secs) (hc : ¬ Complete h secs) (t : Task) :
    ∃ t', vmaLoadUlp read start stop t = .ok (t', 0) ∧ t'.ulps = t.ulps ++ [⟨start, h, none⟩] ∧
      ∀ verbose num, showUlp verbose num ⟨start, h, none⟩ = .error .garbage := by
  rw [mapped_load m]
  obtain ⟨p, h1, h2⟩ := load_incomplete m.describes m.readable hc start
  rw [h2]
  dsimp only
  rcases infoPtr_spec m.describes with ⟨-, h4⟩ | ⟨s, h3, h4⟩
  · exact absurd hi h4
  · rw [h3] at h1
    cases h1
    unfold finish
    dsimp only
    have hle := m.readable.info s h4
    rw [rd_num (Num.of_le (f := h) (off := s.offset) (n := 4) (by omega)) (by omega) m.describes.small]
    exact ⟨_, rfl, rfl, fun _ _ => rfl⟩

theorem showTask_garbage (verbose : Bool) : ∀ (us : List Ulp) (num : Nat) (u : Ulp), u ∈ us → u.data = none →
    ∃ b, showTask verbose num us = .error b := by
  intro us
  induction us with
  | nil => exact fun _ _ h => nomatch h
  | cons v us ih =>
    intro num u hu hd
    unfold showTask
    cases hv : showUlp verbose num v with
    | error b => exact ⟨b, rfl⟩
    | ok l =>
      dsimp only
      rcases List.mem_cons.1 hu with rfl | hu
      · unfold showUlp at hv
        rw [hd] at hv
        cases hv
      · obtain ⟨b, h⟩ := ih (num + 1) u hu hd
        rw [h]
        exact ⟨b, rfl⟩

/-- C84 is violated: then the patches of the process cannot be listed at all. -/
theorem C84_not_listed {read : Pread} {start stop : Addr} {h : List Byte} {secs : List Sec}
    (m : Mapped read start stop h secs) (hi : HasInfo secs) (hc : ¬ Complete h secs) (t t' : Task)
    (ht : vmaLoadUlp read start stop t = .ok (t', 0)) (more : List Ulp) (verbose : Bool) :
    ∃ b, showTask verbose 1 (t'.ulps ++ more) = .error b := by
  obtain ⟨t2, h1, h2, -⟩ := C84_incomplete m hi hc t
  rw [ht] at h1
  cases h1
  refine showTask_garbage verbose _ 1 ⟨start, h, none⟩ ?_ rfl
  rw [h2]
  simp

/-- C84 is violated.  The note is there but is not a Build ID: a null pointer is copied
(or reading goes wrong before that). -/
theorem C84_no_build_id {read : Pread} {start stop : Addr} {h : List Byte} {secs : List Sec}
    (m : Mapped read start stop h secs) (hc : Complete h secs) (s : Sec)
    (hs : Has secs ".note.gnu.build-id" s) (hn : ¬ Num h (s.offset + 8) 4 3) (t : Task) :
    ∃ b, vmaLoadUlp read start stop t = .error b := by
  rw [mapped_load m]
  obtain ⟨li, hli⟩ := (C19_accepts_iff h secs m.describes m.readable).mpr hc
  obtain ⟨o, x, strs, d⟩ := Describes.desc m.describes
  obtain ⟨r, h1, -, -, h3⟩ := setup_master d m.readable
  rw [hli] at h1
  cases h1
  obtain ⟨s', n, ds, ty, b1, -, -, b2, b3⟩ := (h3 li rfl).buildId
  cases Load.Has.unique hs b1
  have hbid : li.buildId = none := by
    rw [b3, if_neg]
    rintro rfl
    exact hn b2
  have : ∃ b, loadUlpInfo start h = .error b := by
    unfold loadUlpInfo
    rw [PFile.chkLen_describes m.describes]
    dsimp only
    rw [hli]
    dsimp only
    rw [hbid]
    split
    · exact ⟨_, rfl⟩
    · split
      · exact ⟨_, rfl⟩
      · split
        · exact ⟨_, rfl⟩
        · exact ⟨_, rfl⟩
        · rename_i h
          cases h
  obtain ⟨b, hb⟩ := this
  rw [hb]
  exact ⟨b, rfl⟩

/-! ### Files that are not usable patches -/

/-- An ELF file with one, empty, section. -/
def bareFile : Image :=
  [0x7f, 0x45, 0x4c, 0x46, 2, 1, 1, 0] ++ leBytes 8 0 ++ leBytes 8 0x003e0001 ++ leBytes 8 0
    ++ leBytes 8 0 ++ leBytes 8 64 ++ leBytes 8 0 ++ leBytes 4 0 ++ leBytes 2 1 ++ leBytes 2 0
    ++ lkHdr 0 0 0 8 0 0 0

theorem bare_mapped : Mapped (fun _ n => some (bareFile.take n)) 0x1000 0x1080 bareFile
    [⟨[], 0, 0, 0, 8, 0, 0, 0⟩] := by
  have hno : ∀ n s, ¬ Has [⟨[], 0, 0, 0, 8, 0, 0, 0⟩] n s := by
    rintro n s ⟨i, h0, hi, -⟩
    match i, h0, hi with
    | j + 1, _, hi => cases hi
  refine ⟨rfl, by decide +kernel, by decide +kernel, List.isPrefixOf_iff_prefix.1 (by decide +kernel), ?_,
    fun s h => absurd h (hno _ _), fun s h => absurd h (hno _ _), fun s h => absurd h (hno _ _), ?_⟩
  · refine ⟨by decide +kernel, num_of (by decide +kernel), 64, 0, ⟨[], 0, 0, 0, 8, 0, 0, 0⟩,
      num_of (by decide +kernel), num_of (by decide +kernel), rfl, ?_⟩
    intro i s hs
    match i, hs with
    | 0, hs => cases hs; exact header_of (k := 0) (by decide +kernel)
    | n + 1, hs => cases hs
  · intro i s hs h2
    match i, hs with
    | 0, hs => cases hs; cases h2
    | n + 1, hs => cases hs

example (t : Task) : vmaLoadUlp (fun _ n => some (bareFile.take n)) 0x1000 0x1080 t = .error .null :=
  C84_no_record bare_mapped (by
    rintro ⟨s, i, h0, hi, -⟩
    match i, h0, hi with
    | j + 1, _, hi => cases hi) t

/-- The example patch with byte `k` changed. -/
theorem changed_laid (k : Nat) (b : Byte) (hk : (k = 157 ∨ k = 181)) :
    Laid (lkFile.set k b) lkSecs 442 ⟨lit ".strtab", 3, 0, 0, 313, 129, 0, 0⟩ := by
  refine lk_laid.keep (W := fun j => j = k) ⟨List.length_set, fun j hj => ?_⟩ ?_
  · rw [List.getElem?_set_ne (Ne.symm hj)]
  · rintro j rfl
    refine ⟨by omega, Or.inl (by omega), ?_⟩
    rintro ⟨-, h, -⟩
    dsimp only at h
    omega

/-- Of version 4. -/
theorem old_mapped : Mapped (fun _ n => some ((lkFile.set 157 4).take n)) 0x1000 0x143a (lkFile.set 157 4) lkSecs := by
  refine ⟨rfl, by decide +kernel, by decide +kernel, List.isPrefixOf_iff_prefix.1 (by decide +kernel),
    (changed_laid _ _ (Or.inl rfl)).describes, ?_⟩
  refine ⟨?_, ?_, ?_, lk_readable.sym⟩
  · intro s hs
    rw [List.length_set]
    exact lk_readable.info s hs
  · intro s hs
    cases Load.Has.unique lk_strtab hs
    exact ⟨lit ".ULPATCH", lit "new_f", lit "old_f", str_of (by decide +kernel),
      str_of (by decide +kernel), str_of (by decide +kernel)⟩
  · intro s hs
    cases Load.Has.unique lk_note hs
    exact ⟨4, 4, 3, num_of (by decide +kernel), num_of (by decide +kernel),
      num_of (by decide +kernel), by decide, by decide +kernel⟩

theorem old_incomplete : ¬ Complete (lkFile.set 157 4) lkSecs := by
  rintro ⟨-, ⟨s, hs, hn⟩, -⟩
  cases Load.Has.unique lk_info hs
  have h4 : Num (lkFile.set 157 4) (101 + 56) 4 4 := num_of (by decide +kernel)
  exact absurd (hn.unique h4) (by decide)

example : ∃ t', vmaLoadUlp (fun _ n => some ((lkFile.set 157 4).take n)) 0x1000 0x143a ⟨[], 0, []⟩ = .ok (t', 0) ∧
    ∀ more verbose, ∃ b, showTask verbose 1 (t'.ulps ++ more) = .error b := by
  obtain ⟨t', h, -⟩ := C84_incomplete old_mapped ⟨_, lk_info⟩ old_incomplete ⟨[], 0, []⟩
  exact ⟨t', h, fun more verbose => C84_not_listed old_mapped ⟨_, lk_info⟩ old_incomplete _ t' h more verbose⟩

/-- With another kind of note. -/
theorem other_mapped : Mapped (fun _ n => some ((lkFile.set 181 4).take n)) 0x1000 0x143a (lkFile.set 181 4)
    lkSecs := by
  refine ⟨rfl, by decide +kernel, by decide +kernel, List.isPrefixOf_iff_prefix.1 (by decide +kernel),
    (changed_laid _ _ (Or.inr rfl)).describes, ?_⟩
  refine ⟨?_, ?_, ?_, lk_readable.sym⟩
  · intro s hs
    rw [List.length_set]
    exact lk_readable.info s hs
  · intro s hs
    cases Load.Has.unique lk_strtab hs
    exact ⟨lit ".ULPATCH", lit "new_f", lit "old_f", str_of (by decide +kernel),
      str_of (by decide +kernel), str_of (by decide +kernel)⟩
  · intro s hs
    cases Load.Has.unique lk_note hs
    exact ⟨4, 4, 4, num_of (by decide +kernel), num_of (by decide +kernel),
      num_of (by decide +kernel), by decide, by decide +kernel⟩

theorem other_complete : Complete (lkFile.set 181 4) lkSecs :=
  ⟨⟨_, lk_info⟩, ⟨_, lk_info, num_of (by decide +kernel)⟩, ⟨_, lk_strtab⟩, ⟨_, lk_author⟩,
    ⟨_, lk_license⟩, ⟨_, lk_note, rfl⟩, ⟨_, lk_strtab, str_of (by decide +kernel)⟩,
    8, _, by decide, rfl, rfl⟩

example (t : Task) : ∃ b, vmaLoadUlp (fun _ n => some ((lkFile.set 181 4).take n)) 0x1000 0x143a t = .error b :=
  C84_no_build_id other_mapped other_complete _ lk_note (by
    intro h
    have h4 : Num (lkFile.set 181 4) (173 + 8) 4 4 := num_of (by decide +kernel)
    exact absurd (h.unique h4) (by decide)) t

end Ulp.Live
