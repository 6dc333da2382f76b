/-
C57: a patch file, loaded, is the file linked at its address in the target.
-/
import Verif.Proof.LoadMachine
namespace Ulp.LoadBytes
open Load PatchFile

section
variable {f : List Byte} {secs : List Sec} {o : Nat} {strs : Sec} {si : Nat} {st str : Sec}
  {syms : List SymEntry} {rels : Nat → List RelEntry} {src dst : List Byte}

theorem Good.linked {M : Machine} {E : Env} {L : Loaded} (l : Laid f secs o strs)
    (hm : Meta f secs src dst) (hS : Symbols f secs si st str syms)
    {value : Nat → BitVec 64 → BitVec 64 → BitVec 64 → Option (Nat × BitVec 64)}
    (hv : ∀ i k t r s, Reloc secs rels i k t r → syms[r.sym]? = some s →
      Done M f E.hdr E.th (newSyms secs E.th E.find syms) rels L.img i t r →
      ∀ w v, value r.type (BitVec.ofNat 64 (newVal secs E.th E.find r.sym s)) (BitVec.ofNat 64 r.addend)
        (E.th + BitVec.ofNat 64 t.offset + BitVec.ofNat 64 r.offset) = some (w, v) →
        Num L.img (t.offset + r.offset) w (v.toNat % 256 ^ w))
    (hR : Relocs M.width f secs syms.length rels)
    (h : Good M E f secs o st syms rels src dst L) :
    ∃ a, E.find dst = some a ∧
      Linked M.width value f secs o st syms rels E.th E.find src a E.now (E.maxId + 1) L.img := by
  obtain ⟨inf, a, k, s, r0, h1, h2, h3, h4, h5, h6, h7⟩ := h.record
  have hin : inf.offset + 64 ≤ f.length := by
    obtain ⟨e1, e2⟩ := hm.info inf h1
    obtain ⟨i, _, hi, _⟩ := h1
    have := l.inside i inf hi (by omega)
    omega
  have hN := recNums h7
  have hN0 := readInfo_nums l.describes.small hin h4
  rw [h5] at hN
  refine ⟨a, h2, h.keep.len, h.keep.same, ?_, ?_, h.addrs, inf, k, s, _, h1, h3, newVal_addr hS h3.1,
    hN.id, hN.target, hN.patch, hN.virtual, hN.time, ?_⟩
  · intro i k t r hr
    have hlt := hR.syms i k t r hr
    have hs : syms[r.sym]? = some syms[r.sym] := List.getElem?_eq_getElem hlt
    exact ⟨_, _, hs, newVal_addr hS hs, hv i k t r _ hr hs (h.fields i k t r hr)⟩
  · intro k s hk
    refine ⟨_, newVal_addr hS hk, ?_⟩
    have := h.values k s hk
    have hlt : newVal secs E.th E.find k s < 2 ^ 64 := by
      obtain ⟨bs, hb, _, e⟩ := this
      rw [← e]
      have := leNat_lt bs
      rw [hb] at this; omega
    rw [ofNat_toNat hlt]; exact this
  · rintro k (hk | hk)
    · by_cases h36 : k < 36
      · exact num_bytes hN0.orig0 hN.orig0 (by omega) (by omega)
      · exact num_bytes hN0.orig1 hN.orig1 (by omega) (by omega)
    · by_cases h56 : k < 56
      · exact num_bytes hN0.flags hN.flags (by omega) (by omega)
      · by_cases h60 : k < 60
        · exact num_bytes hN0.version hN.version (by omega) (by omega)
        · exact num_bytes hN0.pad hN.pad (by omega) (by omega)

theorem Done.x86_field {E : Env} {g : List Byte} {i k t r s} (hR : Relocs x86.width f secs syms.length rels)
    (l : Laid f secs o strs) (hr : Reloc secs rels i k t r) (hs : syms[r.sym]? = some s)
    (h : Done x86 f E.hdr E.th (newSyms secs E.th E.find syms) rels g i t r) {w : Nat} {v : BitVec 64}
    (hw : Psabi.x86 r.type (BitVec.ofNat 64 (newVal secs E.th E.find r.sym s)) (BitVec.ofNat 64 r.addend)
      (E.th + BitVec.ofNat 64 t.offset + BitVec.ofNat 64 r.offset) = some (w, v)) :
    Num g (t.offset + r.offset) w (v.toNat % 256 ^ w) := by
  obtain ⟨x, ⟨mst, m, s', r0, h1, h2, h3, rfl⟩, h4, h5⟩ := h
  rw [newSyms_some hs] at h1
  cases h1
  have hok := X86Reloc.applyOne_ok (show (X86Reloc.applyOne _ _ _ _ _).2 = 0 from h4)
  rw [x86_width] at h5
  have e1 := X86Reloc.psabi_width hw
  have e2 := X86Reloc.psabi_wval (c := ⟨E.hdr, E.th, E.th + BitVec.ofNat 64 t.offset, [], []⟩)
    (first := BitVec.ofNat 64 r0.addend)
    (r := ⟨BitVec.ofNat 64 r.offset, r.sym, r.type, BitVec.ofNat 64 r.addend⟩)
    (s := ⟨BitVec.ofNat 64 (newVal secs E.th E.find r.sym s), s.info % 16, s.shndx⟩) hw
  have hlen := leBytes_length w v
  have := num_of_getElem (g := g) (p := t.offset + r.offset) (bs := leBytes w v) (by
    intro j hj
    rw [hlen] at hj
    rw [h5 j (by rw [← e1]; exact hj)]
    congr 1
    change (X86Reloc.applyOne _ _ _ _ _).1 _ = _
    rw [hok.eq, ← e2, ← e1]
    have hl : E.hdr + BitVec.ofNat 64 (t.offset + r.offset + j) =
        X86Reloc.loc ⟨E.hdr, E.th, E.th + BitVec.ofNat 64 t.offset, [], []⟩
          ⟨BitVec.ofNat 64 r.offset, r.sym, r.type, BitVec.ofNat 64 r.addend⟩ + BitVec.ofNat 64 j :=
      (loc_eq ..).symm
    rw [hl, Mem.write_in _ _ _ j (by rw [hlen]; exact hj) 
      (by have := X86Reloc.width_le r.type; omega)])
  rw [hlen, leNat_leBytes] at this
  exact this

/-- C57, x86_64.  Loading a patch file that is laid out as linkers do it never
reads or writes outside the file's image, and either fails with a negative code
or leaves the file linked at its address in the target, with the function `dst`
to be replaced by `src`. -/
theorem C57_x86_linked (l : Laid f secs o strs) (hr : Readable f secs) (hm : Meta f secs src dst)
    (hS : Symbols f secs si st str syms) (hR : Relocs Psabi.x86Width f secs syms.length rels) (E : Env) :
    ∃ res, load x86 E f = some res ∧
      (∀ e, res = .error e → e < 0) ∧
      ∀ L, res = .ok L → ∃ a, E.find dst = some a ∧
        Linked Psabi.x86Width Psabi.x86 f secs o st syms rels E.th E.find src a E.now (E.maxId + 1) L.img := by
  rw [← x86_width] at hR
  obtain ⟨res, h1, h2, h3⟩ := load_spec x86_lawful l hr hm hS hR E
  refine ⟨res, h1, fun e he => (h3 e he).1, ?_⟩
  intro L hL
  rw [← x86_width]
  exact (h2 L hL).linked l hm hS (fun i k t r s hrel hs hd w v hw => hd.x86_field hR l hrel hs hw) hR

/-- C57, x86_64.  A patch file with everything in place is loaded: its metadata is
complete, its Build ID is not that of a live patch, it has no uninitialised data
and no relocations without addends, every symbol can be resolved, every
relocation is of a supported type, has a value that fits and a zero field, the
function to be replaced is known and the replacement is in the file. -/
theorem C57_x86_accepted (l : Laid f secs o strs) (hr : Readable f secs) (hm : Meta f secs src dst)
    (hS : Symbols f secs si st str syms) (hR : Relocs Psabi.x86Width f secs syms.length rels) (E : Env)
    (hc : Complete f secs) (hb : ∀ t, BuildIdText f secs t → t ∉ E.bids)
    (hu : ∀ (j : Nat) (s : Sec), 0 < j → secs[j]? = some s → ¬ Uninit s)
    (hs : ∀ (k : Nat) (s : SymEntry), 0 < k → syms[k]? = some s → Resolvable E.find s)
    (hn : ¬ RelOnly secs)
    (hrel : ∀ i k t r, Reloc secs rels i k t r → ∀ s S, syms[r.sym]? = some s →
      SymAddr secs E.th E.find r.sym s S →
      ∃ w v, Psabi.x86 r.type S (BitVec.ofNat 64 r.addend)
        (E.th + BitVec.ofNat 64 t.offset + BitVec.ofNat 64 r.offset) = some (w, v) ∧
        Psabi.x86Fits r.type v ∧ Num f (t.offset + r.offset) w 0)
    (hd : E.find dst ≠ none) (hsrc : ∃ s ∈ syms, s.name = src) :
    ∃ L, load x86 E f = some (.ok L) := by
  rw [← x86_width] at hR
  obtain ⟨res, h1, h2, h3⟩ := load_spec x86_lawful l hr hm hS hR E
  cases res with
  | ok L => exact ⟨L, h1⟩
  | error e =>
    exfalso
    rcases (h3 e rfl).2 with h | ⟨h, h'⟩ | ⟨h, h', h''⟩ | h | ⟨h, h', h''⟩ | ⟨p1, p2, p3, p4, p5⟩ | h | h
    · exact h hc
    · exact hb _ ((bidText_iff hr _).2 h) h'
    · exact hu _ _ h h' h''
    · rw [retStep_ok] at h
      · omega
      · intro s hm
        obtain ⟨k, hk⟩ := List.mem_iff_getElem?.1 hm
        rw [List.getElem?_drop] at hk
        exact hs (1 + k) s (by omega) hk
    · rename_i i k t r x
      obtain ⟨mst, m, s', r0, e1, e2, e3, rfl⟩ := h'
      have hlt := hR.syms i k t r h
      have hse : syms[r.sym]? = some syms[r.sym] := List.getElem?_eq_getElem hlt
      generalize syms[r.sym] = s at hse
      rw [newSyms_some hse] at e1
      cases e1
      obtain ⟨w, v, e4, e5, bs, hbl, hbp, hbz⟩ := hrel i k t r h s _ hse (newVal_addr hS hse)
      have e6 := X86Reloc.psabi_width e4
      have e7 := X86Reloc.psabi_wval (c := ⟨E.hdr, E.th, E.th + BitVec.ofNat 64 t.offset, [], []⟩)
        (first := BitVec.ofNat 64 r0.addend)
        (r := ⟨BitVec.ofNat 64 r.offset, r.sym, r.type, BitVec.ofNat 64 r.addend⟩)
        (s := ⟨BitVec.ofNat 64 (newVal secs E.th E.find r.sym s), s.info % 16, s.shndx⟩) e4
      apply h''
      change (X86Reloc.applyOne _ _ _ _ _).2 = 0
      rcases X86Reloc.applyOne_cases ⟨E.hdr, E.th, E.th + BitVec.ofNat 64 t.offset, [], []⟩
        (BitVec.ofNat 64 r0.addend) m ⟨BitVec.ofNat 64 r.offset, r.sym, r.type, BitVec.ofNat 64 r.addend⟩
        ⟨BitVec.ofNat 64 (newVal secs E.th E.find r.sym s), s.info % 16, s.shndx⟩ with
        ⟨q, _⟩ | ⟨_, q, _⟩ | ⟨_, _, q, _⟩ | ⟨_, _, _, q⟩
      · exfalso
        dsimp only at q
        unfold Psabi.x86 at e4
        generalize r.type = ty at *
        split at e4 <;> first | cases q | cases e4
      · exfalso
        apply q
        intro j hj
        dsimp only at hj
        have hl : X86Reloc.loc ⟨E.hdr, E.th, E.th + BitVec.ofNat 64 t.offset, [], []⟩
            ⟨BitVec.ofNat 64 r.offset, r.sym, r.type, BitVec.ofNat 64 r.addend⟩ + BitVec.ofNat 64 j =
            E.hdr + BitVec.ofNat 64 (t.offset + r.offset + j) := loc_eq ..
        rw [hl]
        have e8 := e3 j (by rw [x86_width]; exact hj)
        rw [prefix_getElem hbp (j := j) (by omega)] at e8
        have e9 := (leNat_eq_zero bs).1 hbz bs[j] (List.getElem_mem _)
        rw [e9] at e8
        exact (Option.some.inj e8).symm
      · exfalso
        rw [← e7] at q
        revert q
        dsimp only
        unfold Psabi.x86 at e4
        generalize r.type = ty at *
        split at e4 <;> first | exact id | exact not_not_intro e5 | cases e4
      · rw [q]
    · exact hn ⟨_, _, _, p1, p2, p3, p4, p5⟩
    · exact hd h
    · obtain ⟨s, hm, hn⟩ := hsrc
      exact h s hm hn

theorem relocs_mono {w w' : Nat → Nat} {n : Nat} (hw : ∀ t, w t ≤ w' t)
    (h : Relocs w' f secs n rels) : Relocs w f secs n rels where
  null := h.null
  count := h.count
  entries := h.entries
  syms := h.syms
  fits i k t r hr := Nat.le_trans (Nat.add_le_add_left (hw _) _) (h.fits i k t r hr)
  target := h.target
  disjoint i k t r i' k' t' r' h1 h2 hne a b ha hb :=
    h.disjoint i k t r i' k' t' r' h1 h2 hne a b (Nat.lt_of_lt_of_le ha (hw _))
      (Nat.lt_of_lt_of_le hb (hw _))

theorem touched_mono {w w' : Nat → Nat} (hw : ∀ t, w t ≤ w' t) {k : Nat}
    (h : Touched w secs o st rels k) : Touched w' secs o st rels k := by
  cases h with
  | addr h1 h2 h3 => exact .addr h1 h2 h3
  | flags h1 h2 h3 h4 => exact .flags h1 h2 h3 h4
  | value h1 h2 h3 => exact .value h1 h2 h3
  | field h1 h2 h3 => exact .field h1 h2 (Nat.lt_of_lt_of_le h3 (Nat.add_le_add_left (hw _) _))
  | record h1 h2 h3 => exact .record h1 h2 h3

theorem Done.a64_field {E : Env} {junk : Bool} {g : List Byte} {i t r s}
    (hs : syms[r.sym]? = some s)
    (h : Done (a64 junk) f E.hdr E.th (newSyms secs E.th E.find syms) rels g i t r) {w : Nat}
    {v : BitVec 64}
    (hw : Psabi.a64Data r.type (BitVec.ofNat 64 (newVal secs E.th E.find r.sym s)) (BitVec.ofNat 64 r.addend)
      (E.th + BitVec.ofNat 64 t.offset + BitVec.ofNat 64 r.offset) = some (w, v)) :
    Num g (t.offset + r.offset) w (v.toNat % 256 ^ w) := by
  obtain ⟨x, ⟨mst, m, s', r0, h1, h2, h3, rfl⟩, h4, h5⟩ := h
  rw [newSyms_some hs] at h1
  cases h1
  clear h3
  have key : ∃ nc, A64Reloc.table r.type = some (.data .abs (8 * w), nc) ∧ w ≤ 8 ∧
      v = BitVec.ofNat 64 (newVal secs E.th E.find r.sym s) + BitVec.ofNat 64 r.addend := by
    unfold Psabi.a64Data at hw
    generalize r.type = ty at *
    split at hw <;> first | cases hw; exact ⟨_, rfl, by omega, rfl⟩ | cases hw
  obtain ⟨nc, ht, hw8, rfl⟩ := key
  have hl := leBytes_length w
    (BitVec.ofNat 64 (newVal secs E.th E.find r.sym s) + BitVec.ofNat 64 r.addend)
  have := num_of_getElem (g := g) (p := t.offset + r.offset)
    (bs := leBytes w (BitVec.ofNat 64 (newVal secs E.th E.find r.sym s) + BitVec.ofNat 64 r.addend)) (by
    intro j hj
    rw [hl] at hj
    rw [h5 j (by rw [a64_width ht]; dsimp only [A64Reloc.Act.width]; omega)]
    congr 1
    unfold a64
    dsimp only
    rw [ht]
    dsimp only [A64Reloc.run, A64Reloc.relocData, A64Reloc.doReloc]
    rw [show 8 * w / 8 = w by omega]
    have hl' : E.hdr + BitVec.ofNat 64 (t.offset + r.offset + j) =
        A64Reloc.loc ⟨E.hdr, E.th, E.th + BitVec.ofNat 64 t.offset, [], []⟩
          ⟨BitVec.ofNat 64 r.offset, r.sym, r.type, BitVec.ofNat 64 r.addend⟩ + BitVec.ofNat 64 j :=
      (loc_eq ..).symm
    rw [hl', Mem.write_in _ _ _ j (by rw [hl]; exact hj) (by omega)])
  rw [hl, leNat_leBytes] at this
  exact this

/-- C57, aarch64.  As on x86_64, but only absolute data relocations are shown to
have the right value: those relative to the place are computed for the host's
address of the field (see C15).  `junk` is the uninitialised variable
`overflow_check`. -/
theorem C57_a64_linked_partial (l : Laid f secs o strs) (hr : Readable f secs) (hm : Meta f secs src dst)
    (hS : Symbols f secs si st str syms) (hR : Relocs Psabi.a64Width f secs syms.length rels) (E : Env)
    (junk : Bool) :
    ∃ res, load (a64 junk) E f = some res ∧
      (∀ e, res = .error e → e < 0) ∧
      ∀ L, res = .ok L → ∃ a, E.find dst = some a ∧
        Linked Psabi.a64Width Psabi.a64Data f secs o st syms rels E.th E.find src a E.now (E.maxId + 1)
          L.img := by
  have hR' := relocs_mono (a64_width_le junk) hR
  obtain ⟨res, h1, h2, h3⟩ := load_spec (a64_lawful junk) l hr hm hS hR' E
  refine ⟨res, h1, fun e he => (h3 e he).1, ?_⟩
  intro L hL
  obtain ⟨a, h4, h5⟩ := (h2 L hL).linked l hm hS
    (fun i k t r s hrel hs hd w v hw => hd.a64_field hs hw) hR'
  exact ⟨a, h4, h5.length, fun k hk => h5.untouched k fun ht => hk (touched_mono (a64_width_le junk) ht),
    h5.fields, h5.symbols, h5.sections, h5.record⟩

/-- C57.  A patch whose Build ID is that of a live patch is refused, whatever else
is in it. -/
theorem C57_live_refused (M : Machine) (hM : Lawful M) (l : Laid f secs o strs) (hr : Readable f secs)
    (hm : Meta f secs src dst) (hS : Symbols f secs si st str syms)
    (hR : Relocs M.width f secs syms.length rels) (E : Env) (t : List Byte)
    (ht : BuildIdText f secs t) (hl : t ∈ E.bids) :
    ∃ e, load M E f = some (.error e) ∧ e < 0 := by
  obtain ⟨res, h1, h2, h3⟩ := load_spec hM l hr hm hS hR E
  cases res with
  | ok L => exact absurd hl ((h2 L rfl).fresh t ((bidText_iff hr t).1 ht))
  | error e => exact ⟨e, h1, (h3 e rfl).1⟩
end

end Ulp.LoadBytes
