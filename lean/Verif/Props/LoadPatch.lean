/-
C58: the patch command, from the bytes of the file to the code the target runs.
-/
import Verif.Proof.LoadPatch
import Verif.Spec.Patched
import Verif.Props.LoadBytesEx
namespace Ulp.LoadBytes
open Load PatchFile

theorem Has.unique {secs : List Sec} {n : String} {s t : Sec} (h : Has secs n s) (h' : Has secs n t) :
    s = t := by
  obtain ⟨i, _, hi, hn, hf⟩ := h
  obtain ⟨j, _, hj, hn', hf'⟩ := h'
  have : i = j := by
    rcases Nat.lt_trichotomy i j with hlt | rfl | hlt
    · exact absurd hn (hf' i s hlt hi)
    · rfl
    · exact absurd hn' (hf j t hlt hj)
  subst this
  rw [hi] at hj; cases hj; rfl

theorem image_disjoint {a t : Addr} {n : Nat} 
    (h : ∀ k j, k < n → j < 16 → a + BitVec.ofNat 64 k ≠ t + BitVec.ofNat 64 j) {x : Addr}
    (hx : ∃ k, k < n ∧ x = a + BitVec.ofNat 64 k) : 16 ≤ (x - t).toNat := by
  obtain ⟨k, hk, rfl⟩ := hx
  apply Nat.le_of_not_lt
  intro hlt
  apply h k _ hk hlt
  apply BitVec.eq_of_toNat_eq
  simp only [BitVec.toNat_add, BitVec.toNat_ofNat, BitVec.toNat_sub]
  have := t.isLt
  have := a.isLt
  omega

theorem out_image {a x : Addr} {n : Nat} (h : ∀ k, k < n → x ≠ a + BitVec.ofNat 64 k) :
    n ≤ (x - a).toNat := by
  apply Nat.le_of_not_lt
  intro hlt
  apply h _ hlt
  apply BitVec.eq_of_toNat_eq
  simp only [BitVec.toNat_add, BitVec.toNat_ofNat, BitVec.toNat_sub]
  have := x.isLt
  have := a.isLt
  omega

/-- The two writes of a patch command make the memory `Patched`. -/
theorem patched_of {g : List Byte} {rec : Nat} {a t p : Addr} {arch : Arch} {m : Mem}
    (hrec : rec + 64 ≤ g.length) (hsmall : g.length < 2 ^ 64)
    (hsep : ∀ k j, k < g.length → j < 16 → a + BitVec.ofNat 64 k ≠ t + BitVec.ofNat 64 j) :
    Patched g rec a t m ((m.write a (store g (rec + 28) ((m.read t 16).take 16))).write t
      (jmpEntry arch p)) := by
  have hl : ((m.read t 16).take 16).length = 16 := by simp
  have hs : (store g (rec + 28) ((m.read t 16).take 16)).length = g.length :=
    store_length (by omega)
  have hin : ∀ k, k < g.length →
      ((m.write a (store g (rec + 28) ((m.read t 16).take 16))).write t (jmpEntry arch p))
        (a + BitVec.ofNat 64 k) = (store g (rec + 28) ((m.read t 16).take 16))[k]?.getD
          (m (a + BitVec.ofNat 64 k)) := by
    intro k hk
    rw [Mem.write_out _ _ _ _ (by rw [jmpEntry_length]; exact image_disjoint hsep ⟨k, hk, rfl⟩),
      Mem.write_in _ _ _ k (by omega) (by omega), List.getElem?_eq_getElem (by omega)]
    rfl
  refine ⟨?_, ?_, ?_⟩
  · intro k b hb hk
    have hlt : k < g.length := (List.getElem?_eq_some_iff.1 hb).1
    rw [hin k hlt, store_getElem? _ _ _ (by omega), hl, if_neg (by omega), hb]
    rfl
  · intro j hj
    rw [hin _ (by omega), store_getElem? _ _ _ (by omega), hl, if_pos (by omega),
      show rec + 28 + j - (rec + 28) = j by omega, List.getElem?_take, if_pos hj, Mem.read_getElem?, if_pos hj]
    rfl
  · intro x h1 h2
    rw [Mem.write_out _ _ _ _ (by rw [jmpEntry_length]; exact out_image h2),
      Mem.write_out _ _ _ _ (by rw [hs]; exact out_image h1)]

section
variable {f : List Byte} {secs : List Sec} {o : Nat} {strs : Sec} {si : Nat} {st str : Sec}
  {syms : List SymEntry} {rels : Nat → List RelEntry} {src dst : List Byte}

/-- A successful patch command has loaded the file and written the image and the entry. -/
theorem patchFile_mem {M : Machine} {w w1 : Patch.World} {rd : Patch.Mapping → Patch.ReadRes}
    {hdr a : Addr} {find : List Byte → Option (BitVec 64)} {now : BitVec 64} {e : Patch.PatchEnv}
    (hrec : e.info0.orig.length = 16) (hmap : e.mmap = .created a)
    (h : patchFile M w rd hdr find now f e = some (w1, 0)) :
    ∃ s L, Patch.openTask true rd w = some s ∧ load M (sessionEnv s hdr a find now) f = some (.ok L) ∧
      Patch.runCmd w (.patch rd (withFile e f L)) = some (w1, 0) ∧
      w1.mem = (w.mem.write a (store L.img (L.inf.ulpInfo.toNat + 28)
        ((w.mem.read L.record.target 16).take 16))).write L.record.target
          (jmpEntry w.arch L.record.patch) := by
  unfold patchFile at h
  rw [show mmapAddr e.mmap = a by rw [hmap]; rfl] at h
  cases hs : Patch.openTask true rd w with
  | none => rw [hs] at h; cases h
  | some s =>
  rw [hs] at h
  dsimp only at h
  cases hL : load M (sessionEnv s hdr a find now) f with
  | none => rw [hL] at h; cases h
  | some x =>
  rw [hL] at h
  cases x with
  | error n =>
    dsimp only at h
    have := (initPatch_setup w s _ (stops_refused e f (headersDone (sessionEnv s hdr a find now) f) n)).1
    rw [Option.some.injEq, Prod.mk.injEq] at h
    exact absurd h.2 this
  | ok L =>
    dsimp only at h
    have h' := h
    rw [Option.some.injEq, Prod.mk.injEq] at h
    obtain ⟨rfl, h0⟩ := h
    obtain ⟨hdr', t, p, e1, e2, e3, e4⟩ := initPatch_mem (e := withFile e f L) hrec h0
    rw [show mmapAddr (withFile e f L).mmap = a by change mmapAddr e.mmap = a; rw [hmap]; rfl] at e1
    subst e1
    cases e2
    cases e3
    refine ⟨s, L, rfl, hL, ?_, e4⟩
    unfold Patch.runCmd
    dsimp only
    rw [hs, Option.map_some]
    exact h'

/-- C58, x86_64.  After a patch command that succeeds, the file linked at its
address is in the target and nothing else is changed but 16 bytes of code; its number is
the one after the largest of the live patches; a processor that reaches the replaced function goes on in the new one. -/
theorem C58_x86_patched (l : Laid f secs o strs) (hr : Readable f secs) (hm : Meta f secs src dst)
    (hS : Symbols f secs si st str syms) (hR : Relocs Psabi.x86Width f secs syms.length rels)
    {w w1 : Patch.World} {rd : Patch.Mapping → Patch.ReadRes}
    {hdr a : Addr} {find : List Byte → Option (BitVec 64)} {now : BitVec 64} {e : Patch.PatchEnv}
    (harch : w.arch = .x86_64) (hrec : e.info0.orig.length = 16) (hmap : e.mmap = .created a)
    (hsep : ∀ t, find dst = some t → ∀ k j, k < f.length → j < 16 →
      a + BitVec.ofNat 64 k ≠ t + BitVec.ofNat 64 j)
    (h : patchFile x86 w rd hdr find now f e = some (w1, 0)) :
    ∃ g inf t s, Patch.openTask true rd w = some s ∧ Complete f secs ∧ Has secs ".ulpatch.info" inf ∧
      find dst = some t ∧
      Linked Psabi.x86Width Psabi.x86 f secs o st syms rels a find src t now (s.maxId + 1) g ∧
      Patched g inf.offset a t w.mem w1.mem ∧
      ∀ k s S, LastNamed syms src k s → SymAddr secs a find k s S →
        ∀ cpu : X86.Cpu, cpu.rip = t → cpu.mem = w1.mem → X86.step cpu = some { cpu with rip := S } := by
  obtain ⟨ses, L, h1, h2, h3, h4⟩ := patchFile_mem hrec hmap h
  have hR' := hR
  rw [← x86_width] at hR'
  obtain ⟨res, g1, g2, _⟩ := load_spec x86_lawful l hr hm hS hR' (sessionEnv ses hdr a find now)
  rw [h2] at g1
  cases g1
  have hG := g2 L rfl
  obtain ⟨t, g3, g4⟩ := hG.linked l hm hS
    (fun i k t r s hrel hs hd w v hw => hd.x86_field hR' l hrel hs hw) hR'
  rw [x86_width] at g4
  obtain ⟨inf, t', k, s, r0, k1, k2, k3, k4, k5, k6, k7⟩ := hG.record
  rw [k2] at g3
  cases g3
  have hin : inf.offset + 64 ≤ f.length := by
    obtain ⟨e1, e2⟩ := hm.info inf k1
    obtain ⟨i, _, hi, _⟩ := k1
    have := l.inside i inf hi (by omega)
    omega
  have hsm := l.describes.small
  have ht : L.record.target = t := by rw [k5]; rfl
  have hp : L.record.patch = BitVec.ofNat 64 (newVal secs a find k s) := by rw [k5]; rfl
  have ho : L.inf.ulpInfo.toNat = inf.offset := by rw [k6, ofNat_toNat (by omega)]
  rw [ht, hp, ho] at h4
  refine ⟨L.img, inf, t, ses, h1, hG.complete, k1, k2, g4, ?_, ?_⟩
  · rw [h4]
    apply patched_of
    · rw [g4.length]; exact hin
    · rw [g4.length]; omega
    · rw [g4.length]; exact hsep t k2
  · intro k' s' S hk' hS' cpu hpc hmem
    have e1 : k' = k ∧ s' = s := by
      rcases Nat.lt_trichotomy k' k with hlt | rfl | hlt
      · exact absurd k3.2.1 (hk'.2.2 k s hlt k3.1)
      · have := hk'.1; rw [k3.1] at this; cases this; exact ⟨rfl, rfl⟩
      · exact absurd hk'.2.1 (k3.2.2 k' s' hlt hk'.1)
    obtain ⟨rfl, rfl⟩ := e1
    have e2 : S = BitVec.ofNat 64 (newVal secs a find k' s') := SymAddr.unique hS' (newVal_addr hS k3.1)
    rw [e2]
    apply C01_x86_redirect _ t _ _ hpc
    rw [hmem, h4, harch]
    rfl

/-- C58, aarch64.  As on x86_64; for the fields see `C57_a64_linked_partial`.  The
branch takes two instructions and uses the register x17. -/
theorem C58_a64_patched_partial (l : Laid f secs o strs) (hr : Readable f secs) (hm : Meta f secs src dst)
    (hS : Symbols f secs si st str syms) (hR : Relocs Psabi.a64Width f secs syms.length rels)
    (junk : Bool) {w w1 : Patch.World} {rd : Patch.Mapping → Patch.ReadRes}
    {hdr a : Addr} {find : List Byte → Option (BitVec 64)} {now : BitVec 64} {e : Patch.PatchEnv}
    (harch : w.arch = .aarch64) (hrec : e.info0.orig.length = 16) (hmap : e.mmap = .created a)
    (hsep : ∀ t, find dst = some t → ∀ k j, k < f.length → j < 16 →
      a + BitVec.ofNat 64 k ≠ t + BitVec.ofNat 64 j)
    (h : patchFile (a64 junk) w rd hdr find now f e = some (w1, 0)) :
    ∃ g inf t s, Patch.openTask true rd w = some s ∧ Complete f secs ∧ Has secs ".ulpatch.info" inf ∧
      find dst = some t ∧
      Linked Psabi.a64Width Psabi.a64Data f secs o st syms rels a find src t now (s.maxId + 1) g ∧
      Patched g inf.offset a t w.mem w1.mem ∧
      ∀ k s S, LastNamed syms src k s → SymAddr secs a find k s S →
        ∀ cpu : A64.Cpu, cpu.pc = t → cpu.mem = w1.mem →
          A64.steps 2 cpu = some { pc := S, x := fun i => if i = 17 then S else cpu.x i, mem := cpu.mem } := by
  obtain ⟨ses, L, h1, h2, h3, h4⟩ := patchFile_mem hrec hmap h
  have hR' := relocs_mono (a64_width_le junk) hR
  obtain ⟨res, g1, g2, _⟩ := load_spec (a64_lawful junk) l hr hm hS hR' (sessionEnv ses hdr a find now)
  obtain ⟨res', g1', _, g5⟩ := C57_a64_linked_partial l hr hm hS hR (sessionEnv ses hdr a find now) junk
  rw [h2] at g1 g1'
  cases g1
  cases g1'
  have hG := g2 L rfl
  obtain ⟨t, g3, g4⟩ := g5 L rfl
  obtain ⟨inf, t', k, s, r0, k1, k2, k3, k4, k5, k6, k7⟩ := hG.record
  rw [k2] at g3
  cases g3
  have hin : inf.offset + 64 ≤ f.length := by
    obtain ⟨e1, e2⟩ := hm.info inf k1
    obtain ⟨i, _, hi, _⟩ := k1
    have := l.inside i inf hi (by omega)
    omega
  have hsm := l.describes.small
  have ht : L.record.target = t := by rw [k5]; rfl
  have hp : L.record.patch = BitVec.ofNat 64 (newVal secs a find k s) := by rw [k5]; rfl
  have ho : L.inf.ulpInfo.toNat = inf.offset := by rw [k6, ofNat_toNat (by omega)]
  rw [ht, hp, ho] at h4
  refine ⟨L.img, inf, t, ses, h1, hG.complete, k1, k2, g4, ?_, ?_⟩
  · rw [h4]
    apply patched_of
    · rw [g4.length]; exact hin
    · rw [g4.length]; omega
    · rw [g4.length]; exact hsep t k2
  · intro k' s' S hk' hS' cpu hpc hmem
    have e1 : k' = k ∧ s' = s := by
      rcases Nat.lt_trichotomy k' k with hlt | rfl | hlt
      · exact absurd k3.2.1 (hk'.2.2 k s hlt k3.1)
      · have := hk'.1; rw [k3.1] at this; cases this; exact ⟨rfl, rfl⟩
      · exact absurd hk'.2.1 (k3.2.2 k' s' hlt hk'.1)
    obtain ⟨rfl, rfl⟩ := e1
    have e2 : S = BitVec.ofNat 64 (newVal secs a find k' s') := SymAddr.unique hS' (newVal_addr hS k3.1)
    rw [e2]
    apply C02_a64_redirect _ t _ _ hpc
    rw [hmem, h4, harch]
    rfl

/-- C58.  A file that cannot be loaded changes nothing in the memory of the target. -/
theorem C58_refused (M : Machine) {w w1 : Patch.World} {rd : Patch.Mapping → Patch.ReadRes}
    {s : Patch.Session} {hdr a : Addr} {find : List Byte → Option (BitVec 64)} {now : BitVec 64}
    {e : Patch.PatchEnv} {n r : Int} (hs : Patch.openTask true rd w = some s)
    (hmap : e.mmap = .created a) (hl : load M (sessionEnv s hdr a find now) f = some (.error n))
    (h : patchFile M w rd hdr find now f e = some (w1, r)) : r ≠ 0 ∧ w1.mem = w.mem := by
  unfold patchFile at h
  rw [hs, show mmapAddr e.mmap = a by rw [hmap]; rfl] at h
  dsimp only at h
  rw [hl] at h
  dsimp only at h
  rw [Option.some.injEq, Prod.mk.injEq] at h
  obtain ⟨rfl, rfl⟩ := h
  exact initPatch_setup w s _ (stops_refused e f _ n)

theorem mapped_insert (m : Patch.Mapping) (l : List Patch.Mapping) :
    (Patch.insertMap m l).any (fun x => decide (x.start = m.start)) = true := by
  induction l with
  | nil => simp [Patch.insertMap]
  | cons a l ih =>
    unfold Patch.insertMap
    split
    · simp
    · rw [List.any_cons, ih, Bool.or_true]

theorem mapped_updMap (w : Patch.World) (x : Addr) (g : Patch.Mapping → Patch.Mapping)
    (hg : ∀ m, (g m).start = m.start) (a : Addr) :
    (Patch.updMap w x g).mapped a = w.mapped a := by
  unfold Patch.updMap Patch.World.mapped
  dsimp only
  rw [List.any_map]
  congr 1
  funext m
  dsimp only [Function.comp]
  split
  · rw [hg]
  · rfl

/-- Every system call of a patch command succeeds: files can be made, the process
can be attached to, all of the image (`n` bytes) and the entry are transferred. -/
structure Smooth (e : Patch.PatchEnv) (n : Nat) : Prop where
  alloc : e.alloc = none
  chown : e.chown = none
  attach1 : e.attach1 = .ok
  fd : 0 < e.fd
  ftruncate : e.ftruncate = 0
  preadN : e.preadN = some 16
  imageN : e.imageN = some n
  attach2 : e.attach2 = .ok
  entryN : e.entryN = some 16

theorem initPatch_smooth {w : Patch.World} {s : Patch.Session} {e : Patch.PatchEnv} {a : Addr} {t p : Addr}
    (hto : s.ftoProc = true) (hm : e.mmap = .created a) {n : Nat} (hs : Smooth e n)
    (hn : ∀ i, (e.image i).length ≤ n)
    (h1 : e.setup = none) (h2 : e.rewrite = none) (h3 : e.simplify = none) (h4 : e.apply = none)
    (h5 : e.target = some t) (h6 : e.source = some p) (hb : ∀ u ∈ s.ulps, u.bid ≠ e.bid) :
    (Patch.initPatch w s e).2.2 = 0 := by
  have hany : (s.ulps.any fun u => decide (u.bid = e.bid)) = false := by
    rw [List.any_eq_false]
    intro u hu
    simpa using hb u hu
  unfold Patch.initPatch
  rw [hto, hs.alloc, hs.chown]
  unfold Patch.createMmap
  rw [hs.attach1, hm, hs.ftruncate]
  have hfd : ¬ e.fd ≤ 0 := by have := hs.fd; omega
  dsimp only
  rw [if_neg (by decide), if_neg hfd, if_neg (by decide)]
  dsimp only
  have key : ∀ w', w'.mapped a = true → (Patch.loadPatch w' s e a).2.2 = 0 := by
    intro w' hw
    unfold Patch.loadPatch
    rw [h1, h2, h3, h4, hany]
    dsimp only
    rw [if_neg (by decide)]
    unfold Patch.solveAndKick
    rw [h5, h6]
    dsimp only
    unfold Patch.kick
    rw [hs.preadN]
    dsimp only
    rw [if_neg (by decide)]
    unfold Patch.kickImage
    rw [mapped_updMap _ _ _ (by intro; rfl), mapped_updMap _ _ _ (by intro; rfl),
      mapped_updMap _ _ _ (by intro; rfl), hw, hs.imageN]
    unfold Patch.writeTask
    dsimp only
    rw [if_pos rfl]
    dsimp only
    rw [if_pos (decide_eq_true (hn _))]
    unfold Patch.kickEntry
    rw [hs.attach2, hs.entryN]
    unfold Patch.writeTask
    dsimp only
    rw [if_pos (decide_eq_true (by rw [jmpEntry_length]; decide))]
  rw [key]
  · rfl
  · exact mapped_insert _ _

/-- C58.  If every system call succeeds, the patch command succeeds for every file
that can be loaded and whose Build ID is not that of a live patch. -/
theorem C58_applied (M : Machine) (l : Laid f secs o strs) (hM : Lawful M) (hr : Readable f secs)
    (hm : Meta f secs src dst)
    (hS : Symbols f secs si st str syms) (hR : Relocs M.width f secs syms.length rels)
    {w : Patch.World} {rd : Patch.Mapping → Patch.ReadRes} {s : Patch.Session}
    {hdr a : Addr} {find : List Byte → Option (BitVec 64)} {now : BitVec 64} {e : Patch.PatchEnv}
    (hs : Patch.openTask true rd w = some s) (hto : s.ftoProc = true)
    (hsm : Smooth e f.length) (hmap : e.mmap = .created a) (hb : ∀ u ∈ s.ulps, u.bid ≠ e.bid)
    (hl : ∃ L, load M (sessionEnv s hdr a find now) f = some (.ok L)) :
    ∃ w1, patchFile M w rd hdr find now f e = some (w1, 0) := by
  obtain ⟨L, hL⟩ := hl
  obtain ⟨res, g1, g2, _⟩ := load_spec hM l hr hm hS hR (sessionEnv s hdr a find now)
  rw [hL] at g1
  cases g1
  have hG := g2 L rfl
  have hlen := hG.keep.len
  obtain ⟨inf, t, k, sy, r0, k1, _, _, _, _, k6, _⟩ := hG.record
  have hin : inf.offset + 64 ≤ f.length := by
    obtain ⟨e1, e2⟩ := hm.info inf k1
    obtain ⟨i, _, hi, _⟩ := k1
    have := l.inside i inf hi (by omega)
    omega
  have hsmall := l.describes.small
  have ho : L.inf.ulpInfo.toNat = inf.offset := by rw [k6, ofNat_toNat (by omega)]
  have h0 := initPatch_smooth (w := w) (e := withFile e f L) (n := f.length) hto hmap
    ⟨hsm.alloc, hsm.chown, hsm.attach1, hsm.fd, hsm.ftruncate, hsm.preadN, hsm.imageN, hsm.attach2,
      hsm.entryN⟩
    (by
      intro i
      change (store L.img _ _).length ≤ _
      have : (i.orig.take 16).length ≤ 16 := by rw [List.length_take]; omega
      rw [store_length (by omega)]
      omega) rfl rfl rfl rfl rfl rfl hb
  refine ⟨(Patch.initPatch w s (withFile e f L)).1, ?_⟩
  unfold patchFile
  rw [hs, show mmapAddr e.mmap = a by rw [hmap]; rfl]
  dsimp only
  rw [hL]
  dsimp only
  rw [h0]

/-- C58.  A patch command and then an unpatch command, both successful, leave the
live patches as they were and the memory too, but for the area of the mapping. -/
theorem C58_unpatched (M : Machine) (hM : Lawful M) (l : Laid f secs o strs) (hr : Readable f secs)
    (hm : Meta f secs src dst)
    (hS : Symbols f secs si st str syms) (hR : Relocs M.width f secs syms.length rels)
    {w w1 w2 : Patch.World} {hdr a : Addr} {find : List Byte → Option (BitVec 64)} {now : BitVec 64}
    {e : Patch.PatchEnv} {d : Patch.DeleteEnv}
    (hready : ∀ m ∈ w.maps, m.ready = true)
    (hids : ∀ m ∈ w.maps, m.info.id.toNat < 2^32 - 1)
    (hrec : e.info0.orig.length = 16) (hmap : e.mmap = .created a) (hfree : ∀ m ∈ w.maps, m.start ≠ a)
    (hsep : ∀ t, find dst = some t → ∀ k j, k < f.length → j < 16 →
      a + BitVec.ofNat 64 k ≠ t + BitVec.ofNat 64 j)
    (h1 : patchFile M w Patch.allOk hdr find now f e = some (w1, 0))
    (h2 : Patch.runCmd w1 (.unpatch Patch.allOk d) = some (w2, 0)) :
    w2.maps = w.maps ∧
      ∀ x, (∀ k, k < f.length → x ≠ a + BitVec.ofNat 64 k) → w2.mem x = w.mem x := by
  obtain ⟨s, L, g1, g2, g3, g4⟩ := patchFile_mem hrec hmap h1
  obtain ⟨res, j1, j2, _⟩ := load_spec hM l hr hm hS hR (sessionEnv s hdr a find now)
  rw [g2] at j1
  cases j1
  have hG := j2 L rfl
  have hlen := hG.keep.len
  obtain ⟨inf, t, k, sy, r0, k1, k2, _, _, k5, k6, _⟩ := hG.record
  have hin : inf.offset + 64 ≤ f.length := by
    obtain ⟨e1, e2⟩ := hm.info inf k1
    obtain ⟨i, _, hi, _⟩ := k1
    have := l.inside i inf hi (by omega)
    omega
  have hsmall := l.describes.small
  have ho : L.inf.ulpInfo.toNat = inf.offset := by rw [k6, ofNat_toNat (by omega)]
  have ht : L.record.target = t := by rw [k5]; rfl
  have hown : ∀ x, (withFile e f L).own x ↔ ∃ k, k < f.length ∧ x = a + BitVec.ofNat 64 k := by
    intro x
    constructor
    · rintro ⟨b, hb, i, hi, rfl⟩
      have hb' : e.mmap = .created b := hb
      rw [hmap] at hb'
      cases hb'
      exact ⟨i, hi, rfl⟩
    · rintro ⟨i, hi, rfl⟩
      exact ⟨a, hmap, i, hi, rfl⟩
  have hpl : (withFile e f L).Placed (withFile e f L).own w := by
    refine ⟨hrec, ?_, ?_, ?_⟩
    · intro i
      change (store L.img _ _).length ≤ f.length
      have : (i.orig.take 16).length ≤ 16 := by rw [List.length_take]; omega
      rw [store_length (by omega)]
      omega
    · change match e.mmap with
        | .created a => (∀ i, i < f.length → (withFile e f L).own (a + BitVec.ofNat 64 i)) ∧
            ∀ m ∈ w.maps, m.start ≠ a
        | .errno v => ∀ m ∈ w.maps, m.start ≠ v
        | .inject l => l = none
      rw [hmap]
      exact ⟨fun i hi => (hown _).2 ⟨i, hi, rfl⟩, hfree⟩
    · intro t' ht' i hi ho'
      have : L.record.target = t' := Option.some.inj ht'
      rw [ht] at this
      subst this
      obtain ⟨k, hk, he⟩ := (hown _).1 ho'
      exact hsep t k2 k i hk hi he.symm
  obtain ⟨r1, r2⟩ := Patch.C03_unpatch_restores w w1 w2 (withFile e f L) d hready hids hpl g3 h2
  refine ⟨r1, fun x hx => r2 x fun ho' => ?_⟩
  obtain ⟨k, hk, he⟩ := (hown x).1 ho'
  exact hx k hk he

end

/-! ### An example -/

def pfWorld : Patch.World :=
  ⟨.x86_64, fun _ => 0x55, [⟨0x20000000, 64, "deadbeee", true, ⟨3, 0x402000, 0x20000010, 0x402000,
    List.replicate 16 0x90⟩⟩], false⟩

def pfEnv : Patch.PatchEnv where
  alloc := none
  chown := none
  attach1 := .ok
  fd := 5
  ftruncate := 0
  mmap := .created 0x10000000
  len := 0
  info0 := ⟨0, 0, 0, 0, List.replicate 16 0⟩
  bid := "deadbeef"
  setup := none
  rewrite := none
  simplify := none
  apply := none
  target := none
  source := none
  image := fun _ => []
  preadN := some 16
  imageN := some 1082
  attach2 := .ok
  entryN := some 16
  attach3 := .ok
  munmap3 := .done

theorem pf_smooth : Smooth pfEnv lkFile.length :=
  ⟨rfl, rfl, rfl, by decide, rfl, rfl, by decide +kernel, rfl, rfl⟩

theorem pf_applied : ∃ w1, patchFile x86 pfWorld Patch.allOk 0x7f0000000000 lkEnv.find 77 lkFile pfEnv =
    some (w1, 0) := by
  have ho := Patch.openTask_ok Patch.allOk pfWorld true (fun _ _ => rfl) (by decide)
  refine C58_applied x86 lk_laid x86_lawful lk_readable lk_meta lk_symbols
    (by rw [x86_width]; exact lk_relocs) ho rfl pf_smooth rfl (by decide) ?_
  have : sessionEnv { ulps := pfWorld.maps, maxId := Patch.maxOf pfWorld.maps 0, ftoProc := true }
      0x7f0000000000 0x10000000 lkEnv.find 77 = lkEnv := by
    unfold sessionEnv lkEnv
    congr 1
  rw [this]
  exact lk_loads

theorem pf_sep : ∀ t, lkEnv.find (lit "old_f") = some t → ∀ k j, k < lkFile.length → j < 16 →
      (0x10000000 : Addr) + BitVec.ofNat 64 k ≠ t + BitVec.ofNat 64 j := by
  intro t ht k j hk hj he
  rw [show lkEnv.find (lit "old_f") = some 0x401000 by decide +kernel] at ht
  cases ht
  rw [show lkFile.length = 1082 by decide +kernel] at hk
  have := congrArg BitVec.toNat he
  rw [BitVec.toNat_add, BitVec.toNat_add, show (0x10000000 : Addr).toNat = 0x10000000 from rfl,
    show (0x401000 : BitVec 64).toNat = 0x401000 from rfl, BitVec.toNat_ofNat, BitVec.toNat_ofNat] at this
  omega

/-- `old_f` at 0x401000 is replaced by `new_f`, which is at offset 64 of the file. -/
example : ∃ w1, patchFile x86 pfWorld Patch.allOk 0x7f0000000000 lkEnv.find 77 lkFile pfEnv = some (w1, 0) ∧
    ∀ cpu : X86.Cpu, cpu.rip = 0x401000 → cpu.mem = w1.mem →
      X86.step cpu = some { cpu with rip := 0x10000040 } := by
  obtain ⟨w1, h⟩ := pf_applied
  refine ⟨w1, h, ?_⟩
  obtain ⟨g, inf, t, ses, _, _, _, ht, _, _, h5⟩ := C58_x86_patched lk_laid lk_readable lk_meta lk_symbols lk_relocs
    rfl (by decide) rfl pf_sep h
  rw [show lkEnv.find (lit "old_f") = some 0x401000 by decide +kernel] at ht
  cases ht
  refine h5 1 ⟨lit "new_f", 0x12, 1, 0⟩ _ ⟨rfl, rfl, ?_⟩ ?_
  · intro k' s' hk' hs'
    match k', hk', hs' with
    | 2, _, hs' => cases hs'; decide
    | n + 3, _, hs' => cases hs'
  · exact SymAddr.defined (k := 1) (s := ⟨lit "new_f", 0x12, 1, 0⟩) (t := ⟨lit ".text", 1, 6, 0, 64, 16, 0, 0⟩)
      (by decide) (by decide) (by decide) (by decide) rfl

end Ulp.LoadBytes
