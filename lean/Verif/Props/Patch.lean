/-
C03-C09: applying and removing patches, over all histories of commands and all
outcomes of the system calls.
-/
import Verif.Proof.PatchHist
namespace Ulp.Patch

/-! ### Concrete environments used by the examples and counterexamples -/

/-- A process without patches; every byte is 0x55. -/
def exWorld : World := { arch := .x86_64, mem := fun _ => 0x55, maps := [], attached := false }

/-- A patch command in which everything works. -/
def exEnv : PatchEnv where
  alloc := none
  chown := none
  attach1 := .ok
  fd := 5
  ftruncate := 0
  mmap := .created 0x10000000
  len := 4
  info0 := ⟨0, 0, 0, 0, List.replicate 16 0⟩
  bid := "a1"
  setup := none
  rewrite := none
  simplify := none
  apply := none
  target := some 0x401000
  source := some 0x10000010
  image := fun _ => [0x7f, 0x45, 0x4c, 0x46]
  preadN := some 16
  imageN := some 4
  attach2 := .ok
  entryN := some 16
  attach3 := .ok
  munmap3 := .done

/-- A second patch, overlapping the redirect of the first. -/
def exEnv2 : PatchEnv := { exEnv with
  bid := "b2", target := some 0x401008, mmap := .created 0x10001000, source := some 0x10001010 }

/-- An unpatch command in which everything works. -/
def exDel : DeleteEnv := { attach := .ok, writeN := some 16, munmap := .done }

def allOk : Mapping → ReadRes := fun _ => .ok

/-- Area of the patch mappings in the examples. -/
def exR : Addr → Prop := fun x => 0x10000000 ≤ x.toNat

theorem exR_area (a : Addr) (h1 : 0x10000000 ≤ a.toNat) (h2 : a.toNat < 0x20000000) :
    ∀ i, i < 4 → exR (a + BitVec.ofNat 64 i) := by
  intro i hi; unfold exR; rw [BitVec.toNat_add, BitVec.toNat_ofNat]; omega

theorem exR_win (a : Addr) (h1 : a.toNat < 0x500000) : WindowOff exR a 16 := by
  intro i hi; unfold exR; rw [BitVec.toNat_add, BitVec.toNat_ofNat]; omega

theorem exEnv_good : exEnv.Good exR exWorld where
  wf := rfl
  img := fun _ => Nat.le_refl _
  area := ⟨exR_area _ (by decide) (by decide), by simp [exWorld]⟩
  text := by intro t ht; injection ht with ht; subst ht; exact exR_win _ (by decide)
  entry := .inr (.inr ⟨16, by omega, rfl⟩)
  cleanup := ⟨rfl, by exact nofun⟩

/-! ### C03 -/

/-- The addresses of the new mapping of a patch command. -/
def PatchEnv.own (e : PatchEnv) (x : Addr) : Prop :=
  ∃ a, e.mmap = .created a ∧ ∃ i, i < e.len ∧ x = a + BitVec.ofNat 64 i

/-- C03.  Patch (exit code 0) then unpatch (exit code 0), each in its own tool
invocation: the live patches are those from before, and every byte outside the
patch's own mapping has its old value.  Holds in every state in which the
existing patches can be read and the numbers have not reached 2^32-1, whatever
the environment answered (success already implies full reads and writes). -/
theorem C03_unpatch_restores (w w1 w2 : World) (e : PatchEnv) (d : DeleteEnv)
    (hready : ∀ m ∈ w.maps, m.ready = true)
    (hids : ∀ m ∈ w.maps, m.info.id.toNat < 2^32 - 1)
    (hplace : e.Placed e.own w)
    (h1 : runCmd w (.patch allOk e) = some (w1, 0))
    (h2 : runCmd w1 (.unpatch allOk d) = some (w2, 0)) :
    w2.maps = w.maps ∧ ∀ x, ¬ e.own x → w2.mem x = w.mem x := by
  have hopen := openTask_ok allOk w true (fun _ _ => rfl) hready
  simp only [runCmd, hopen, Option.map_some, Option.some.injEq, Prod.mk.injEq] at h1
  obtain ⟨hw1, hr1⟩ := h1
  rcases initPatch_good (s := { ulps := w.maps, maxId := maxOf w.maps 0, ftoProc := true }) hplace with
    ⟨hne, _⟩ | ⟨_, _, hdr, t, p, hcr, ht, hp, _, hmaps, hmem⟩
  · exact absurd hr1 hne
  rw [hw1] at hmaps hmem
  have hmaxlt : (maxOf w.maps 0).toNat < 2^32 - 1 := by
    rcases maxOf_mem w.maps 0 with h | ⟨m, hm, h⟩
    · rw [h]; decide
    · rw [← h]; exact hids m hm
  have hid : (maxOf w.maps 0 + 1).toNat = (maxOf w.maps 0).toNat + 1 := by
    rw [BitVec.toNat_add, show (1 : BitVec 32).toNat = 1 from rfl, Nat.mod_eq_of_lt (by omega)]
  generalize hnew : (⟨hdr, e.len, e.bid, true, ⟨maxOf w.maps 0 + 1, t, p, t, w.mem.read t 16⟩⟩ : Mapping) = new at hmaps
  have hready1 : ∀ m ∈ w1.maps, m.ready = true := by
    intro m hm; rw [hmaps, mem_insertMap] at hm
    rcases hm with rfl | hm
    · subst hnew; rfl
    · exact hready m hm
  have hnewid : new.info.id = maxOf w.maps 0 + 1 := by subst hnew; rfl
  have hmax1 : maxOf w1.maps 0 = new.info.id := by
    apply BitVec.eq_of_toNat_eq
    have hge := maxOf_ge w1.maps 0 new (by rw [hmaps, mem_insertMap]; exact .inl rfl)
    rcases maxOf_mem w1.maps 0 with h | ⟨m, hm, h⟩
    · rw [h, hnewid, hid] at hge; simp at hge
    · rw [hmaps, mem_insertMap] at hm
      rcases hm with rfl | hm
      · rw [h]
      · have := maxOf_ge w.maps 0 m hm
        rw [h] at this
        rw [hnewid, hid] at hge; omega
  have hopen1 := openTask_ok allOk w1 true (fun _ _ => rfl) hready1
  simp only [runCmd, hopen1, Option.map_some, Option.some.injEq] at h2
  unfold deletePatch at h2
  dsimp only at h2
  have hstart : new.start = hdr := by subst hnew; rfl
  have ga := hplace.area
  rw [hcr] at ga
  cases hf : w1.maps.find? (fun u => decide (maxOf w1.maps 0 = u.info.id)) with
  | none =>
    rw [hf] at h2
    have := congrArg Prod.snd h2
    exact absurd this enoent_ne
  | some u =>
    have hu := List.mem_of_find?_eq_some hf
    have hui := List.find?_some hf
    simp only [decide_eq_true_eq] at hui
    have hun : u = new := by
      rw [hmaps, mem_insertMap] at hu
      rcases hu with h | hu
      · exact h
      · exfalso
        have := maxOf_ge w.maps 0 u hu
        rw [← hui, hmax1, hnewid, hid] at this; omega
    subst hun
    rw [hf] at h2
    cases hat : d.attach with
    | fail n left =>
      rw [hat] at h2
      exact absurd (congrArg Prod.snd h2) (neg_ne_zero n)
    | ok =>
      rw [hat] at h2
      dsimp only at h2
      have horig : u.info.orig = w.mem.read t 16 := by subst hnew; rfl
      have hvirt : u.info.virt = t := by subst hnew; rfl
      have holen : u.info.orig.length = 16 := by rw [horig]; simp
      cases hn : d.writeN with
      | none =>
        rw [hn] at h2
        simp only [writeTask, Bool.false_eq_true, if_false] at h2
        exact absurd (congrArg Prod.snd h2) enoexec_ne
      | some k =>
        rw [hn] at h2
        simp only [writeTask, holen] at h2
        by_cases hk : 16 ≤ k
        · rw [decide_eq_true hk, if_pos rfl, List.take_of_length_le (by omega)] at h2
          cases hmu : d.munmap with
          | failed g =>
            rw [hmu] at h2
            exact absurd (congrArg Prod.snd h2) enoexec_ne
          | done =>
            rw [hmu] at h2
            have hw2 := congrArg Prod.fst h2
            dsimp only at hw2
            constructor
            · rw [← hw2]
              show (w1.maps.filter fun m => m.start ≠ u.start) = w.maps
              rw [hmaps]
              exact filter_insertMap u w.maps (by rw [hstart]; exact ga.2)
            · rw [← hw2]
              show EqOff e.own (w1.mem.write u.info.virt u.info.orig) w.mem
              rw [hvirt, horig]
              refine (hmem.write _ _).trans ?_
              have := Mem.write_restore w.mem t (jmpEntry w.arch p)
              rw [jmpEntry_length] at this
              rw [this]; exact EqOff.refl _
        · rw [decide_eq_false hk, if_neg (by decide)] at h2
          exact absurd (congrArg Prod.snd h2) enoexec_ne

/-- The hypotheses of C03 are met by a concrete run, and the redirect really was
in place in between. -/
example : ∃ w1 w2, exEnv.Placed exEnv.own exWorld ∧
    runCmd exWorld (.patch allOk exEnv) = some (w1, 0) ∧
    runCmd w1 (.unpatch allOk exDel) = some (w2, 0) ∧ w1.mem 0x401000 = 0xff ∧
    w2.mem 0x401000 = 0x55 := by
  refine ⟨(initPatch exWorld ⟨[], 0, true⟩ exEnv).1, _, ⟨rfl, fun _ => Nat.le_refl _, ⟨?_, by simp [exWorld]⟩, ?_⟩, rfl, rfl, rfl, rfl⟩
  · intro i hi; exact ⟨_, rfl, i, hi, rfl⟩
  · intro t ht i hi hc
    injection ht with ht; subst ht
    obtain ⟨a, ha, j, hj, he⟩ := hc
    injection ha with ha; subst ha
    have := congrArg BitVec.toNat he
    have hj' : j < 4 := hj
    simp only [BitVec.toNat_add, BitVec.toNat_ofNat] at this
    have e1 : BitVec.toNat (0x401000 : Addr) = 0x401000 := rfl
    have e2 : BitVec.toNat (0x10000000 : Addr) = 0x10000000 := rfl
    omega

/-! ### C04 -/

/-- C04, up to the assumptions in `GoodHist`: for every history of patch and
unpatch commands, starting from an unpatched process, in which system calls
fail at will except that 16-byte writes are all or nothing, clean-up after a
failed patch works and live patches can be read back: no command crashes, and
the text is the original text overlaid with the redirects of live patches in
increasing number order.  The exception are patches whose unpatch restored the
text but could not unmap: they are listed but not active.

Missing from the full claim: partial transfers (`C04_short_unpatch`), failing
clean-up (`C04_residual_zero_text`), unreadable live patches
(`C07_unreadable_duplicates`); there the code violates it. -/
theorem C04_histories_partial (R : Addr → Prop) (w0 : World) (cs : List Cmd)
    (h0 : w0.maps = []) (hlen : cs.length < 2^32) (hg : GoodHist R w0 cs) :
    ∃ w, runHist w0 cs = some w ∧
    ∃ st : List Layer, (st.map (·.map)).Perm w.maps ∧
      (st.map (·.map.info.id.toNat)).Pairwise (· < ·) ∧
      EqOff R w.mem (overlayAll w0.mem ((st.filter (·.active)).map (Layer.overlay w.arch))) ∧
      ((∀ c ∈ cs, c.unmaps) → ∀ l ∈ st, l.active = true) := by
  obtain ⟨w, st, hrun, hinv, hact⟩ := hist_inv cs (Inv.init R w0 h0) (by omega) hg
  refine ⟨w, hrun, st.reverse, ?_, ?_, ?_, ?_⟩
  · rw [List.map_reverse]; exact (List.reverse_perm _).trans hinv.perm
  · rw [List.map_reverse, List.pairwise_reverse]; exact hinv.ids
  · exact hinv.layers.overlay
  · intro hc l hl; exact hact (by simp) hc l (List.mem_reverse.1 hl)

/-- C04: when no patch is live any more, the text is the original text, however
the process got there. -/
theorem C04_all_removed_partial (R : Addr → Prop) (w0 w : World) (cs : List Cmd)
    (h0 : w0.maps = []) (hlen : cs.length < 2^32) (hg : GoodHist R w0 cs)
    (hrun : runHist w0 cs = some w) (hnone : w.maps = []) :
    ∀ x, ¬ R x → w.mem x = w0.mem x := by
  obtain ⟨w', hrun', st, hp, _, he, _⟩ := C04_histories_partial R w0 cs h0 hlen hg
  rw [hrun] at hrun'; injection hrun' with hrun'; subst hrun'
  rw [hnone, List.perm_nil] at hp
  have : st = [] := by simpa using hp
  subst this
  exact he

/-- Two overlapping patches, an unpatch that cannot unmap, then two that work:
a history that satisfies the hypotheses. -/
def exHist : List Cmd :=
  [.patch allOk exEnv, .patch allOk exEnv2, .unpatch allOk { exDel with munmap := .failed false },
   .unpatch allOk exDel, .unpatch allOk exDel]

example : GoodHist exR exWorld exHist ∧ ∃ w, runHist exWorld exHist = some w ∧ w.maps = [] := by
  refine ⟨⟨⟨fun _ => rfl, exEnv_good⟩, ?_⟩, ⟨_, rfl, rfl⟩⟩
  rintro w1 r1 h1
  injection h1 with h1; injection h1 with h1 _; subst h1
  refine ⟨⟨fun _ => rfl, ⟨rfl, fun _ => Nat.le_refl _, ⟨exR_area _ (by decide) (by decide), ?_⟩, ?_⟩,
    .inr (.inr ⟨16, by omega, rfl⟩), rfl, by exact nofun⟩, ?_⟩
  · decide
  · intro t ht; injection ht with ht; subst ht; exact exR_win _ (by decide)
  · intro w2 r2 _
    refine ⟨⟨fun _ => rfl, .inr (.inr ⟨16, by omega, rfl⟩)⟩, fun _ _ _ => ?_⟩
    refine ⟨⟨fun _ => rfl, .inr (.inr ⟨16, by omega, rfl⟩)⟩, fun _ _ _ => ?_⟩
    exact ⟨⟨fun _ => rfl, .inr (.inr ⟨16, by omega, rfl⟩)⟩, fun _ _ _ => trivial⟩

/-- Violation of C04: an unpatch whose write transfers only 3 of 16 bytes reports
failure and leaves neither the original nor the redirected text. -/
theorem C04_short_unpatch : ∃ w1 w2 r, runCmd exWorld (.patch allOk exEnv) = some (w1, 0) ∧
    runCmd w1 (.unpatch allOk { exDel with writeN := some 3 }) = some (w2, r) ∧ r ≠ 0 ∧
    w2.mem 0x401000 = 0x55 ∧ exWorld.mem 0x401006 = 0x55 ∧ w2.mem 0x401006 = 0x90 :=
  ⟨_, _, _, rfl, rfl, enoexec_ne, rfl, rfl, rfl⟩

/-- Violation of C04: a patch command that fails to read the original bytes and
whose clean-up cannot attach leaves its mapping behind; the next unpatch
reports success and overwrites 16 bytes of the program with zeros, although no
patch was ever applied. -/
theorem C04_residual_zero_text : ∃ w1 r1 w2,
    runCmd exWorld (.patch allOk { exEnv with preadN := none, attach3 := .fail 0 false }) = some (w1, r1) ∧
    r1 ≠ 0 ∧ w1.mem 0x401000 = 0x55 ∧
    runCmd w1 (.unpatch allOk exDel) = some (w2, 0) ∧ w2.mem 0x401000 = 0 :=
  ⟨_, _, _, rfl, enoexec_ne, rfl, rfl, rfl⟩

/-- Violation of C04: a patch command rejected early (here: bad metadata) whose
clean-up fails makes every later invocation of the tool crash. -/
theorem C04_residual_crash : ∃ w1 r1,
    runCmd exWorld (.patch allOk { exEnv with setup := some 21, munmap3 := .failed false }) = some (w1, r1) ∧
    r1 ≠ 0 ∧ ∀ e, runCmd w1 (.unpatch allOk e) = none :=
  ⟨_, _, rfl, neg_ne_zero 21, fun _ => rfl⟩

/-! ### C05 -/

/-- C05, for all-or-nothing writes: a patch command in any session that reports
an error has changed no byte outside the area of patch mappings. -/
theorem C05_failed_patch_partial (R : Addr → Prop) (w : World) (s : Session) (e : PatchEnv)
    (hp : e.Placed R w) (ha : e.EntryAtomic) (hfail : (initPatch w s e).2.2 ≠ 0) :
    ∀ x, ¬ R x → (initPatch w s e).1.mem x = w.mem x := by
  rcases initPatch_good (s := s) hp with ⟨_, _, h⟩ | ⟨h, _⟩
  · exact h ha
  · exact absurd h hfail

/-- C05, the other half: success means the full 16-byte entry is installed at
the target and nothing else changed outside the patch area. -/
theorem C05_success_installs (R : Addr → Prop) (w : World) (s : Session) (e : PatchEnv)
    (hp : e.Placed R w) (hok : (initPatch w s e).2.2 = 0) :
    ∃ t p, e.target = some t ∧ e.source = some p ∧
      ∀ x, ¬ R x → (initPatch w s e).1.mem x = installEntry w.mem w.arch t p x := by
  rcases initPatch_good (s := s) hp with ⟨h, _⟩ | ⟨_, _, hdr, t, p, _, ht, hp, _, _, h⟩
  · exact absurd hok h
  · exact ⟨t, p, ht, hp, h⟩

/-- Violation of C05: a write of 3 of the 16 bytes leaves a broken entry in the
function, and the command reports failure without restoring it. -/
theorem C05_short_write : ∃ r, (initPatch exWorld ⟨[], 0, true⟩ { exEnv with entryN := some 3 }).2.2 = r ∧
    r ≠ 0 ∧ (initPatch exWorld ⟨[], 0, true⟩ { exEnv with entryN := some 3 }).1.mem 0x401000 = 0xff ∧
    (initPatch exWorld ⟨[], 0, true⟩ { exEnv with entryN := some 3 }).1.mem 0x401003 = 0x55 :=
  ⟨_, rfl, enoexec_ne, rfl, rfl⟩

example : { exEnv with source := none }.EntryAtomic ∧
    (initPatch exWorld ⟨[], 0, true⟩ { exEnv with source := none }).2.2 ≠ 0 :=
  ⟨.inr (.inr ⟨16, by omega, rfl⟩), enoent_ne⟩

/-! ### C06 -/

/-- C06, assuming that a failing attach leaves nothing behind and the remote
open succeeds: whatever else fails, the patch command ends with the process
not traced. -/
theorem C06_patch_not_stopped_partial (w : World) (s : Session) (e : PatchEnv)
    (h : w.attached = false) (h1 : e.attach1.clean) (h2 : e.attach2.clean) (h3 : e.attach3.clean)
    (hfd : 0 < e.fd) : (initPatch w s e).1.attached = false :=
  initPatch_attached h h1 h2 h3 hfd

/-- C06 for unpatch: the only way to leave the process traced is an attach that
fails half-way. -/
theorem C06_unpatch_not_stopped_partial (w : World) (s : Session) (e : DeleteEnv)
    (h : w.attached = false) (hc : e.attach.clean) : (deletePatch w s e).1.attached = false :=
  deletePatch_attached h hc

/-- Violation of C06: when the remote `open` fails the command returns with the
process still attached (src/patch/patch.c:321-324). -/
theorem C06_open_failure_leaves_stopped :
    (initPatch exWorld ⟨[], 0, true⟩ { exEnv with fd := -2 }).1.attached = true ∧
    (initPatch exWorld ⟨[], 0, true⟩ { exEnv with fd := -2 }).2.2 = -1 := ⟨rfl, rfl⟩

/-- Violation of C06: an attach that fails while waiting for the stop
(src/task/core.c:694-697) leaves the process traced. -/
theorem C06_wait_failure_leaves_stopped :
    (deletePatch (initPatch exWorld ⟨[], 0, true⟩ exEnv).1
      ⟨(initPatch exWorld ⟨[], 0, true⟩ exEnv).1.maps, 1, true⟩
      { exDel with attach := .fail 9 true }).1.attached = true := rfl

example : (initPatch exWorld ⟨[], 0, true⟩ { exEnv with entryN := some 3 }).1.attached = false :=
  C06_patch_not_stopped_partial _ _ _ rfl trivial trivial trivial (by decide)

/-! ### C07 -/

/-- C07: the live patches have pairwise different numbers. -/
theorem C07_ids_distinct_partial (R : Addr → Prop) (w0 : World) (cs : List Cmd)
    (h0 : w0.maps = []) (hlen : cs.length < 2^32) (hg : GoodHist R w0 cs) :
    ∃ w, runHist w0 cs = some w ∧ (w.maps.map (·.info.id)).Nodup := by
  obtain ⟨w, hrun, st, hp, hid, _⟩ := C04_histories_partial R w0 cs h0 hlen hg
  refine ⟨w, hrun, ?_⟩
  refine (hp.map (·.info.id)).nodup_iff.1 ?_
  rw [List.map_map]
  have : (st.map fun l => l.map.info.id.toNat).Nodup := hid.imp (fun h => Nat.ne_of_lt h)
  rw [List.nodup_iff_pairwise_ne, List.pairwise_map] at this ⊢
  exact this.imp (fun h hc => h (by simp only [Function.comp] at hc; rw [hc]))

/-- C07: the live patches have the numbers 1 to n without gaps, where n is how many there are,
after every history: so the largest number, which ultask shows and `--unpatch` uses, is their
count. -/
theorem C07_numbers_partial (R : Addr → Prop) (w0 : World) (cs : List Cmd)
    (h0 : w0.maps = []) (hlen : cs.length < 2^32) (hg : GoodHist R w0 cs) :
    ∃ w, runHist w0 cs = some w ∧
      ∀ i, (∃ m ∈ w.maps, m.info.id.toNat = i) ↔ 1 ≤ i ∧ i ≤ w.maps.length := by
  obtain ⟨w, st, hrun, hinv, _⟩ := hist_inv cs (Inv.init R w0 h0) (by omega) hg
  refine ⟨w, hrun, fun i => ?_⟩
  have hl : st.length = w.maps.length := by
    have := hinv.perm.length_eq
    rwa [List.length_map] at this
  constructor
  · rintro ⟨m, hm, rfl⟩
    obtain ⟨x, hx, rfl⟩ := List.mem_map.1 (hinv.perm.mem_iff.2 hm)
    have := hinv.bound x hx
    obtain ⟨k, hk, e⟩ := List.mem_iff_getElem.1 hx
    have := hinv.nums k x (by rw [List.getElem?_eq_getElem hk, e])
    omega
  · rintro ⟨h1, h2⟩
    have hk : st.length - i < st.length := by omega
    have := hinv.nums _ _ (List.getElem?_eq_getElem hk)
    exact ⟨_, hinv.perm.mem_iff.1 (List.mem_map_of_mem (f := Layer.map) (List.getElem_mem hk)), by omega⟩

/-- C07: a successful patch command gets a number above all live ones. -/
theorem C07_new_is_greatest_partial (R : Addr → Prop) (w0 w w' : World) (cs : List Cmd)
    (rd : Mapping → ReadRes) (e : PatchEnv)
    (h0 : w0.maps = []) (hlen : cs.length + 1 < 2^32) (hg : GoodHist R w0 cs)
    (hrun : runHist w0 cs = some w) (hgc : GoodCmd R w (.patch rd e))
    (hp : runCmd w (.patch rd e) = some (w', 0)) :
    ∃ new, w'.maps.Perm (new :: w.maps) ∧ new.bid = e.bid ∧
      ∀ m ∈ w.maps, m.info.id.toNat < new.info.id.toNat := by
  obtain ⟨w1, st, hrun1, hinv, _⟩ := hist_inv cs (Inv.init R w0 h0) (by omega) hg
  rw [hrun] at hrun1; injection hrun1 with hrun1; subst hrun1
  obtain ⟨w2, r, hr, _, hcase⟩ := patch_step hinv (by omega) rd hgc.1 e hgc.2
  rw [hp] at hr
  injection hr with hr; injection hr with hr1 hr2; subst hr1; subst hr2
  rcases hcase with ⟨hne, _⟩ | ⟨_, l, _, hb, _, _, _, _, hm, _, hinv'⟩
  · exact absurd rfl hne
  · refine ⟨l.map, by rw [hm]; exact insertMap_perm _ _, hb, ?_⟩
    intro m hmem
    have hid := hinv'.ids
    rw [List.map_cons, List.pairwise_cons] at hid
    have := hinv.perm.mem_iff.2 hmem
    rw [List.mem_map] at this
    obtain ⟨x, hx, rfl⟩ := this
    exact hid.1 _ (List.mem_map_of_mem (f := fun l : Layer => l.map.info.id.toNat) hx)

/-- C07: a successful unpatch removes exactly the live patch with the greatest
number (the one applied last, by the theorem above). -/
theorem C07_unpatch_removes_newest_partial (R : Addr → Prop) (w0 w w' : World) (cs : List Cmd)
    (rd : Mapping → ReadRes) (e : DeleteEnv)
    (h0 : w0.maps = []) (hlen : cs.length < 2^32) (hg : GoodHist R w0 cs)
    (hrun : runHist w0 cs = some w) (hgc : GoodCmd R w (.unpatch rd e))
    (hp : runCmd w (.unpatch rd e) = some (w', 0)) :
    ∃ top, w.maps.Perm (top :: w'.maps) ∧ ∀ m ∈ w'.maps, m.info.id.toNat < top.info.id.toNat := by
  obtain ⟨w1, st, hrun1, hinv, _⟩ := hist_inv cs (Inv.init R w0 h0) (by omega) hg
  rw [hrun] at hrun1; injection hrun1 with hrun1; subst hrun1
  obtain ⟨w2, r, hr, _, hcase⟩ := unpatch_step hinv rd hgc.1 e hgc.2
  rw [hp] at hr
  injection hr with hr; injection hr with hr1 hr2; subst hr1; subst hr2
  rcases hcase with ⟨hne, _⟩ | ⟨l, rest, hst, _, _, ⟨_, _, hm⟩ | ⟨hne, _⟩ | ⟨hne, _⟩⟩
  · exact absurd rfl hne
  · subst hst
    have hrem := hinv.removed
    rw [← hm] at hrem
    refine ⟨l.map, ?_, ?_⟩
    · exact hinv.perm.symm.trans (hrem.cons _)
    · intro m hmem
      have := hrem.mem_iff.2 hmem
      rw [List.mem_map] at this
      obtain ⟨x, hx, rfl⟩ := this
      have hid := hinv.ids
      rw [List.map_cons, List.pairwise_cons] at hid
      exact hid.1 _ (List.mem_map_of_mem (f := fun l : Layer => l.map.info.id.toNat) hx)
  · exact absurd rfl hne
  · exact absurd rfl hne

/-- The hypotheses are met after two overlapping patches; the one removed is the
second. -/
example : ∃ w w', runHist exWorld [.patch allOk exEnv, .patch allOk exEnv2] = some w ∧
    runCmd w (.unpatch allOk exDel) = some (w', 0) ∧ w.maps.map (·.bid) = ["a1", "b2"] ∧
    w.maps.map (·.info.id) = [1, 2] ∧ w'.maps.map (·.bid) = ["a1"] :=
  ⟨_, _, rfl, rfl, rfl, rfl, rfl⟩

/-- Violation of C07 and C08: when the ELF header of a live patch cannot be read
while opening the process, that patch is silently skipped; the same patch can
then be applied again, with the same number. -/
theorem C07_unreadable_duplicates : ∃ w1 w2,
    runCmd exWorld (.patch allOk exEnv) = some (w1, 0) ∧
    runCmd w1 (.patch (fun _ => .noEhdr) { exEnv with mmap := .created 0x10001000 }) = some (w2, 0) ∧
    w2.maps.map (·.info.id) = [1, 1] ∧ w2.maps.map (·.bid) = ["a1", "a1"] :=
  ⟨_, _, rfl, rfl, rfl, rfl⟩

/-! ### C08 -/

/-- C08: over any history, no Build ID is live twice. -/
theorem C08_build_ids_distinct_partial (R : Addr → Prop) (w0 : World) (cs : List Cmd)
    (h0 : w0.maps = []) (hlen : cs.length < 2^32) (hg : GoodHist R w0 cs) :
    ∃ w, runHist w0 cs = some w ∧ (w.maps.map (·.bid)).Nodup := by
  obtain ⟨w, st, hrun, hinv, _⟩ := hist_inv cs (Inv.init R w0 h0) (by omega) hg
  exact ⟨w, hrun, hinv.bids⟩

/-- C08: a patch command for a Build ID that is live fails and changes neither
the live patches nor the text; if nothing else is wrong it reports `EALREADY`. -/
theorem C08_duplicate_refused_partial (R : Addr → Prop) (w w' : World) (r : Int)
    (rd : Mapping → ReadRes) (e : PatchEnv) (hg : GoodCmd R w (.patch rd e))
    (hready : ∀ m ∈ w.maps, m.ready = true)
    (hdup : ∃ m ∈ w.maps, m.bid = e.bid)
    (hp : runCmd w (.patch rd e) = some (w', r)) :
    r ≠ 0 ∧ w'.maps = w.maps ∧ (∀ x, ¬ R x → w'.mem x = w.mem x) ∧
    (e.alloc = none → e.chown = none → e.attach1 = .ok → 0 < e.fd → e.ftruncate = 0 →
      (∃ a, e.mmap = .created a) → e.setup = none → r = EALREADY) := by
  have hopen := openTask_ok rd w true (fun m _ => hg.1 m) hready
  simp only [runCmd, hopen, Option.map_some, Option.some.injEq, Prod.mk.injEq] at hp
  obtain ⟨hw', hr⟩ := hp
  obtain ⟨m, hm, hmb⟩ := hdup
  subst hw'; subst hr
  refine ⟨?_, ?_, ?_, ?_⟩
  · rcases initPatch_good (s := { ulps := w.maps, maxId := maxOf w.maps 0, ftoProc := true }) hg.2.toPlaced with
      ⟨h, _⟩ | ⟨_, h, _⟩
    · exact h
    · exact absurd hmb (h m hm)
  · rcases initPatch_good (s := { ulps := w.maps, maxId := maxOf w.maps 0, ftoProc := true }) hg.2.toPlaced with
      ⟨_, h, _⟩ | ⟨_, h, _⟩
    · exact h hg.2.cleanup
    · exact absurd hmb (h m hm)
  · rcases initPatch_good (s := { ulps := w.maps, maxId := maxOf w.maps 0, ftoProc := true }) hg.2.toPlaced with
      ⟨_, _, h⟩ | ⟨_, h, _⟩
    · exact h hg.2.entry
    · exact absurd hmb (h m hm)
  · rintro h1 h2 h3 h4 h5 ⟨a, h6⟩ h7
    have hany : (w.maps.any fun u => decide (u.bid = e.bid)) = true :=
      List.any_eq_true.2 ⟨m, hm, by simpa using hmb⟩
    have hfd : ¬ e.fd ≤ 0 := by omega
    have ne : EALREADY ≠ 0 := ealready_ne
    simp only [initPatch, h1, h2, createMmap, h3, if_neg hfd, h5, ne_eq, not_true_eq_false, if_false,
      h6, loadPatch, h7, hany, if_true, ne, not_false_eq_true, Bool.true_eq_false]

example : ∃ w1 w2, runCmd exWorld (.patch allOk exEnv) = some (w1, 0) ∧
    runCmd w1 (.patch allOk { exEnv with mmap := .created 0x10001000 }) = some (w2, EALREADY) ∧
    w2.maps.map (·.bid) = ["a1"] := ⟨_, _, rfl, rfl, rfl⟩

/-! ### C09 -/

/-- C09 is violated in every successful tracing session: the patch just
installed is not in the session's list (only `max_id` was advanced), so "remove
the last patch" finds nothing, returns `ENOENT` and leaves the patch live. -/
theorem C09_trace_session_leaves_patch (R : Addr → Prop) (w : World) (rd : Mapping → ReadRes)
    (s : Session) (e : PatchEnv) (d : DeleteEnv) (hp : e.Placed R w)
    (hready : ∀ m ∈ w.maps, m.ready = true) (hr : ∀ m ∈ w.maps, rd m = .ok)
    (hids : ∀ m ∈ w.maps, m.info.id.toNat < 2^32 - 1)
    (hs : openTask true rd w = some s) (hok : (initPatch w s e).2.2 = 0) :
    (traceSession w s e d).2.2 = ENOENT ∧ (traceSession w s e d).1 = (initPatch w s e).1 ∧
    ∃ new, (traceSession w s e d).1.maps.Perm (new :: w.maps) := by
  have hopen := openTask_ok rd w true hr hready
  rw [hs] at hopen; injection hopen with hopen; subst hopen
  have hmaxlt : (maxOf w.maps 0).toNat < 2^32 - 1 := by
    rcases maxOf_mem w.maps 0 with h | ⟨m, hm, h⟩
    · rw [h]; decide
    · rw [← h]; exact hids m hm
  have hid : (maxOf w.maps 0 + 1).toNat = (maxOf w.maps 0).toNat + 1 := by
    rw [BitVec.toNat_add, show (1 : BitVec 32).toNat = 1 from rfl, Nat.mod_eq_of_lt (by omega)]
  rcases initPatch_good (s := { ulps := w.maps, maxId := maxOf w.maps 0, ftoProc := true }) hp with
    ⟨hne, _⟩ | ⟨_, _, hdr, t, p, _, _, _, hmax, hmaps, _⟩
  · exact absurd hok hne
  have hulps : (initPatch w ⟨w.maps, maxOf w.maps 0, true⟩ e).2.1.ulps = w.maps := by
    unfold initPatch
    split
    · rfl
    · cases e.alloc <;> dsimp only <;> try rfl
      cases e.chown <;> dsimp only <;> try rfl
      generalize createMmap w e = c
      obtain ⟨w', r⟩ := c
      cases r with
      | error r => rfl
      | ok hdr =>
        have : (loadPatch w' ⟨w.maps, maxOf w.maps 0, true⟩ e hdr).2.1.ulps = w.maps := by
          unfold loadPatch
          cases e.setup <;> dsimp only
          split
          · rfl
          · cases e.rewrite <;> dsimp only
            cases e.simplify <;> cases e.apply <;> dsimp only
            unfold solveAndKick
            cases e.target <;> dsimp only
            cases e.source <;> dsimp only
        dsimp only
        split <;> exact this
  have hfind : ((initPatch w ⟨w.maps, maxOf w.maps 0, true⟩ e).2.1.ulps.find?
      fun u => decide ((initPatch w ⟨w.maps, maxOf w.maps 0, true⟩ e).2.1.maxId = u.info.id)) = none := by
    rw [hulps, hmax, List.find?_eq_none]
    intro m hm
    simp only [decide_eq_true_eq]
    intro hc
    have := maxOf_ge w.maps 0 m hm
    rw [← hc, hid] at this
    omega
  have hdel : deletePatch (initPatch w ⟨w.maps, maxOf w.maps 0, true⟩ e).1
      (initPatch w ⟨w.maps, maxOf w.maps 0, true⟩ e).2.1 d =
      ((initPatch w ⟨w.maps, maxOf w.maps 0, true⟩ e).1, ENOENT) := by
    unfold deletePatch; rw [hfind]
  simp only [traceSession, hdel]
  exact ⟨trivial, trivial, _, by rw [hmaps]; exact insertMap_perm _ _⟩

/-- Violation of C09, second half: with the tracing patch already live and some
other patch applied last, the tracing session fails to apply (Build ID exists)
and then removes the other patch. -/
theorem C09_trace_session_removes_foreign : ∃ w s x,
    runHist exWorld [.patch allOk exEnv, .patch allOk exEnv2] = some w ∧
    openTask true allOk w = some s ∧
    traceSession w s { exEnv with mmap := .created 0x10002000 } exDel = (x, EALREADY, 0) ∧
    w.maps.map (·.bid) = ["a1", "b2"] ∧ x.maps.map (·.bid) = ["a1"] :=
  ⟨_, _, _, rfl, rfl, rfl, rfl, rfl⟩

/-- The part of C09 that holds: in a process without live patches a session
whose apply step fails removes nothing and changes no text. -/
theorem C09_trace_session_partial (R : Addr → Prop) (w : World) (e : PatchEnv) (d : DeleteEnv)
    (h0 : w.maps = []) (hg : e.Good R w)
    (hfail : (initPatch w ⟨[], 0, true⟩ e).2.2 ≠ 0) :
    (traceSession w ⟨[], 0, true⟩ e d).2.2 = ENOENT ∧
    (traceSession w ⟨[], 0, true⟩ e d).1.maps = [] ∧
    ∀ x, ¬ R x → (traceSession w ⟨[], 0, true⟩ e d).1.mem x = w.mem x := by
  rcases initPatch_good (s := ⟨[], 0, true⟩) hg.toPlaced with ⟨_, hm, he⟩ | ⟨h, _⟩
  · have hulps : (initPatch w ⟨[], 0, true⟩ e).2.1.ulps = [] := by
      unfold initPatch
      split
      · rfl
      · cases e.alloc <;> dsimp only <;> try rfl
        cases e.chown <;> dsimp only <;> try rfl
        generalize createMmap w e = c
        obtain ⟨w', r⟩ := c
        cases r with
        | error r => rfl
        | ok hdr =>
          have : (loadPatch w' ⟨[], 0, true⟩ e hdr).2.1.ulps = [] := by
            unfold loadPatch
            cases e.setup <;> dsimp only
            split
            · rfl
            · cases e.rewrite <;> dsimp only
              cases e.simplify <;> cases e.apply <;> dsimp only
              unfold solveAndKick
              cases e.target <;> dsimp only
              cases e.source <;> dsimp only
          dsimp only
          split <;> exact this
    have hdel : deletePatch (initPatch w ⟨[], 0, true⟩ e).1 (initPatch w ⟨[], 0, true⟩ e).2.1 d =
        ((initPatch w ⟨[], 0, true⟩ e).1, ENOENT) := by
      unfold deletePatch; rw [hulps]; rfl
    simp only [traceSession, hdel]
    exact ⟨trivial, by rw [hm hg.cleanup, h0], he hg.entry⟩
  · exact absurd h hfail

example : (initPatch exWorld ⟨[], 0, true⟩ exEnv).2.2 = 0 ∧
    (initPatch exWorld ⟨[], 0, true⟩ { exEnv with setup := some 3 }).2.2 ≠ 0 := ⟨rfl, neg_ne_zero 3⟩

end Ulp.Patch
