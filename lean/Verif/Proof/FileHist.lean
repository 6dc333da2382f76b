import Verif.Spec.FileHist
import Verif.Props.LiveUlp
namespace Ulp.LoadBytes
open Load PatchFile

/-- What `load` does with well-made files on a machine. -/
def Links (M : Machine) (width : Nat → Nat)
    (value : Nat → BitVec 64 → BitVec 64 → BitVec 64 → Option (Nat × BitVec 64)) : Prop :=
  ∀ f p, WellMade width f p → ∀ E : Env, ∃ res, load M E f = some res ∧ ∀ L, res = .ok L →
    Complete f p.secs ∧ ∃ inf t k s S, Has p.secs ".ulpatch.info" inf ∧ E.find p.dst = some t ∧
      LastNamed p.syms p.src k s ∧ SymAddr p.secs E.th E.find k s S ∧ L.record.target = t ∧
      L.record.patch = S ∧ L.inf.ulpInfo.toNat = inf.offset ∧ inf.offset + 64 ≤ f.length ∧
      Linked width value f p.secs p.o p.st p.syms p.rels E.th E.find p.src t E.now (E.maxId + 1) L.img

theorem links_x86 : Links x86 Psabi.x86Width Psabi.x86 := by
  intro f p h E
  have hR' := h.relocs
  rw [← x86_width] at hR'
  obtain ⟨res, g1, g2, _⟩ := load_spec x86_lawful h.laid h.readable h.names h.symbols hR' E
  refine ⟨res, g1, fun L hL => ?_⟩
  have hG := g2 L hL
  obtain ⟨t, g3, g4⟩ := hG.linked h.laid h.names h.symbols
    (fun i k t r s hrel hs hd w v hw => hd.x86_field hR' h.laid hrel hs hw) hR'
  rw [x86_width] at g4
  obtain ⟨inf, t', k, s, r0, k1, k2, k3, k4, k5, k6, k7⟩ := hG.record
  rw [k2] at g3
  cases g3
  have hin : inf.offset + 64 ≤ f.length := by
    obtain ⟨e1, e2⟩ := h.names.info inf k1
    obtain ⟨i, _, hi, _⟩ := k1
    have := h.laid.inside i inf hi (by omega)
    omega
  have hsm := h.laid.describes.small
  exact ⟨hG.complete, inf, t, k, s, _, k1, k2, k3, newVal_addr h.symbols k3.1, by rw [k5]; rfl, by rw [k5]; rfl,
    by rw [k6, ofNat_toNat (by omega)], hin, g4⟩

theorem links_a64 (junk : Bool) : Links (a64 junk) Psabi.a64Width Psabi.a64Data := by
  intro f p h E
  have hR' := relocs_mono (a64_width_le junk) h.relocs
  obtain ⟨res, g1, g2, _⟩ := load_spec (a64_lawful junk) h.laid h.readable h.names h.symbols hR' E
  obtain ⟨res', g1', _, g5⟩ := C57_a64_linked_partial h.laid h.readable h.names h.symbols h.relocs E junk
  rw [g1] at g1'
  cases g1'
  refine ⟨res, g1, fun L hL => ?_⟩
  have hG := g2 L hL
  obtain ⟨t, g3, g4⟩ := g5 L hL
  obtain ⟨inf, t', k, s, r0, k1, k2, k3, k4, k5, k6, k7⟩ := hG.record
  rw [k2] at g3
  cases g3
  have hin : inf.offset + 64 ≤ f.length := by
    obtain ⟨e1, e2⟩ := h.names.info inf k1
    obtain ⟨i, _, hi, _⟩ := k1
    have := h.laid.inside i inf hi (by omega)
    omega
  have hsm := h.laid.describes.small
  exact ⟨hG.complete, inf, t, k, s, _, k1, k2, k3, newVal_addr h.symbols k3.1, by rw [k5]; rfl, by rw [k5]; rfl,
    by rw [k6, ofNat_toNat (by omega)], hin, g4⟩

/-! ### One live patch -/

def LiveFile.layer (v : LiveFile) : Patch.Layer := ⟨v.mapping, v.active⟩

section
variable {width : Nat → Nat}
  {value : Nat → BitVec 64 → BitVec 64 → BitVec 64 → Option (Nat × BitVec 64)}

theorem WellMade.len {f : List Byte} {p : Parts} (h : WellMade width f p) : 64 ≤ f.length := by
  have := h.laid.tabFrom
  have := h.laid.tabTo
  omega

theorem add_ofNat_add (a : Addr) (x y : Nat) :
    a + BitVec.ofNat 64 x + BitVec.ofNat 64 y = a + BitVec.ofNat 64 (x + y) := by
  rw [BitVec.add_assoc, BitVec.ofNat_add]

theorem LiveFile.In.congr {v : LiveFile} {m m' : Mem} (h : v.In width value m)
    (he : ∀ i, i < v.file.length → m' (v.start + BitVec.ofNat 64 i) = m (v.start + BitVec.ofNat 64 i)) :
    v.In width value m' := by
  obtain ⟨g, inf, h1, h2, h3, h4⟩ := h.image
  refine { h with image := ⟨g, inf, h1, h2, ?_, ?_⟩ }
  · intro k b hk hn
    have : k < g.length := (List.getElem?_eq_some_iff.1 hk).1
    rw [h2.length] at this
    rw [he k this]
    exact h3 k b hk hn
  · rw [← h4]
    apply Mem.read_congr
    intro i hi
    have := h.made.readable.info inf h1
    rw [add_ofNat_add]
    exact he _ (by omega)

theorem LiveFile.In.inactive {v : LiveFile} {m : Mem} (h : v.In width value m) :
    LiveFile.In width value m { v with active := false } := { h with }

/-- The state after a history. -/
structure FInv (width : Nat → Nat)
    (value : Nat → BitVec 64 → BitVec 64 → BitVec 64 → Option (Nat × BitVec 64))
    (R : Addr → Prop) (base : Mem) (n : Nat) (w : Patch.World) (st : List LiveFile) : Prop where
  inv : Patch.Inv R base n w (st.map LiveFile.layer)
  whole : ∀ v ∈ st, v.In width value w.mem
  apart : st.Pairwise fun u v => ∀ i j, i < u.file.length → j < v.file.length →
    u.start + BitVec.ofNat 64 i ≠ v.start + BitVec.ofNat 64 j
  area : ∀ v ∈ st, ∀ i, i < v.file.length → R (v.start + BitVec.ofNat 64 i)

theorem FInv.init (R) (w : Patch.World) (h : w.maps = []) : FInv width value R w.mem 0 w [] :=
  ⟨Patch.Inv.init R w h, nofun, .nil, nofun⟩

theorem FInv.live {R base n w st} (h : FInv width value R base n w st) {v : LiveFile} (hv : v ∈ st) :
    v.mapping ∈ w.maps := by
  apply h.inv.perm.mem_iff.1
  rw [List.map_map]
  exact List.mem_map_of_mem (f := Patch.Layer.map ∘ LiveFile.layer) hv

theorem FInv.of_map {R base n w st} (h : FInv width value R base n w st) {m : Patch.Mapping} (hm : m ∈ w.maps) :
    ∃ v ∈ st, v.mapping = m := by
  have := h.inv.perm.mem_iff.2 hm
  rw [List.map_map, List.mem_map] at this
  exact this

/-- Nothing changes but in a part of `R` without live patches. -/
theorem FInv.congr {R base n w w' st} (h : FInv width value R base n w st) (hm : w'.maps = w.maps)
    (harch : w'.arch = w.arch) (he : EqOff R w'.mem w.mem)
    (hs : ∀ v ∈ st, ∀ i, i < v.file.length →
      w'.mem (v.start + BitVec.ofNat 64 i) = w.mem (v.start + BitVec.ofNat 64 i)) :
    FInv width value R base n w' st :=
  ⟨h.inv.congr hm harch he, fun v hv => (h.whole v hv).congr (hs v hv), h.apart, h.area⟩

theorem FInv.mono {R base n n' w st} (h : FInv width value R base n w st) (hn : n ≤ n') :
    FInv width value R base n' w st := { h with inv := h.inv.mono hn }

/-! ### Unpatch -/

theorem window_out {a t : Addr} {R : Addr → Prop} {n : Nat} (hw : WindowOff R t 16)
    (ha : ∀ i, i < n → R (a + BitVec.ofNat 64 i)) : ∀ i, i < n → 16 ≤ (a + BitVec.ofNat 64 i - t).toNat := by
  intro i hi
  apply Nat.le_of_not_lt
  intro hlt
  apply hw _ hlt
  rw [← addr_eq_add_sub]
  exact ha i hi

theorem writeTask_out (w : Patch.World) (t : Addr) (bs : List Byte) (n : Option Nat) (x : Addr)
    (h : bs.length ≤ (x - t).toNat) : (Patch.writeTask w t bs n).1.mem x = w.mem x := by
  unfold Patch.writeTask
  cases n with
  | none => rfl
  | some k =>
    dsimp only
    apply Mem.write_out
    rw [List.length_take]
    omega

theorem detach_mem (w : Patch.World) : (Patch.detach w).mem = w.mem := rfl
theorem removeMap_mem (w : Patch.World) (a : Addr) : (Patch.removeMap w a).mem = w.mem := rfl

/-- `delete_patch` writes nothing but 16 bytes of a replaced function. -/
theorem deletePatch_frame (w : Patch.World) (s : Patch.Session) (e : Patch.DeleteEnv) (x : Addr)
    (h : ∀ u ∈ s.ulps, u.info.orig.length ≤ (x - u.info.virt).toNat) :
    (Patch.deletePatch w s e).1.mem x = w.mem x := by
  unfold Patch.deletePatch
  cases hf : s.ulps.find? fun u => decide (s.maxId = u.info.id) with
  | none => rfl
  | some u =>
    have hu := h u (List.mem_of_find?_eq_some hf)
    cases e.attach with
    | fail n left => rfl
    | ok =>
      dsimp only
      have := writeTask_out (Patch.attach .ok w).1 u.info.virt u.info.orig e.writeN x hu
      split
      · cases e.munmap with
        | done => exact this
        | failed gone => cases gone <;> exact this
      · exact this

theorem FInv.orig {R base n w st} (h : FInv width value R base n w st) {v : LiveFile} (hv : v ∈ st) :
    v.saved.length = 16 := (h.whole v hv).saved

theorem FInv.out {R base n w st} (h : FInv width value R base n w st) {u v : LiveFile} (hu : u ∈ st) (hv : v ∈ st) :
    ∀ i, i < v.file.length → 16 ≤ (v.start + BitVec.ofNat 64 i - u.target).toNat :=
  window_out (h.inv.win u.layer (List.mem_map_of_mem hu)) (h.area v hv)

theorem unpatch_file {R base n w st} (h : FInv width value R base n w st)
    (rd : Patch.Mapping → Patch.ReadRes) (hr : ∀ m, rd m = .ok) (d : Patch.DeleteEnv) (g : d.Good) :
    ∃ w' r st', Patch.runCmd w (.unpatch rd d) = some (w', r) ∧ w'.arch = w.arch ∧
      Does st (.unpatch rd d) r st' ∧ FInv width value R base n w' st' := by
  obtain ⟨w', r, hrun, harch, hcase⟩ := Patch.unpatch_step h.inv rd hr d g
  have hs : ∀ v ∈ st, ∀ i, i < v.file.length →
      w'.mem (v.start + BitVec.ofNat 64 i) = w.mem (v.start + BitVec.ofNat 64 i) := by
    intro v hv i hi
    unfold Patch.runCmd at hrun
    dsimp only at hrun
    rw [Patch.openTask_ok rd w true (fun m _ => hr m) h.inv.ready, Option.map_some, Option.some.injEq] at hrun
    have := deletePatch_frame w { ulps := w.maps, maxId := Patch.maxOf w.maps 0, ftoProc := true } d
      (v.start + BitVec.ofNat 64 i) ?_
    · rw [hrun] at this
      exact this
    · intro m hm
      obtain ⟨u, hu, rfl⟩ := h.of_map hm
      change u.saved.length ≤ (v.start + BitVec.ofNat 64 i - u.target).toNat
      rw [h.orig hu]
      exact h.out hu hv i hi
  rcases hcase with ⟨hne, hm, he⟩ | ⟨l, rest, hst, hL, hmem, hc⟩
  · exact ⟨w', r, st, hrun, harch, .failed hne, h.congr hm harch (by rw [he]; exact EqOff.refl _) hs⟩
  · cases st with
    | nil => cases hst
    | cons v st =>
      rw [List.map_cons] at hst
      cases hst
      have hpop : ∀ (hm : w'.maps = w.maps.filter fun m => m.start ≠ v.layer.map.start),
          FInv width value R base n w' st := by
        intro hm
        refine ⟨h.inv.pop w' hm harch hL, ?_, (List.pairwise_cons.1 h.apart).2, ?_⟩
        · intro u hu
          exact (h.whole u (List.mem_cons_of_mem _ hu)).congr (hs u (List.mem_cons_of_mem _ hu))
        · intro u hu
          exact h.area u (List.mem_cons_of_mem _ hu)
      rcases hc with ⟨h0, _, hm⟩ | ⟨h0, hg, hm⟩ | ⟨h0, hg, hm⟩
      · subst h0
        exact ⟨w', 0, st, hrun, harch, .unpatched, hpop hm⟩
      · exact ⟨w', r, st, hrun, harch, .gone h0 hg, hpop hm⟩
      · refine ⟨w', r, { v with active := false } :: st, hrun, harch, .stays h0 hg, ?_⟩
        have hinv := h.inv
        rw [List.map_cons] at hinv
        have hwin := hinv.win v.layer (by simp)
        refine ⟨?_, ?_, ?_, ?_⟩
        · rw [List.map_cons]
          exact {
            perm := by rw [hm]; exact hinv.perm
            ids := hinv.ids
            bound := by
              intro x hx
              rcases List.mem_cons.1 hx with rfl | hx
              · exact hinv.bound v.layer (by simp)
              · exact hinv.bound x (by simp [hx])
            starts := by rw [hm]; exact hinv.starts
            bids := by rw [hm]; exact hinv.bids
            ready := by rw [hm]; exact hinv.ready
            nums := by
              intro k x hx
              cases k with
              | zero =>
                rw [List.getElem?_cons_zero] at hx
                injection hx with hx
                subst hx
                exact hinv.nums 0 v.layer rfl
              | succ k => exact hinv.nums (k + 1) x hx
            win := by
              intro x hx
              rcases List.mem_cons.1 hx with rfl | hx
              · exact hwin
              · exact hinv.win x (by simp [hx])
            layers := by
              rw [harch]
              refine ⟨w'.mem, hL, ?_, EqOff.refl _⟩
              change v.saved = w'.mem.read v.layer.map.info.virt 16
              have h16 : v.saved.length = 16 := h.orig (by simp)
              rw [hmem.read _ _ hwin]
              have := Mem.read_write_self w.mem v.target v.saved (by omega)
              rw [h16] at this
              exact this.symm }
        · intro u hu
          rcases List.mem_cons.1 hu with rfl | hu
          · exact ((h.whole v (by simp)).congr (hs v (by simp))).inactive
          · exact (h.whole u (by simp [hu])).congr (hs u (by simp [hu]))
        · rw [List.pairwise_cons]
          exact List.pairwise_cons.1 h.apart
        · intro u hu
          rcases List.mem_cons.1 hu with rfl | hu
          · exact h.area v (by simp)
          · exact h.area u (by simp [hu])

/-! ### Patch -/

/-- A patch command that is refused at once does not depend on the rest. -/
theorem initPatch_early (w : Patch.World) (s : Patch.Session) (e : Patch.PatchEnv) (n : Nat)
    (h : Stops e n) :
    Patch.initPatch w s e = Patch.initPatch w s { e with target := none, image := fun _ => [] } := by
  unfold Patch.initPatch Patch.createMmap Patch.loadPatch Patch.deleteMmap
  dsimp only
  rcases h with h | ⟨h1, h2, h3⟩
  · rw [h]
  · rw [h1, h2, h3]

theorem own_iff {e : Patch.PatchEnv} {a : Addr} (hmap : e.mmap = .created a) (x : Addr) :
    e.own x ↔ ∃ k, k < e.len ∧ x = a + BitVec.ofNat 64 k := by
  constructor
  · rintro ⟨b, hb, i, hi, rfl⟩
    rw [hmap] at hb
    cases hb
    exact ⟨i, hi, rfl⟩
  · rintro ⟨i, hi, rfl⟩
    exact ⟨a, hmap, i, hi, rfl⟩

theorem patch_file {M : Machine} (hM : Links M width value) {R base n w st}
    (h : FInv width value R base n w st) (hn : n + 1 < 2 ^ 32)
    {rd : Patch.Mapping → Patch.ReadRes} {hdr : Addr} {find : List Byte → Option (BitVec 64)} {now : BitVec 64}
    {f : List Byte} {e : Patch.PatchEnv} (g : GoodFile width R w (.patch rd hdr find now f e)) :
    ∃ w' r st', patchFile M w rd hdr find now f e = some (w', r) ∧ w'.arch = w.arch ∧
      Does st (.patch rd hdr find now f e) r st' ∧ (r ≠ 0 → w'.maps = w.maps) ∧
      FInv width value R base (n + 1) w' st' := by
  obtain ⟨hr, hwf, hat, hcl, harea, p, hp, hbid, htext⟩ := g
  have hopen := Patch.openTask_ok rd w true (fun m _ => hr m) h.inv.ready
  -- the mapping is away from the others
  have hstart : match e.mmap with
      | .created a => (∀ i, i < f.length → R (a + BitVec.ofNat 64 i)) ∧ ∀ m ∈ w.maps, m.start ≠ a
      | .errno v => ∀ m ∈ w.maps, m.start ≠ v
      | .inject l => l = none := by
    cases hmm : e.mmap with
    | created a =>
      rw [hmm] at harea
      refine ⟨harea.1, ?_⟩
      intro m hm hc
      obtain ⟨v, hv, rfl⟩ := h.of_map hm
      have h1 := hp.len
      have h2 := (h.whole v hv).made.len
      refine harea.2 _ hm 0 0 (by omega) ?_ ?_
      · change 0 < v.file.length
        omega
      · rw [hc]
    | errno v => rw [hmm] at harea; exact harea
    | inject l => rw [hmm] at harea; exact harea
  obtain ⟨res, hload, hgood⟩ := hM f p hp (sessionEnv { ulps := w.maps, maxId := Patch.maxOf w.maps 0, ftoProc := true }
    hdr (mmapAddr e.mmap) find now)
  unfold patchFile
  rw [hopen]
  dsimp only
  rw [hload]
  cases res with
  | error k =>
    dsimp only
    generalize headersDone (sessionEnv { ulps := w.maps, maxId := Patch.maxOf w.maps 0, ftoProc := true }
      hdr (mmapAddr e.mmap) find now) f = done
    have hG : Patch.PatchEnv.Good R w
        { refused e f done k with target := none, image := fun _ => [] } :=
      { wf := hwf, img := (fun _ => Nat.zero_le _), area := hstart, text := (fun _ h => by cases h),
        entry := hat, cleanup := hcl }
    obtain ⟨w', r, hrun, harch, hcase⟩ := Patch.patch_step h.inv hn rd hr _ hG
    unfold Patch.runCmd at hrun
    dsimp only at hrun
    rw [hopen, Option.map_some, Option.some.injEq,
      ← initPatch_early w _ _ _ (stops_refused e f done k)] at hrun
    have hset := initPatch_setup w { ulps := w.maps, maxId := Patch.maxOf w.maps 0, ftoProc := true }
      _ (stops_refused e f done k)
    rw [Prod.mk.injEq] at hrun
    rw [hrun.1, hrun.2] at hset
    rw [hrun.1, hrun.2]
    rcases hcase with ⟨_, hm, he⟩ | ⟨h0, _⟩
    · exact ⟨w', r, st, rfl, harch, .refused hset.1, fun _ => hm,
        (h.congr hm harch he fun v _ i _ => by rw [hset.2]).mono (by omega)⟩
    · exact absurd h0 hset.1
  | ok L =>
    dsimp only
    obtain ⟨hc, inf, t, k, s, S, k1, k2, k3, k4, k5, k6, k7, k8, k9⟩ := hgood L rfl
    have hlen := k9.length
    have himg : ∀ i, ((withFile e f L).image i).length ≤ (withFile e f L).len := by
      intro i
      change (store L.img _ _).length ≤ f.length
      have : (i.orig.take 16).length ≤ 16 := by rw [List.length_take]; omega
      rw [store_length (by omega)]
      omega
    have hwt : WindowOff R t 16 := htext t k2
    have htgt : ∀ t', (withFile e f L).target = some t' → WindowOff R t' 16 := by
      intro t' ht'
      have : L.record.target = t' := Option.some.inj ht'
      rw [k5] at this
      subst this
      exact hwt
    have hG : (withFile e f L).Good R w :=
      { wf := hwf, img := himg, area := hstart, text := htgt, entry := hat, cleanup := hcl }
    obtain ⟨w', r, hrun, harch, hcase⟩ := Patch.patch_step_full h.inv hn rd hr _ hG
    have hrun' := hrun
    unfold Patch.runCmd at hrun'
    dsimp only at hrun'
    rw [hopen, Option.map_some, Option.some.injEq, Prod.mk.injEq] at hrun'
    rw [hrun'.1, hrun'.2]
    rcases hcase with ⟨hne, hm, he⟩ | ⟨h0, l, ⟨a, hmap, hl⟩, hact, hlb, hlt, hls, hlo, hfresh, hins, hmem, hinv⟩
    · refine ⟨w', r, st, rfl, harch, .refused hne, fun _ => hm, ?_⟩
      refine (h.congr hm harch he ?_).mono (by omega)
      intro v hv i hi
      -- inside the own mapping there is no other patch
      have hown : ∀ j x, j < 16 → (withFile e f L).own x → R x := by
        rintro j x _ ⟨b, hb, i, hi, rfl⟩
        have hb' : e.mmap = .created b := hb
        rw [hb'] at hstart
        exact hstart.1 i hi
      have hpl : (withFile e f L).Placed (withFile e f L).own w := by
        refine ⟨hwf, himg, ?_, ?_⟩
        · change match e.mmap with
            | .created a => (∀ i, i < f.length → (withFile e f L).own (a + BitVec.ofNat 64 i)) ∧
                ∀ m ∈ w.maps, m.start ≠ a
            | .errno v => ∀ m ∈ w.maps, m.start ≠ v
            | .inject l => l = none
          cases hmm : e.mmap with
          | created a =>
            rw [hmm] at hstart
            exact ⟨fun i hi => ⟨a, hmm, i, hi, rfl⟩, hstart.2⟩
          | errno v => rw [hmm] at hstart; exact hstart
          | inject l => rw [hmm] at hstart; exact hstart
        · intro t' ht' j hj ho
          exact htgt t' ht' j hj (hown j _ hj ho)
      rcases Patch.initPatch_good (s := { ulps := w.maps, maxId := Patch.maxOf w.maps 0, ftoProc := true }) hpl with
        ⟨_, _, hf⟩ | ⟨hf, _⟩
      · have := hf hat (v.start + BitVec.ofNat 64 i) ?_
        · rw [hrun'.1] at this
          exact this
        · rintro ⟨b, hb, j, hj, hx⟩
          have hb' : e.mmap = .created b := hb
          rw [hb'] at harea
          exact harea.2 _ (h.live hv) j i hj hi hx.symm
      · rw [hrun'.2] at hf
        exact absurd hf hne
    · subst h0
      have hmap' : e.mmap = .created a := hmap
      rw [hmap'] at harea hload k4 k9
      have hma : mmapAddr e.mmap = a := by rw [hmap']; rfl
      change SymAddr p.secs a find k s S at k4
      change Linked width value f p.secs p.o p.st p.syms p.rels a find p.src t now
        (Patch.maxOf w.maps 0 + 1) L.img at k9
      have e1 : l.map.info.virt = t := by
        have : L.record.target = l.map.info.virt := Option.some.inj hlt
        rw [← this, k5]
      have e2 : l.map.info.patchFn = S := by
        have : L.record.patch = l.map.info.patchFn := Option.some.inj hls
        rw [← this, k6]
      have hsep : ∀ k j, k < f.length → j < 16 → a + BitVec.ofNat 64 k ≠ t + BitVec.ofNat 64 j := by
        intro k j hk hj hx
        apply hwt j hj
        rw [← hx]
        exact harea.1 k hk
      obtain ⟨hdr', t', p', q1, q2, q3, q4⟩ := initPatch_mem (w := w)
        (s := { ulps := w.maps, maxId := Patch.maxOf w.maps 0, ftoProc := true }) (e := withFile e f L) hwf hrun'.2
      rw [show mmapAddr (withFile e f L).mmap = a from hma] at q1
      subst q1
      cases q2
      cases q3
      rw [hrun'.1] at q4
      change w'.mem = (w.mem.write a (store L.img (L.inf.ulpInfo.toNat + 28)
        ((w.mem.read L.record.target 16).take 16))).write L.record.target (jmpEntry w.arch L.record.patch) at q4
      rw [k5, k6, k7] at q4
      have hP : Patched L.img inf.offset a t w.mem w'.mem := by
        rw [q4]
        exact patched_of (by omega) (by rw [hlen]; have := hp.laid.describes.small; omega) (by rw [hlen]; exact hsep)
      have hs : ∀ v ∈ st, ∀ i, i < v.file.length →
          w'.mem (v.start + BitVec.ofNat 64 i) = w.mem (v.start + BitVec.ofNat 64 i) := by
        intro v hv i hi
        apply hP.frame
        · intro k hk hx
          rw [hlen] at hk
          exact harea.2 _ (h.live hv) k i hk hi hx.symm
        · intro j hj hx
          apply hwt j hj
          rw [← hx]
          exact h.area v hv i hi
      rw [e1] at hlo
      rw [e1, e2, hlo] at hl
      generalize hvdef : (⟨f, p, a, find, now, t, S, Patch.maxOf w.maps 0 + 1, w.mem.read t 16, e.bid, true⟩ : LiveFile) = v
      have hlayer : l = v.layer := by
        cases l with
        | mk lm la =>
          dsimp only at hl hact
          rw [hl, hact, ← hvdef]
          rfl
      refine ⟨w', 0, v :: st, rfl, harch, .patched ⟨rd, hdr, e, ?_, ?_, ?_, ?_⟩, fun h0 => absurd rfl h0, ?_⟩
      · rw [← hvdef]
      · rw [← hvdef]; exact hmap'
      · rw [← hvdef]
      · rw [← hvdef]
      · refine ⟨?_, ?_, ?_, ?_⟩
        · rw [List.map_cons, ← hlayer]
          exact hinv
        · intro u hu
          rcases List.mem_cons.1 hu with rfl | hu
          · rw [← hvdef]
            refine ⟨hp, hc, hbid, k2, ⟨k, s, k3, k4⟩, Mem.read_length .., L.img, inf, k1, k9, hP.image, ?_⟩
            dsimp only
            apply List.ext_getElem?
            intro j
            rw [Mem.read_getElem?, Mem.read_getElem?]
            split
            · rename_i hj
              rw [add_ofNat_add, hP.saved j hj]
            · rfl
          · exact (h.whole u hu).congr (hs u hu)
        · rw [List.pairwise_cons]
          refine ⟨?_, h.apart⟩
          intro u hu i j hi hj
          rw [← hvdef] at hi ⊢
          exact harea.2 _ (h.live hu) i j hi hj
        · intro u hu
          rcases List.mem_cons.1 hu with rfl | hu
          · rw [← hvdef]; exact harea.1
          · exact h.area u hu

/-! ### Trace -/

/-- What `init_patch` does to the session. -/
theorem initPatch_session (w : Patch.World) (s : Patch.Session) (e : Patch.PatchEnv) :
    (Patch.initPatch w s e).2.1.ulps = s.ulps ∧
      ((Patch.initPatch w s e).2.1.maxId = s.maxId ∨ (Patch.initPatch w s e).2.1.maxId = s.maxId + 1) ∧
      ((Patch.initPatch w s e).2.2 = 0 → (Patch.initPatch w s e).2.1.maxId = s.maxId + 1) := by
  have hneg : ∀ n, Patch.neg n ≠ 0 := Patch.neg_ne_zero
  unfold Patch.initPatch
  by_cases hf : s.ftoProc = false
  · rw [if_pos hf]
    exact ⟨rfl, .inl rfl, nofun⟩
  rw [if_neg hf]
  cases e.alloc with
  | some n => exact ⟨rfl, .inl rfl, fun h => absurd h (hneg n)⟩
  | none =>
    cases e.chown with
    | some n => exact ⟨rfl, .inl rfl, fun h => absurd h (hneg n)⟩
    | none =>
      dsimp only
      have hcm : ∀ w' r, Patch.createMmap w e = (w', .error r) → r ≠ 0 := by
        intro w' r h
        unfold Patch.createMmap at h
        repeat' split at h
        all_goals first
          | (cases h; exact hneg _)
          | (cases h; decide)
          | cases h
      generalize hc : Patch.createMmap w e = c
      obtain ⟨w', r⟩ := c
      cases r with
      | error r => exact ⟨rfl, .inl rfl, fun h => absurd h (hcm _ _ hc)⟩
      | ok a =>
        dsimp only
        have hl : (Patch.loadPatch w' s e a).2.1.ulps = s.ulps ∧
            ((Patch.loadPatch w' s e a).2.1.maxId = s.maxId ∨ (Patch.loadPatch w' s e a).2.1.maxId = s.maxId + 1) ∧
            ((Patch.loadPatch w' s e a).2.2 = 0 → (Patch.loadPatch w' s e a).2.1.maxId = s.maxId + 1) := by
          unfold Patch.loadPatch
          cases e.setup with
          | some n => exact ⟨rfl, .inl rfl, fun h => absurd h (hneg n)⟩
          | none =>
            dsimp only
            by_cases hb : (s.ulps.any fun u => decide (u.bid = e.bid)) = true
            · rw [if_pos hb]
              exact ⟨rfl, .inl rfl, nofun⟩
            rw [if_neg hb]
            cases e.rewrite with
            | some n => exact ⟨rfl, .inl rfl, fun h => absurd h (hneg n)⟩
            | none =>
              cases e.simplify with
              | some n => exact ⟨rfl, .inl rfl, fun h => absurd h (hneg n)⟩
              | none =>
                cases e.apply with
                | some n => exact ⟨rfl, .inl rfl, fun h => absurd h (hneg n)⟩
                | none =>
                  dsimp only
                  unfold Patch.solveAndKick
                  cases e.target with
                  | none => exact ⟨rfl, .inl rfl, nofun⟩
                  | some t =>
                    cases e.source with
                    | none => exact ⟨rfl, .inl rfl, nofun⟩
                    | some p => exact ⟨rfl, .inr rfl, fun _ => rfl⟩
        by_cases h0 : (Patch.loadPatch w' s e a).2.2 ≠ 0
        · rw [if_pos h0]
          exact ⟨hl.1, hl.2.1, fun h => absurd h h0⟩
        · rw [if_neg h0]
          exact ⟨hl.1, hl.2.1, fun _ => hl.2.2 (Classical.not_not.1 h0)⟩

/-- `ulftrace` after `init_patch`. -/
theorem traceFile_of_patch {M : Machine} {w : Patch.World} {rd : Patch.Mapping → Patch.ReadRes} {hdr : Addr}
    {find : List Byte → Option (BitVec 64)} {now : BitVec 64} {func f : List Byte} {e : Patch.PatchEnv}
    {d : Patch.DeleteEnv} {s : Patch.Session} {w1 : Patch.World} {r : Int} {y : BitVec 64}
    (hopen : Patch.openTask true rd w = some s) (hf : find func = some y)
    (hp : patchFile M w rd hdr find now f e = some (w1, r)) :
    ∃ s1 : Patch.Session, s1.ulps = s.ulps ∧ (s1.maxId = s.maxId ∨ s1.maxId = s.maxId + 1) ∧
      (r = 0 → s1.maxId = s.maxId + 1) ∧
      traceFile M w rd hdr find now func f e d = some (Patch.deletePatch w1 s1 d) := by
  unfold patchFile at hp
  unfold traceFile
  rw [hopen] at hp ⊢
  dsimp only at hp ⊢
  rw [hf]
  dsimp only
  cases hl : load M (sessionEnv s hdr (mmapAddr e.mmap) find now) f with
  | none => rw [hl] at hp; cases hp
  | some res =>
    rw [hl] at hp
    cases res with
    | error k =>
      dsimp only at hp ⊢
      rw [Option.some.injEq, Prod.mk.injEq] at hp
      obtain ⟨h1, h2, h3⟩ := initPatch_session w s (refused e f (headersDone (sessionEnv s hdr (mmapAddr e.mmap) find now) f) k)
      rw [hp.2] at h3
      refine ⟨_, h1, h2, h3, ?_⟩
      rw [← hp.1]
      rfl
    | ok L =>
      dsimp only at hp ⊢
      rw [Option.some.injEq, Prod.mk.injEq] at hp
      obtain ⟨h1, h2, h3⟩ := initPatch_session w s (withFile e f L)
      rw [hp.2] at h3
      refine ⟨_, h1, h2, h3, ?_⟩
      rw [← hp.1]
      rfl

/-- No live patch has the next number. -/
theorem no_next {ms : List Patch.Mapping} (h : ∀ m ∈ ms, m.info.id.toNat < 2 ^ 32 - 1) :
    (ms.find? fun u => decide (Patch.maxOf ms 0 + 1 = u.info.id)) = none := by
  rw [List.find?_eq_none]
  intro m hm hc
  rw [decide_eq_true_eq] at hc
  have hmax : (Patch.maxOf ms 0).toNat < 2 ^ 32 - 1 := by
    rcases Patch.maxOf_mem ms 0 with h' | ⟨m, hm, h'⟩
    · rw [h']; decide
    · rw [← h']; exact h m hm
  have hle := Patch.maxOf_ge ms 0 m hm
  have := congrArg BitVec.toNat hc
  rw [BitVec.toNat_add, show (1 : BitVec 32).toNat = 1 from rfl, Nat.mod_eq_of_lt (by omega)] at this
  omega

theorem deletePatch_none {w : Patch.World} {s : Patch.Session} {d : Patch.DeleteEnv}
    (h : (s.ulps.find? fun u => decide (s.maxId = u.info.id)) = none) : Patch.deletePatch w s d = (w, -2) := by
  unfold Patch.deletePatch
  rw [h]
  rfl

theorem trace_file {M : Machine} (hM : Links M width value) {R base n w st}
    (h : FInv width value R base n w st) (hn : n + 1 < 2 ^ 32)
    {rd : Patch.Mapping → Patch.ReadRes} {hdr : Addr} {find : List Byte → Option (BitVec 64)} {now : BitVec 64}
    {func f : List Byte} {e : Patch.PatchEnv} {d : Patch.DeleteEnv}
    (g : GoodFile width R w (.trace rd hdr find now func f e d)) :
    ∃ w' r st', traceFile M w rd hdr find now func f e d = some (w', r) ∧ w'.arch = w.arch ∧
      Does st (.trace rd hdr find now func f e d) r st' ∧ FInv width value R base (n + 1) w' st' := by
  obtain ⟨g, gd⟩ := g
  have hopen := Patch.openTask_ok rd w true (fun m _ => g.1 m) h.inv.ready
  have hids : ∀ m ∈ w.maps, m.info.id.toNat < 2 ^ 32 - 1 := by
    intro m hm
    obtain ⟨v, hv, rfl⟩ := h.of_map hm
    have := (h.inv.bound v.layer (List.mem_map_of_mem hv)).2
    change v.mapping.info.id.toNat ≤ n at this
    omega
  cases hf : find func with
  | none =>
    refine ⟨w, 1, st, ?_, rfl, .noFunction hf, h.mono (by omega)⟩
    unfold traceFile
    rw [hopen]
    dsimp only
    rw [hf]
  | some y =>
    obtain ⟨w1, r, st1, hrun, harch, hdo, hmaps, hinv⟩ := patch_file hM h hn g
    obtain ⟨s1, hu, hid, h0, htr⟩ := traceFile_of_patch (func := func) (d := d) hopen hf hrun
    rw [htr]
    by_cases hr : r = 0
    · subst hr
      rw [deletePatch_none (by rw [hu, h0 rfl]; exact no_next hids)]
      cases hdo with
      | patched hg => exact ⟨w1, -2, _, rfl, harch, .traced hg, hinv⟩
      | refused hne => exact absurd rfl hne
    · have hst : st1 = st := by
        cases hdo with
        | patched => exact absurd rfl hr
        | refused => rfl
      subst hst
      have hm := hmaps hr
      rcases hid with hid | hid
      · obtain ⟨w2, r2, st2, hrun2, harch2, hdo2, hinv2⟩ := unpatch_file hinv rd g.1 d gd
        refine ⟨w2, r2, st2, ?_, harch2.trans harch, .traceFails hdo2, hinv2⟩
        rw [← hrun2]
        unfold Patch.runCmd
        dsimp only
        rw [Patch.openTask_ok rd w1 true (fun m _ => g.1 m) hinv.inv.ready, Option.map_some]
        unfold Patch.deletePatch
        dsimp only
        rw [hu, hid, hm]
      · rw [deletePatch_none (by rw [hu, hid]; exact no_next hids)]
        exact ⟨w1, -2, st1, rfl, harch, .traceFails (.failed (by decide)), hinv⟩

/-- Any history. -/
theorem files_inv {M : Machine} (hM : Links M width value) {R base} (cs : List FileCmd) : ∀ {n w st},
    FInv width value R base n w st → n + cs.length < 2 ^ 32 → GoodFiles M width R w cs →
    ∃ w' rs st', runFiles M w cs = some (w', rs) ∧ w'.arch = w.arch ∧ AllDo st cs rs st' ∧
      FInv width value R base (n + cs.length) w' st' := by
  induction cs with
  | nil => intro n w st h _ _; exact ⟨w, [], st, rfl, rfl, .nil, h⟩
  | cons c cs ih =>
    intro n w st h hn hg
    rw [List.length_cons] at hn
    have hstep : ∃ w' r st', runFile M w c = some (w', r) ∧ w'.arch = w.arch ∧ Does st c r st' ∧
        FInv width value R base (n + 1) w' st' := by
      cases c with
      | patch rd hdr find now f e =>
        obtain ⟨w', r, st', h1, h2, h3, -, h4⟩ := patch_file hM h (by omega) hg.1
        exact ⟨w', r, st', h1, h2, h3, h4⟩
      | unpatch rd d =>
        obtain ⟨w', r, st', h1, h2, h3, h4⟩ := unpatch_file h rd hg.1.1 d hg.1.2
        exact ⟨w', r, st', h1, h2, h3, h4.mono (by omega)⟩
      | trace rd hdr find now func f e d => exact trace_file hM h (by omega) hg.1
    obtain ⟨w1, r, st1, hrun, ha, hd, hinv⟩ := hstep
    obtain ⟨w2, rs, st2, hrun2, ha2, hd2, hinv2⟩ := ih hinv (by omega) (hg.2 w1 r hrun)
    refine ⟨w2, r :: rs, st2, ?_, ha2.trans ha, .cons hd hd2, ?_⟩
    · unfold runFiles
      rw [hrun]
      dsimp only
      rw [hrun2]
    · rw [show n + (c :: cs).length = n + 1 + cs.length by rw [List.length_cons]; omega]
      exact hinv2

theorem redirects_eq (arch : Arch) (st : List LiveFile) :
    ((st.map LiveFile.layer).reverse.filter (·.active)).map (Patch.Layer.overlay arch) =
      (st.reverse.filter LiveFile.active).map (LiveFile.redirect arch) := by
  rw [← List.map_reverse, List.filter_map, List.map_map]
  rfl

theorem layers_under {arch : Arch} {R : Addr → Prop} {base : Mem} : ∀ (newer older : List LiveFile) (v : LiveFile) (m : Mem),
    Patch.Layers arch R base ((newer ++ v :: older).map LiveFile.layer) m → WindowOff R v.target 16 →
    v.saved = (overlayAll base ((older.reverse.filter LiveFile.active).map (LiveFile.redirect arch))).read v.target 16 := by
  intro newer older v
  induction newer with
  | nil =>
    intro m h hw
    obtain ⟨m0, h1, h2, -⟩ := h
    have h3 := h1.overlay
    rw [redirects_eq] at h3
    change v.saved = m0.read v.target 16 at h2
    rw [h2]
    exact h3.read _ _ hw
  | cons u newer ih =>
    intro m h hw
    obtain ⟨m0, h1, -⟩ := h
    exact ih m0 h1 hw

theorem FInv.holds {R base n w st} (h : FInv width value R base n w st) : Holds width value R base w st where
  maps := by
    have := h.inv.perm
    rw [List.map_map] at this
    exact this
  numbers := by
    intro k v hk
    have := h.inv.nums k v.layer (by rw [List.getElem?_map, hk]; rfl)
    rw [List.length_map] at this
    exact this
  whole := h.whole
  apart := h.apart
  buildIds := by
    have hp := h.inv.perm
    rw [List.map_map] at hp
    have := (hp.map Patch.Mapping.bid).nodup_iff.2 h.inv.bids
    rw [List.map_map] at this
    exact this
  text := fun v hv => h.inv.win v.layer (List.mem_map_of_mem hv)
  area := h.area
  code := by
    have := h.inv.layers.overlay
    rw [redirects_eq] at this
    exact this
  under := by
    rintro newer older v rfl
    exact layers_under newer older v _ h.inv.layers (h.inv.win v.layer (List.mem_map_of_mem (by simp)))

end
end Ulp.LoadBytes
