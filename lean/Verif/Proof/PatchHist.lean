import Verif.Proof.Patch
namespace Ulp.Patch

/-- Newest layer first: each layer's saved bytes are those of the memory below
it, and the memory is that memory with the redirect (if in place). -/
def Layers (arch : Arch) (R : Addr → Prop) (base : Mem) : List Layer → Mem → Prop
  | [], m => EqOff R m base
  | l :: rest, m => ∃ m0, Layers arch R base rest m0 ∧
      l.map.info.orig = m0.read l.map.info.virt 16 ∧
      EqOff R m (if l.active then
        m0.write l.map.info.virt (jmpEntry arch l.map.info.patchFn) else m0)

theorem Layers.congr {arch R base st m m'} (h : Layers arch R base st m) (he : EqOff R m' m) :
    Layers arch R base st m' := by
  cases st with
  | nil => exact he.trans h
  | cons l rest =>
    obtain ⟨m0, h1, h2, h4⟩ := h
    exact ⟨m0, h1, h2, he.trans h4⟩

/-- The memory is the base overlaid with the active layers, oldest first. -/
theorem Layers.overlay {arch R base st m} (h : Layers arch R base st m) :
    EqOff R m (overlayAll base ((st.reverse.filter (·.active)).map (Layer.overlay arch))) := by
  induction st generalizing m with
  | nil => exact h
  | cons l rest ih =>
    obtain ⟨m0, h1, _, h4⟩ := h
    refine h4.trans ?_
    have := ih h1
    simp only [List.reverse_cons, List.filter_append, List.map_append, overlayAll, List.foldl_append] at *
    cases hact : l.active with
    | true =>
      simp only [List.filter_cons, hact, if_true, List.filter_nil, List.map_cons, List.map_nil,
        List.foldl_cons, List.foldl_nil]
      exact this.write _ _
    | false =>
      simp only [List.filter_cons, hact, Bool.false_eq_true, if_false, List.filter_nil, List.map_nil,
        List.foldl_nil]
      exact this

structure Inv (R : Addr → Prop) (base : Mem) (n : Nat) (w : World) (st : List Layer) : Prop where
  perm : (st.map (·.map)).Perm w.maps
  ids : (st.map (·.map.info.id.toNat)).Pairwise (· > ·)
  bound : ∀ l ∈ st, 1 ≤ l.map.info.id.toNat ∧ l.map.info.id.toNat ≤ n
  starts : (w.maps.map (·.start)).Nodup
  bids : (w.maps.map (·.bid)).Nodup
  ready : ∀ m ∈ w.maps, m.ready = true
  win : ∀ l ∈ st, WindowOff R l.map.info.virt 16
  layers : Layers w.arch R base st w.mem
  nums : ∀ (k : Nat) (l : Layer), st[k]? = some l → l.map.info.id.toNat + k = st.length

theorem Inv.init (R) (w : World) (h : w.maps = []) : Inv R w.mem 0 w [] where
  perm := by simp [h]
  ids := by simp
  bound := by simp
  starts := by simp [h]
  bids := by simp [h]
  ready := by simp [h]
  win := by simp
  layers := EqOff.refl _
  nums := by simp

theorem Inv.mono {R base n n' w st} (h : Inv R base n w st) (hn : n ≤ n') : Inv R base n' w st :=
  { h with bound := fun l hl => ⟨(h.bound l hl).1, Nat.le_trans (h.bound l hl).2 hn⟩ }

/-- Same mappings, same text. -/
theorem Inv.congr {R base n w w' st} (h : Inv R base n w st) (hm : w'.maps = w.maps)
    (harch : w'.arch = w.arch) (he : EqOff R w'.mem w.mem) : Inv R base n w' st where
  perm := by rw [hm]; exact h.perm
  ids := h.ids
  bound := h.bound
  starts := by rw [hm]; exact h.starts
  bids := by rw [hm]; exact h.bids
  ready := by rw [hm]; exact h.ready
  win := h.win
  layers := by rw [harch]; exact h.layers.congr he
  nums := h.nums

/-- The number the next session computes is that of the newest layer. -/
theorem Inv.maxId {R base n w st} (h : Inv R base n w st) :
    (maxOf w.maps 0).toNat = match st with | [] => 0 | l :: _ => l.map.info.id.toNat := by
  cases st with
  | nil =>
    have hp := h.perm
    rw [List.map_nil, List.nil_perm] at hp
    rw [hp]; rfl
  | cons l rest =>
    have hl : l.map ∈ w.maps := h.perm.mem_iff.1 (by simp)
    have h1 := maxOf_ge w.maps 0 l.map hl
    have hall : ∀ m ∈ w.maps, m.info.id.toNat ≤ l.map.info.id.toNat := by
      intro m hm
      have := h.perm.mem_iff.2 hm
      rw [List.mem_map] at this
      obtain ⟨x, hx, rfl⟩ := this
      rcases List.mem_cons.1 hx with rfl | hx
      · omega
      · have := h.ids
        rw [List.map_cons, List.pairwise_cons] at this
        exact Nat.le_of_lt (this.1 _ (List.mem_map_of_mem (f := fun l : Layer => l.map.info.id.toNat) hx))
    rcases maxOf_mem w.maps 0 with h0 | ⟨m, hm, he⟩
    · have := (h.bound l (by simp)).1
      rw [h0] at h1; simp at h1; omega
    · have := hall m hm
      rw [he] at this
      simp only; omega

/-- In a list with distinct keys equal keys mean equal elements. -/
theorem eq_of_id {R base n w st} (h : Inv R base n w st) {m : Mapping} {l : Layer} {rest : List Layer}
    (hst : st = l :: rest) (hm : m ∈ w.maps) (hid : m.info.id = l.map.info.id) : m = l.map := by
  subst hst
  have := h.perm.mem_iff.2 hm
  rw [List.mem_map] at this
  obtain ⟨x, hx, rfl⟩ := this
  rcases List.mem_cons.1 hx with rfl | hx
  · rfl
  · have hp := h.ids
    rw [List.map_cons, List.pairwise_cons] at hp
    have := hp.1 _ (List.mem_map_of_mem (f := fun l : Layer => l.map.info.id.toNat) hx)
    rw [hid] at this
    omega

theorem nil_of_perm {R base n w} (h : Inv R base n w []) : w.maps = [] := by
  have hp := h.perm
  rwa [List.map_nil, List.nil_perm] at hp

/-- The mappings after removing the newest. -/
theorem Inv.removed {R base n w l rest} (h : Inv R base n w (l :: rest)) :
    (rest.map (·.map)).Perm (w.maps.filter fun m => m.start ≠ l.map.start) := by
  have h1 := h.perm.filter (fun m => m.start ≠ l.map.start)
  have hnd : ((l :: rest).map (fun x => x.map.start)).Nodup := by
    have := (h.perm.map (·.start)).nodup_iff.2 h.starts
    rw [List.map_map] at this; exact this
  have h2 : ((l :: rest).map (·.map)).filter (fun m => m.start ≠ l.map.start) = rest.map (·.map) := by
    rw [List.map_cons, List.filter_cons]
    simp only [ne_eq, not_true_eq_false, decide_false, Bool.false_eq_true, if_false]
    rw [List.filter_eq_self]
    intro m hm
    rw [List.mem_map] at hm
    obtain ⟨x, hx, rfl⟩ := hm
    rw [List.map_cons, List.nodup_cons] at hnd
    simp only [decide_not, Bool.not_eq_eq_eq_not, Bool.not_true, decide_eq_false_iff_not]
    intro hc
    exact hnd.1 (List.mem_map.2 ⟨x, hx, hc⟩)
  rw [h2] at h1
  exact h1

theorem Inv.pop {R base n w l rest} (h : Inv R base n w (l :: rest)) (w' : World)
    (hm : w'.maps = w.maps.filter fun m => m.start ≠ l.map.start)
    (harch : w'.arch = w.arch) (hl : Layers w.arch R base rest w'.mem) : Inv R base n w' rest where
  perm := by rw [hm]; exact h.removed
  ids := (List.pairwise_cons.1 (by simpa using h.ids)).2
  bound := fun x hx => h.bound x (by simp [hx])
  starts := by
    rw [hm]; exact (h.starts).sublist ((List.filter_sublist).map _)
  bids := by
    rw [hm]; exact (h.bids).sublist ((List.filter_sublist).map _)
  ready := by
    intro m hm'; rw [hm] at hm'; exact h.ready m (List.mem_filter.1 hm' |>.1)
  win := fun x hx => h.win x (by simp [hx])
  layers := by rw [harch]; exact hl
  nums := by
    intro k x hx
    have := h.nums (k + 1) x hx
    rw [List.length_cons] at this
    omega

/-- Outcomes of one unpatch command in a state satisfying the invariant. -/
theorem unpatch_step {R base n w st} (h : Inv R base n w st) (rd : Mapping → ReadRes)
    (hr : ∀ m, rd m = .ok) (e : DeleteEnv) (g : e.Good) :
    ∃ w' r, runCmd w (.unpatch rd e) = some (w', r) ∧ w'.arch = w.arch ∧
      ((r ≠ 0 ∧ w'.maps = w.maps ∧ w'.mem = w.mem) ∨
       (∃ l rest, st = l :: rest ∧ Layers w.arch R base rest w'.mem ∧
         EqOff R w'.mem (w.mem.write l.map.info.virt l.map.info.orig) ∧
         ((r = 0 ∧ e.munmap = .done ∧ w'.maps = w.maps.filter fun m => m.start ≠ l.map.start) ∨
          (r ≠ 0 ∧ e.munmap = .failed true ∧ w'.maps = w.maps.filter fun m => m.start ≠ l.map.start) ∨
          (r ≠ 0 ∧ e.munmap = .failed false ∧ w'.maps = w.maps)))) := by
  have hopen := openTask_ok rd w true (fun m _ => hr m) h.ready
  refine ⟨(deletePatch w { ulps := w.maps, maxId := maxOf w.maps 0, ftoProc := true } e).1,
    (deletePatch w { ulps := w.maps, maxId := maxOf w.maps 0, ftoProc := true } e).2, ?_, deletePatch_arch _ _ _, ?_⟩
  · simp only [runCmd, hopen, Option.map_some]
  · unfold deletePatch
    dsimp only
    cases st with
    | nil =>
      have := nil_of_perm h
      simp only [this, List.find?_nil]
      left; exact ⟨by errne, trivial, trivial⟩
    | cons l rest =>
      have hl : l.map ∈ w.maps := h.perm.mem_iff.1 (by simp)
      have hmax := h.maxId
      simp only at hmax
      cases hfind : w.maps.find? (fun u => decide (maxOf w.maps 0 = u.info.id)) with
      | none =>
        rw [List.find?_eq_none] at hfind
        have := hfind l.map hl
        simp only [decide_eq_true_eq] at this
        exact absurd (BitVec.eq_of_toNat_eq hmax) this
      | some u =>
        have hu := List.mem_of_find?_eq_some hfind
        have hp := List.find?_some hfind
        simp only [decide_eq_true_eq] at hp
        have : u = l.map := eq_of_id h rfl hu (by
          rw [← hp]; exact BitVec.eq_of_toNat_eq hmax)
        subst this
        cases e.attach with
        | fail n left => left; exact ⟨neg_ne_zero n, rfl, rfl⟩
        | ok =>
          dsimp only
          obtain ⟨m0, hl0, horig, hmem⟩ := h.layers
          have holen : l.map.info.orig.length = 16 := by rw [horig]; simp
          rcases g with hn | hn | ⟨k, hk, hn⟩
          · rw [hn]; left
            refine ⟨?_, ?_, ?_⟩ <;> simp [writeTask, detach, attach, ENOEXEC]
          · rw [hn]; left
            have h16 : ¬ (decide (16 ≤ 0) = true) := by decide
            simp only [writeTask, holen, if_neg h16]
            refine ⟨by errne, rfl, ?_⟩
            show w.mem.write l.map.info.virt [] = w.mem
            funext x; apply Mem.write_out; simp
          · rw [hn]; right
            have htake : l.map.info.orig.take k = l.map.info.orig := List.take_of_length_le (by omega)
            simp only [writeTask, holen, decide_eq_true hk, if_true, htake]
            have hres : EqOff R (w.mem.write l.map.info.virt l.map.info.orig) m0 := by
              cases hact : l.active with
              | true =>
                rw [hact, if_pos rfl] at hmem
                refine (hmem.write _ _).trans ?_
                have := Mem.write_restore m0 l.map.info.virt (jmpEntry w.arch l.map.info.patchFn)
                rw [jmpEntry_length, ← horig] at this
                rw [this]; exact EqOff.refl _
              | false =>
                rw [hact, if_neg (by decide)] at hmem
                refine (hmem.write _ _).trans ?_
                rw [horig, Mem.write_read_self]; exact EqOff.refl _
            refine ⟨l, rest, rfl, ?_⟩
            have hL : Layers w.arch R base rest (w.mem.write l.map.info.virt l.map.info.orig) :=
              hl0.congr hres
            cases hmu : e.munmap with
            | done => exact ⟨hL, EqOff.refl _, .inl ⟨rfl, rfl, rfl⟩⟩
            | failed gone =>
              cases gone with
              | true => exact ⟨hL, EqOff.refl _, .inr (.inl ⟨by errne, rfl, rfl⟩)⟩
              | false => exact ⟨hL, EqOff.refl _, .inr (.inr ⟨by errne, rfl, rfl⟩)⟩

/-- Outcomes of one patch command. -/
theorem patch_step_full {R base n w st} (h : Inv R base n w st) (hn : n + 1 < 2^32)
    (rd : Mapping → ReadRes)
    (hr : ∀ m, rd m = .ok) (e : PatchEnv) (g : e.Good R w) :
    ∃ w' r, runCmd w (.patch rd e) = some (w', r) ∧ w'.arch = w.arch ∧
      ((r ≠ 0 ∧ w'.maps = w.maps ∧ EqOff R w'.mem w.mem) ∨
       (r = 0 ∧ ∃ l : Layer, (∃ a, e.mmap = .created a ∧ l.map = ⟨a, e.len, e.bid, true, ⟨maxOf w.maps 0 + 1,
            l.map.info.virt, l.map.info.patchFn, l.map.info.virt, l.map.info.orig⟩⟩) ∧
          l.active = true ∧
          l.map.bid = e.bid ∧ e.target = some l.map.info.virt ∧ e.source = some l.map.info.patchFn ∧
          l.map.info.orig = w.mem.read l.map.info.virt 16 ∧
          (∀ m ∈ w.maps, m.bid ≠ e.bid) ∧
          w'.maps = insertMap l.map w.maps ∧
          EqOff R w'.mem (w.mem.write l.map.info.virt (jmpEntry w.arch l.map.info.patchFn)) ∧
          Inv R base (n + 1) w' (l :: st))) := by
  have hopen := openTask_ok rd w true (fun m _ => hr m) h.ready
  refine ⟨(initPatch w { ulps := w.maps, maxId := maxOf w.maps 0, ftoProc := true } e).1,
    (initPatch w { ulps := w.maps, maxId := maxOf w.maps 0, ftoProc := true } e).2.2, ?_, initPatch_arch _ _ _, ?_⟩
  · simp only [runCmd, hopen, Option.map_some]
  · rcases initPatch_good (s := { ulps := w.maps, maxId := maxOf w.maps 0, ftoProc := true }) g.toPlaced with
      ⟨hf1, hf2, hf3⟩ | ⟨h0, hbid, hdr, t, p, hcr, ht, hp, _, hmaps, hmem⟩
    · left; exact ⟨hf1, hf2 g.cleanup, hf3 g.entry⟩
    · right
      refine ⟨h0, ⟨⟨hdr, e.len, e.bid, true, ⟨maxOf w.maps 0 + 1, t, p, t, w.mem.read t 16⟩⟩,
        true⟩, ⟨hdr, hcr, rfl⟩, rfl, rfl, ht, hp, rfl, hbid, hmaps, hmem, ?_⟩
      have ga := g.area
      rw [hcr] at ga
      have hmaxle : (maxOf w.maps 0).toNat ≤ n := by
        rw [h.maxId]
        cases st with
        | nil => simp
        | cons l rest => exact (h.bound l (by simp)).2
      have hid : (maxOf w.maps 0 + 1).toNat = (maxOf w.maps 0).toNat + 1 := by
        rw [BitVec.toNat_add, show (1 : BitVec 32).toNat = 1 from rfl,
          Nat.mod_eq_of_lt (by omega)]
      constructor
      · rw [hmaps]
        exact ((h.perm).cons _).trans (insertMap_perm _ _).symm
      · rw [List.map_cons, List.pairwise_cons]
        refine ⟨?_, h.ids⟩
        intro i hi
        rw [List.mem_map] at hi
        obtain ⟨x, hx, rfl⟩ := hi
        have : x.map ∈ w.maps := h.perm.mem_iff.1 (List.mem_map_of_mem (f := Layer.map) hx)
        have := maxOf_ge w.maps 0 x.map this
        simp only
        rw [hid]; omega
      · intro l hl
        rcases List.mem_cons.1 hl with rfl | hl
        · show 1 ≤ (maxOf w.maps 0 + 1).toNat ∧ (maxOf w.maps 0 + 1).toNat ≤ n + 1
          rw [hid]; omega
        · have := h.bound l hl; omega
      · rw [hmaps]
        refine ((insertMap_perm _ _).map (·.start)).nodup_iff.2 ?_
        rw [List.map_cons, List.nodup_cons]
        refine ⟨?_, h.starts⟩
        rw [List.mem_map]
        rintro ⟨x, hx, he⟩
        exact ga.2 x hx he
      · rw [hmaps]
        refine ((insertMap_perm _ _).map (·.bid)).nodup_iff.2 ?_
        rw [List.map_cons, List.nodup_cons]
        refine ⟨?_, h.bids⟩
        rw [List.mem_map]
        rintro ⟨x, hx, he⟩
        exact hbid x hx he
      · intro m hm
        rw [hmaps, mem_insertMap] at hm
        rcases hm with rfl | hm
        · rfl
        · exact h.ready m hm
      · intro l hl
        rcases List.mem_cons.1 hl with rfl | hl
        · exact g.text t ht
        · exact h.win l hl
      · rw [initPatch_arch]; exact ⟨w.mem, h.layers, rfl, hmem⟩
      · intro k x hx
        rw [List.length_cons]
        cases k with
        | zero =>
          rw [List.getElem?_cons_zero] at hx
          injection hx with hx
          subst hx
          show (maxOf w.maps 0 + 1).toNat + 0 = _
          rw [hid, h.maxId]
          cases st with
          | nil => rfl
          | cons l rest => have := h.nums 0 l rfl; dsimp only; omega
        | succ k =>
          rw [List.getElem?_cons_succ] at hx
          have := h.nums k x hx
          omega

/-- The same without the place of the mapping. -/
theorem patch_step {R base n w st} (h : Inv R base n w st) (hn : n + 1 < 2^32)
    (rd : Mapping → ReadRes)
    (hr : ∀ m, rd m = .ok) (e : PatchEnv) (g : e.Good R w) :
    ∃ w' r, runCmd w (.patch rd e) = some (w', r) ∧ w'.arch = w.arch ∧
      ((r ≠ 0 ∧ w'.maps = w.maps ∧ EqOff R w'.mem w.mem) ∨
       (r = 0 ∧ ∃ l : Layer, l.active = true ∧
          l.map.bid = e.bid ∧ e.target = some l.map.info.virt ∧ e.source = some l.map.info.patchFn ∧
          l.map.info.orig = w.mem.read l.map.info.virt 16 ∧
          (∀ m ∈ w.maps, m.bid ≠ e.bid) ∧
          w'.maps = insertMap l.map w.maps ∧
          EqOff R w'.mem (w.mem.write l.map.info.virt (jmpEntry w.arch l.map.info.patchFn)) ∧
          Inv R base (n + 1) w' (l :: st))) := by
  obtain ⟨w', r, h1, h2, h3⟩ := patch_step_full h hn rd hr e g
  refine ⟨w', r, h1, h2, ?_⟩
  rcases h3 with h3 | ⟨h4, l, _, h5⟩
  · exact .inl h3
  · exact .inr ⟨h4, l, h5⟩

theorem cmd_step {R base n w st} (h : Inv R base n w st) (hn : n + 1 < 2^32) (c : Cmd)
    (g : GoodCmd R w c) :
    ∃ w' r st', runCmd w c = some (w', r) ∧ Inv R base (n + 1) w' st' ∧
      ((∀ l ∈ st, l.active = true) → c.unmaps → ∀ l ∈ st', l.active = true) := by
  cases c with
  | patch rd e =>
    obtain ⟨w', r, hrun, harch, hcase⟩ := patch_step h hn rd g.1 e g.2
    rcases hcase with ⟨_, hm, he⟩ | ⟨_, l, hact, _, _, _, _, _, _, _, hinv⟩
    · exact ⟨w', r, st, hrun, (h.congr hm harch he).mono (by omega), fun h _ => h⟩
    · refine ⟨w', r, l :: st, hrun, hinv, ?_⟩
      intro hst _ x hx
      rcases List.mem_cons.1 hx with rfl | hx
      · exact hact
      · exact hst x hx
  | unpatch rd e =>
    obtain ⟨w', r, hrun, harch, hcase⟩ := unpatch_step h rd g.1 e g.2
    rcases hcase with ⟨_, hm, he⟩ | ⟨l, rest, hst, hL, _, hc⟩
    · refine ⟨w', r, st, hrun, (h.congr hm harch (by rw [he]; exact EqOff.refl _)).mono (by omega), fun h _ => h⟩
    · subst hst
      have hpop : ∀ (hm : w'.maps = w.maps.filter fun m => m.start ≠ l.map.start),
          Inv R base (n+1) w' rest := fun hm => (h.pop w' hm harch hL).mono (by omega)
      rcases hc with ⟨_, _, hm⟩ | ⟨_, _, hm⟩ | ⟨_, hmu, hm⟩
      · exact ⟨w', r, rest, hrun, hpop hm, fun h _ x hx => h x (by simp [hx])⟩
      · exact ⟨w', r, rest, hrun, hpop hm, fun h _ x hx => h x (by simp [hx])⟩
      · refine ⟨w', r, { l with active := false } :: rest, hrun, ?_, ?_⟩
        · refine Inv.mono (n := n) ?_ (by omega)
          exact {
            perm := by rw [hm]; exact h.perm
            ids := h.ids
            bound := by
              intro x hx
              rcases List.mem_cons.1 hx with rfl | hx
              · exact h.bound l (by simp)
              · exact h.bound x (by simp [hx])
            starts := by rw [hm]; exact h.starts
            bids := by rw [hm]; exact h.bids
            ready := by rw [hm]; exact h.ready
            nums := by
              intro k x hx
              cases k with
              | zero =>
                rw [List.getElem?_cons_zero] at hx
                injection hx with hx
                subst hx
                exact h.nums 0 l rfl
              | succ k => exact h.nums (k + 1) x hx
            win := by
              intro x hx
              rcases List.mem_cons.1 hx with rfl | hx
              · exact h.win l (by simp)
              · exact h.win x (by simp [hx])
            layers := by
              obtain ⟨m0, hl0, horig, hmem⟩ := h.layers
              rw [harch]
              refine ⟨w'.mem, hL, ?_, EqOff.refl _⟩
              show l.map.info.orig = _
              have hw := ‹EqOff R w'.mem (w.mem.write l.map.info.virt l.map.info.orig)›
              rw [hw.read _ _ (h.win l (by simp))]
              have : l.map.info.orig.length = 16 := by rw [horig]; simp
              have := Mem.read_write_self w.mem l.map.info.virt l.map.info.orig (by omega)
              rw [‹l.map.info.orig.length = 16›] at this
              exact this.symm }
        · intro _ hu; exact absurd hmu hu

theorem hist_inv {R base} (cs : List Cmd) : ∀ {n w st}, Inv R base n w st →
    n + cs.length < 2^32 → GoodHist R w cs →
    ∃ w' st', runHist w cs = some w' ∧ Inv R base (n + cs.length) w' st' ∧
      ((∀ l ∈ st, l.active = true) → (∀ c ∈ cs, c.unmaps) → ∀ l ∈ st', l.active = true) := by
  induction cs with
  | nil => intro n w st h _ _; exact ⟨w, st, rfl, h, fun h _ => h⟩
  | cons c cs ih =>
    intro n w st h hn hg
    simp only [List.length_cons] at hn
    obtain ⟨w1, r, st1, hrun, hinv, hact⟩ := cmd_step h (by omega) c hg.1
    obtain ⟨w2, st2, hrun2, hinv2, hact2⟩ := ih hinv (by omega) (hg.2 w1 r hrun)
    refine ⟨w2, st2, ?_, ?_, ?_⟩
    · simp only [runHist, hrun, Option.bind_some]; exact hrun2
    · have : n + (c :: cs).length = n + 1 + cs.length := by simp only [List.length_cons]; omega
      rw [this]; exact hinv2
    · intro hs hc
      exact hact2 (hact hs (hc c (by simp))) (fun c' hc' => hc c' (by simp [hc']))

/-! ### Tracing state -/

theorem attach_fail_clean {w : World} {n left} (hw : w.attached = false)
    (hc : (AttachRes.fail n left).clean) : (attach (.fail n left) w).1.attached = false := by
  have : left = false := hc
  simp [attach, hw, this]

theorem writeTask_attached (w : World) (a bs n) : (writeTask w a bs n).1.attached = w.attached := by
  cases n <;> rfl

theorem kickEntry_attached {w : World} {e : PatchEnv} (info : Info) (h : w.attached = false)
    (hc : e.attach2.clean) : (kickEntry w e info).1.attached = false := by
  unfold kickEntry
  cases ha : e.attach2 with
  | fail n left => rw [ha] at hc; exact attach_fail_clean h hc
  | ok => rfl

theorem kickImage_attached {w : World} {e : PatchEnv} (hdr : Addr) (info : Info)
    (h : w.attached = false) (hc : e.attach2.clean) :
    (kickImage w e hdr info).1.attached = false := by
  unfold kickImage
  have := writeTask_attached w hdr (e.image info) (if w.mapped hdr then e.imageN else none)
  generalize writeTask w hdr (e.image info) (if w.mapped hdr then e.imageN else none) = wt at *
  cases hb : wt.2 with
  | true => simp only [hb, if_true]; exact kickEntry_attached info (this.trans h) hc
  | false => simp only [hb, Bool.false_eq_true, if_false]; exact this.trans h

theorem kick_attached {w : World} {e : PatchEnv} (hdr : Addr) (info : Info)
    (h : w.attached = false) (hc : e.attach2.clean) : (kick w e hdr info).1.attached = false := by
  unfold kick
  cases e.preadN with
  | none => exact h
  | some k =>
    dsimp only
    split
    · exact h
    · exact kickImage_attached _ _ h hc

theorem loadPatch_attached {w : World} {s : Session} {e : PatchEnv} (hdr : Addr)
    (h : w.attached = false) (hc : e.attach2.clean) : (loadPatch w s e hdr).1.attached = false := by
  unfold loadPatch
  cases e.setup with
  | some n => exact h
  | none =>
    dsimp only
    split
    · exact h
    · cases e.rewrite with
      | some n => exact h
      | none =>
        dsimp only
        cases e.simplify with
        | some n => exact h
        | none =>
          cases e.apply with
          | some n => exact h
          | none =>
            dsimp only
            unfold solveAndKick
            cases e.target with
            | none => exact h
            | some t =>
              cases e.source with
              | none => exact h
              | some p => exact kick_attached _ _ h hc

theorem deleteMmap_attached {w : World} {e : PatchEnv} (hdr : Addr)
    (h : w.attached = false) (hc : e.attach3.clean) : (deleteMmap w e hdr).attached = false := by
  unfold deleteMmap
  cases ha : e.attach3 with
  | fail n left => rw [ha] at hc; exact attach_fail_clean h hc
  | ok =>
    cases e.munmap3 with
    | done => rfl
    | failed g => cases g <;> rfl

theorem createMmap_attached {w : World} {e : PatchEnv}
    (h : w.attached = false) (hc : e.attach1.clean) (hfd : 0 < e.fd) :
    (createMmap w e).1.attached = false := by
  unfold createMmap
  cases ha : e.attach1 with
  | fail n left => rw [ha] at hc; exact attach_fail_clean h hc
  | ok =>
    dsimp only
    rw [if_neg (by omega)]
    split
    · rfl
    · cases e.mmap with
      | created a => rfl
      | errno v => rfl
      | inject l => cases l <;> rfl

theorem initPatch_attached {w : World} {s : Session} {e : PatchEnv}
    (h : w.attached = false) (h1 : e.attach1.clean) (h2 : e.attach2.clean) (h3 : e.attach3.clean)
    (hfd : 0 < e.fd) : (initPatch w s e).1.attached = false := by
  unfold initPatch
  split
  · exact h
  · cases e.alloc with
    | some n => exact h
    | none =>
      cases e.chown with
      | some n => exact h
      | none =>
        dsimp only
        have hc := createMmap_attached h h1 hfd
        generalize createMmap w e = c at hc
        obtain ⟨w', r⟩ := c
        cases r with
        | error r => exact hc
        | ok hdr =>
          dsimp only
          split
          · exact deleteMmap_attached _ (loadPatch_attached _ hc h2) h3
          · exact loadPatch_attached _ hc h2

theorem deletePatch_attached {w : World} {s : Session} {e : DeleteEnv}
    (h : w.attached = false) (hc : e.attach.clean) : (deletePatch w s e).1.attached = false := by
  unfold deletePatch
  split
  · exact h
  · cases ha : e.attach with
    | fail n left => rw [ha] at hc; exact attach_fail_clean h hc
    | ok =>
      dsimp only
      split
      · cases e.munmap with
        | done => rfl
        | failed g => cases g <;> rfl
      · rfl

end Ulp.Patch
