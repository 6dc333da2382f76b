/-
Lemmas about whole runs of `ultask`.
-/
import Verif.Spec.TaskRun
import Verif.Props.Ultask
import Verif.Props.UltaskMem
namespace Ulp.TaskRun
open Ulp.Linux
open Ulp.Ultask
open Ulp.Vma
open Ulp.Cli (Act)
open Rb (Tree)
open Rb.Tree (ids)
open Range

/-! ## The known mappings are among those that were read -/

def areaOf (v : Vma.Vma) : Area := ⟨v.start, v.stop, v.name⟩

/-- Every mapping that an address can be found in is one of `maps`; the structures are among
`used`. -/
def From (vs : Vmas) (used : List Nat) (maps : List Area) : Prop :=
  ∃ known t, Inv vs known t ∧ (∀ n ∈ ids t, n ∈ used) ∧ ∀ n ∈ ids t, areaOf (vs.info n) ∈ maps

theorem From.mono {vs : Vmas} {u u' : List Nat} {m m' : List Area} (h : From vs u m) (hu : ∀ n ∈ u, n ∈ u') (hm : ∀ n ∈ m, n ∈ m') :
    From vs u' m' := by
  obtain ⟨k, t, h1, h2, h3⟩ := h
  exact ⟨k, t, h1, fun n hn => hu n (h2 n hn), fun n hn => hm _ (h3 n hn)⟩

theorem From.init (info : Nat → Vma.Vma) : From (initVmas info) [] [] :=
  ⟨[], .leaf, Inv.init info, by simp [ids], by simp [ids]⟩

theorem From.find {vs : Vmas} {u : List Nat} {maps : List Area} (h : From vs u maps) (a : BitVec 64) :
    ∃ v, findVma vs a = some v ∧ (v ≠ 0 → areaOf (vs.info v) ∈ maps ∧ (vs.info v).start ≤ a ∧ a < (vs.info v).stop) := by
  obtain ⟨k, t, h1, h2, h3⟩ := h
  obtain ⟨r, er, hr⟩ := h1.find a
  refine ⟨r, er, fun h0 => ?_⟩
  rcases hr with ⟨e, _⟩ | ⟨_, hm, hh⟩
  · exact absurd e h0
  · refine ⟨h3 r hm, ?_⟩
    simp only [Range.Has, rangeOf] at hh
    rw [BitVec.le_def, BitVec.lt_def]
    exact hh

theorem From.insert {vs : Vmas} {u : List Nat} {maps : List Area} (h : From vs u maps) {p prev : Nat} {l : Line}
    (hp0 : p ≠ 0) (hpu : p ∉ u) (hpp : prev ≠ p) (hlt : l.start < l.stop) :
    ∃ vs', insertVma (allocVma vs p l.start l.stop l.name) p prev = some vs' ∧
      From vs' (p :: u) (areaOfLine l :: maps) := by
  obtain ⟨k, t, h1, h2, h3⟩ := h
  obtain ⟨s', t', e, _, _, hi, _, hc⟩ := h1.insert (nm := l.name) hp0 (fun hm => hpu (h2 p hm)) hpp hlt
  have hold : ∀ n ∈ ids t, areaOf (s'.info n) ∈ areaOfLine l :: maps := by
    intro n hn
    rw [hi, if_neg (fun (hq : n = p) => hpu (by rw [← hq]; exact h2 n hn))]
    exact List.mem_cons_of_mem _ (h3 n hn)
  have hnew : areaOf (s'.info p) ∈ areaOfLine l :: maps := by
    rw [hi, if_pos rfl]
    exact List.mem_cons_self ..
  refine ⟨s', e, ?_⟩
  rcases hc with ⟨_, ⟨a, b, e1, e2⟩, hv⟩ | ⟨_, rfl, hv, _⟩
  · refine ⟨_, t', hv, ?_, ?_⟩
    · intro n hn
      rw [e2, List.mem_append, List.mem_cons] at hn
      rcases hn with hn | rfl | hn
      · exact List.mem_cons_of_mem _ (h2 n (by rw [e1]; simp [hn]))
      · exact List.mem_cons_self ..
      · exact List.mem_cons_of_mem _ (h2 n (by rw [e1]; simp [hn]))
    · intro n hn
      rw [e2, List.mem_append, List.mem_cons] at hn
      rcases hn with hn | rfl | hn
      · exact hold n (by rw [e1]; simp [hn])
      · exact hnew
      · exact hold n (by rw [e1]; simp [hn])
  · exact ⟨_, t', hv, fun n hn => List.mem_cons_of_mem _ (h2 n hn), hold⟩

theorem From.read (upd : Bool) : ∀ (ls : List (Nat × Line)) {vs : Vmas} {u : List Nat} {maps : List Area} {prev : Nat},
    From vs u maps → (prev :: ls.map (·.1)).Nodup → (∀ x ∈ ls, x.1 ≠ 0 ∧ x.1 ∉ u ∧ x.2.start < x.2.stop) →
    ∃ vs', readLines upd vs ls prev = some vs' ∧
      From vs' (ls.map (·.1) ++ u) (ls.map (fun x => areaOfLine x.2) ++ maps)
  | [], vs, u, maps, prev, h, _, _ => ⟨vs, rfl, h.mono (by simp) (by simp)⟩
  | (p, l) :: ls, vs, u, maps, prev, h, hn, hx => by
    obtain ⟨h0, hu, hlt⟩ := hx (p, l) (by simp)
    dsimp only at h0 hu hlt
    have hn' := List.nodup_cons.1 hn
    have hpp : prev ≠ p := fun e => hn'.1 (by simp [e])
    obtain ⟨s', e, hs⟩ := h.insert (prev := prev) h0 hu hpp hlt
    have hn2 : ((p :: ls.map (·.1)) : List Nat).Nodup := hn'.2
    have hins : ∃ vs', (insertVma (allocVma vs p l.start l.stop l.name) p prev).bind
        (fun s => readLines upd s ls p) = some vs' ∧
        From vs' (((p, l) :: ls).map (·.1) ++ u) (((p, l) :: ls).map (fun x => areaOfLine x.2) ++ maps) := by
      obtain ⟨s2, e2, h2⟩ := From.read upd ls hs hn2 (by
        intro x hxl
        obtain ⟨a1, a2, a3⟩ := hx x (by simp [hxl])
        refine ⟨a1, ?_, a3⟩
        rw [List.mem_cons, not_or]
        exact ⟨fun ex => (List.nodup_cons.1 hn2).1 (by rw [← ex]; exact List.mem_map_of_mem hxl), a2⟩)
      refine ⟨s2, by rw [e, Option.bind_some, e2], h2.mono ?_ ?_⟩
      · intro n hn
        simp only [List.mem_append, List.mem_cons, List.map_cons] at hn ⊢
        grind
      · intro n hn
        simp only [List.mem_append, List.mem_cons, List.map_cons] at hn ⊢
        grind
    rw [readLines]
    by_cases hupd : upd = true
    · rw [if_pos hupd]
      obtain ⟨v, ev, _⟩ := h.find (l.start + 1)
      rw [ev, Option.bind_some]
      by_cases hold : v ≠ 0 ∧ (vs.info v).start = l.start ∧ (vs.info v).stop = l.stop
      · rw [if_pos hold]
        have hn3 : (prev :: ls.map (·.1)).Nodup := by
          rw [List.nodup_cons]
          exact ⟨fun hm => hn'.1 (by simp only [List.map_cons, List.mem_cons]; exact Or.inr hm),
            (List.nodup_cons.1 hn2).2⟩
        obtain ⟨s2, e2, h2⟩ := From.read upd ls h hn3 (fun x hxl => hx x (by simp [hxl]))
        refine ⟨s2, e2, h2.mono ?_ ?_⟩
        · intro n hn
          simp only [List.mem_append, List.mem_cons, List.map_cons] at hn ⊢
          grind
        · intro n hn
          simp only [List.mem_append, List.mem_cons, List.map_cons] at hn ⊢
          grind
      · rw [if_neg hold]
        exact hins
    · rw [if_neg hupd]
      exact hins

/-! ## Requests -/

/-- The process after these requests. -/
def via (k : Kern (Proc State)) (p : Proc State) (qs : List Req) : Proc State :=
  qs.foldl (fun p q => (k.ask p q).1) p

/-- The run has gone on with requests that are asked for. -/
structure Goes (k : Kern (Proc State)) (ok : Req → Prop) (r r' : Run (Proc State)) : Prop where
  ex : ∃ qs, r'.log = r.log ++ qs ∧ r'.w = via k r.w qs ∧ ∀ q ∈ qs, ok q

variable {k : Kern (Proc State)} {ok : Req → Prop}

theorem Goes.refl (r : Run (Proc State)) : Goes k ok r r := ⟨[], by simp, rfl, by simp⟩

theorem Goes.ask {r r' : Run (Proc State)} (h : Goes k ok r r') {q : Req} (hq : ok q) : Goes k ok r (r'.ask k q).1 := by
  obtain ⟨qs, h1, h2, h3⟩ := h.ex
  refine ⟨qs ++ [q], by simp [Run.ask, h1], ?_, ?_⟩
  · simp only [Run.ask, via, List.foldl_append, List.foldl_cons, List.foldl_nil]
    rw [h2]
    rfl
  · intro x hx
    rw [List.mem_append, List.mem_singleton] at hx
    rcases hx with hx | rfl
    · exact h3 x hx
    · exact hq

theorem goes_mprotect {vs : Vmas} {addr len prot : BitVec 64} {r r' : Run (Proc State)} {ret : Int}
    (h : mprotectRegion k vs addr len prot r = some (r', ret)) (ha : ok .attach) (hd : ok .detach)
    (hm : ok (.mprotect addr len (prot.setWidth 32))) : Goes k ok r r' := by
  unfold mprotectRegion at h
  by_cases h0 : addr = 0 ∨ len = 0
  · rw [if_pos h0] at h; cases h; exact .refl _
  · rw [if_neg h0] at h
    cases h1 : findVma vs addr with
    | none => rw [h1] at h; cases h
    | some v =>
      rw [h1, Option.bind_some] at h
      by_cases h2 : v = 0
      · rw [if_pos h2] at h; cases h; exact .refl _
      · rw [if_neg h2] at h
        cases h3 : findVma vs (addr + len) with
        | none => rw [h3] at h; cases h
        | some u =>
          rw [h3, Option.bind_some] at h
          by_cases h4 : u = 0
          · rw [if_pos h4] at h; cases h; exact .refl _
          · rw [if_neg h4] at h
            dsimp only at h
            by_cases h5 : int (Run.ask k r .attach).2 ≠ 0
            · rw [if_pos h5] at h; cases h; exact (Goes.refl _).ask ha
            · rw [if_neg h5] at h; cases h; exact (((Goes.refl _).ask ha).ask hm).ask hd

theorem goes_munmap {fs : Fs} {vs : Vmas} {u : List Nat} {maps : List Area} (hv : From vs u maps) {addr : BitVec 64}
    {r r' : Run (Proc State)} {ret : Int}
    (h : munmapVma k fs vs addr r = some (r', ret)) (ha : ok .attach) (hd : ok .detach)
    (hm : ∀ m ∈ maps, m.lo ≤ addr → addr < m.hi → ∀ len : BitVec 64, len.toNat = taken fs m → ok (.munmap m.lo len)) :
    Goes k ok r r' := by
  unfold munmapVma at h
  obtain ⟨v, ev, hf⟩ := hv.find addr
  rw [ev, Option.bind_some] at h
  by_cases h2 : v = 0
  · rw [if_pos h2] at h; cases h; exact .refl _
  · rw [if_neg h2] at h
    obtain ⟨f1, f2, f3⟩ := hf h2
    dsimp only at h
    by_cases h5 : int (Run.ask k r .attach).2 ≠ 0
    · rw [if_pos h5] at h; cases h; exact (Goes.refl _).ask ha
    · rw [if_neg h5] at h
      cases h
      refine (((Goes.refl _).ask ha).ask (hm _ f1 f2 f3 _ ?_)).ask hd
      unfold taken
      by_cases hx : fs.exist (vs.info v).name = true
      · rw [if_pos hx, if_pos (show fs.exist (areaOf (vs.info v)).name = true from hx)]
        rfl
      · rw [if_neg hx, if_neg (show ¬ fs.exist (areaOf (vs.info v)).name = true from hx)]
        rfl

theorem goes_close {fd : BitVec 32} {ret : Int} {r r' : Run (Proc State)} (h : Goes k ok r r') (hc : ok (.close fd))
    (hd : ok .detach) : Goes k ok r (closeRet k fd ret r').1 := by
  unfold closeRet
  dsimp only
  split
  · exact h.ask hd
  · exact (h.ask hc).ask hd

theorem goes_ftruncate {fd : BitVec 32} {len : BitVec 64} {r r' : Run (Proc State)} (h : Goes k ok r r')
    (ht : ok (.ftruncate fd len)) : Goes k ok r (ftruncateReq k fd len r').1 := by
  unfold ftruncateReq
  split
  · exact h
  · exact h.ask ht

theorem goes_map {fs : Fs} {vs : Vmas} {path : List Byte} {addr : BitVec 64} {ro noexec : Bool}
    {r r' : Run (Proc State)} {ret : Int}
    (h : mmapFile k fs vs path addr ro noexec r = some (r', ret)) (ha : ok .attach) (hd : ok .detach)
    (ho : ok (.open path 2)) (hc : ∀ fd, ok (.close fd)) (ht : ∀ fd, ok (.ftruncate fd ((fsize fs path).signExtend 64)))
    (hm : ∀ fd, ok (.mmap addr ((fsize fs path).signExtend 64) (mapProt ro noexec) 2 fd 0)) : Goes k ok r r' := by
  unfold mmapFile at h
  dsimp only at h
  cases h1 : mapInUse vs addr ((fsize fs path).signExtend 64) with
  | none => rw [h1] at h; cases h
  | some used =>
    rw [h1, Option.map_some] at h
    by_cases h2 : used = true
    · rw [if_pos h2] at h; cases h; exact .refl _
    · rw [if_neg h2] at h
      by_cases h3 : int (Run.ask k r .attach).2 ≠ 0
      · rw [if_pos h3] at h; cases h; exact (Goes.refl _).ask ha
      · rw [if_neg h3] at h
        have g1 := ((Goes.refl (k := k) (ok := ok) r).ask ha).ask ho
        by_cases h4 : ((Run.ask k (Run.ask k r .attach).1 (.open path 2)).2.setWidth 32).toInt ≤ 0
        · rw [if_pos h4] at h; cases h; exact g1
        · rw [if_neg h4] at h
          have g2 := goes_ftruncate g1 (ht ((Run.ask k (Run.ask k r .attach).1 (.open path 2)).2.setWidth 32))
          by_cases h5 : (ftruncateReq k ((Run.ask k (Run.ask k r .attach).1 (.open path 2)).2.setWidth 32)
              ((fsize fs path).signExtend 64) (Run.ask k (Run.ask k r .attach).1 (.open path 2)).1).2 ≠ 0
          · rw [if_pos h5] at h
            have := congrArg Prod.fst (Option.some.inj h)
            dsimp only at this
            rw [← this]
            exact goes_close g2 (hc _) hd
          · rw [if_neg h5] at h
            have := congrArg Prod.fst (Option.some.inj h)
            dsimp only at this
            rw [← this]
            exact goes_close (g2.ask (hm _)) (hc _) hd

/-! ## What the requests do to the process -/

/-- The process afterwards, seen from the process before. -/
structure Frame (pg : Nat) (fs : Fs) (maps : List Area) (as : List Act) (p p' : Proc State) : Prop where
  same : ∀ n q, ¬ Unmaps pg fs maps as n → p.w.space n = some q → Same pg as n q (p'.w.space n)
  new : ∀ n, ¬ Unmaps pg fs maps as n → p.w.space n = none → New pg as n (p'.w.space n)
  mem : ∀ a : Addr, ¬ Unmaps pg fs maps as (a.toNat / pg) → p.w.space (a.toNat / pg) ≠ none → ¬ Jumps as a →
    p'.mem a = p.mem a

variable {pg : Nat} {fs : Fs} {maps : List Area} {as : List Act}

theorem Frame.refl (p : Proc State) : Frame pg fs maps as p p :=
  ⟨fun _ _ _ h => Or.inl h, fun _ _ h => Or.inl h, fun _ _ _ _ => rfl⟩

theorem Same.trans {n : Nat} {q q' : Page} {x y : Option Page} (h : Same pg as n q x) (hx : x = some q')
    (h' : Same pg as n q' y) : Same pg as n q y := by
  rcases h with h | ⟨r, hr, h⟩
  · rw [hx] at h; cases h; exact h'
  · rw [hx] at h; cases h
    rcases h' with h' | ⟨r', hr', h'⟩
    · exact Or.inr ⟨r, hr, h'⟩
    · exact Or.inr ⟨r', hr', h'⟩

theorem Same.some {n : Nat} {q : Page} {x : Option Page} (h : Same pg as n q x) : ∃ q', x = some q' := by
  rcases h with h | ⟨r, hr, h⟩ <;> exact ⟨_, h⟩

theorem Frame.trans {p p' p'' : Proc State} (h : Frame pg fs maps as p p') (h' : Frame pg fs maps as p' p'') :
    Frame pg fs maps as p p'' := by
  refine ⟨?_, ?_, ?_⟩
  · intro n q hu hq
    have h1 := h.same n q hu hq
    obtain ⟨q', e⟩ := h1.some
    exact h1.trans e (h'.same n q' hu e)
  · intro n hu hq
    rcases h.new n hu hq with h1 | ⟨q, path, addr, ro, nx, h1, h2, h3⟩
    · exact h'.new n hu h1
    · rcases h'.same n q hu h1 with h4 | ⟨r, hr, h4⟩
      · exact Or.inr ⟨q, path, addr, ro, nx, h4, h2, h3⟩
      · exact Or.inr ⟨_, path, addr, ro, nx, h4, h2, Or.inr hr⟩
  · intro a hu hq hj
    have : p'.w.space (a.toNat / pg) ≠ none := by
      cases e : p.w.space (a.toNat / pg) with
      | none => exact absurd e hq
      | some q =>
        obtain ⟨q', e'⟩ := (h.same _ q hu e).some
        rw [e']; exact nofun
    rw [h'.mem a hu this hj, h.mem a hu hq hj]

theorem frame_ask (hk : LawfulP pg k) (p : Proc State) {q : Req} (hq : Asked fs maps as q) :
    Frame pg fs maps as p (k.ask p q).1 := by
  obtain ⟨ha, hm⟩ := hk p q
  have key : (∀ n, ¬ Unmaps pg fs maps as n → ∀ x, p.w.space n = some x → Same pg as n x ((k.ask p q).1.w.space n)) →
      (∀ n, ¬ Unmaps pg fs maps as n → p.w.space n = none → New pg as n ((k.ask p q).1.w.space n)) →
      Frame pg fs maps as p (k.ask p q).1 := by
    intro h1 h2
    refine ⟨fun n x hu hx => h1 n hu x hx, h2, fun a hu hx _ => hm a hx ?_⟩
    cases e : p.w.space (a.toNat / pg) with
    | none => exact absurd e hx
    | some x =>
      obtain ⟨x', e'⟩ := (h1 _ hu x e).some
      rw [e']; exact nofun
  have still : (k.ask p q).1.w.space = p.w.space → Frame pg fs maps as p (k.ask p q).1 := by
    intro e
    refine key ?_ ?_
    · intro n _ x hx
      rw [e]; exact Or.inl hx
    · intro n _ hx
      rw [e]; exact Or.inl hx
  cases q with
  | attach =>
    rcases ha with ⟨_, _, e⟩ | ⟨_, e⟩ <;> exact still (by rw [e])
  | detach =>
    simp only [Answers] at ha
    exact still (by rw [ha])
  | «open» path flags =>
    rcases ha with ⟨_, _, e⟩ | ⟨_, e⟩ <;> exact still (by rw [e])
  | ftruncate fd len =>
    rcases ha with ⟨_, _, e⟩ | e <;> exact still (by rw [e])
  | close fd =>
    simp only [Answers] at ha
    exact still (by rw [ha])
  | mmap hint len prot flags fd off =>
    rcases ha with ⟨_, m1, m2, m3, m4, m5, obj, e⟩ | ⟨_, e⟩
    · obtain ⟨_, _, path, ro, nx, hin, _, hprot⟩ := hq
      refine key ?_ ?_
      · intro n _ x hx
        rw [e]
        simp only [State.change]
        by_cases ht : Touches pg (k.ask p (.mmap hint len prot flags fd off)).2.toNat len.toNat n
        · rw [m4 n ht] at hx; cases hx
        · rw [if_neg ht]; exact Or.inl hx
      · intro n _ hx
        rw [e]
        simp only [State.change]
        by_cases ht : Touches pg (k.ask p (.mmap hint len prot flags fd off)).2.toNat len.toNat n
        · rw [if_pos ht]
          exact Or.inr ⟨_, path, hint, ro, nx, rfl, hin, Or.inl hprot⟩
        · rw [if_neg ht]; exact Or.inl hx
    · exact still (by rw [e])
  | mprotect addr len prot =>
    obtain ⟨v, hin, hprot⟩ := hq
    have part : ∀ done : Nat → Bool, (k.ask p (.mprotect addr len prot)).1.w =
        p.w.change pg addr.toNat len.toNat (fun n q => if done n then q.map fun q => { q with prot := prot } else q) →
        Frame pg fs maps as p (k.ask p (.mprotect addr len prot)).1 := by
      intro done e
      refine key ?_ ?_
      · intro n _ x hx
        rw [e]
        simp only [State.change]
        by_cases ht : Touches pg addr.toNat len.toNat n
        · rw [if_pos ht]
          by_cases hd : done n = true
          · rw [if_pos hd, hx]
            exact Or.inr ⟨prot, ⟨addr, len, v, hin, ht, hprot⟩, rfl⟩
          · rw [if_neg hd]; exact Or.inl hx
        · rw [if_neg ht]; exact Or.inl hx
      · intro n _ hx
        rw [e]
        simp only [State.change]
        by_cases ht : Touches pg addr.toNat len.toNat n
        · rw [if_pos ht]
          by_cases hd : done n = true
          · rw [if_pos hd, hx]; exact Or.inl rfl
          · rw [if_neg hd]; exact Or.inl hx
        · rw [if_neg ht]; exact Or.inl hx
    rcases ha with ⟨_, _, _, e⟩ | ⟨_, done, e⟩
    · exact part (fun _ => true) e
    · exact part done e
  | munmap lo len =>
    rcases ha with ⟨_, _, _, e⟩ | ⟨_, e⟩
    · obtain ⟨addr, m, hin, hmem, hlo, hhi, rfl, hlen⟩ := hq
      refine key ?_ ?_
      · intro n hu x hx
        rw [e]
        simp only [State.change]
        by_cases ht : Touches pg m.lo.toNat len.toNat n
        · exact absurd ⟨addr, m, hin, hmem, hlo, hhi, by rw [← hlen]; exact ht⟩ hu
        · rw [if_neg ht]; exact Or.inl hx
      · intro n hu hx
        rw [e]
        simp only [State.change]
        by_cases ht : Touches pg m.lo.toNat len.toNat n
        · exact absurd ⟨addr, m, hin, hmem, hlo, hhi, by rw [← hlen]; exact ht⟩ hu
        · rw [if_neg ht]; exact Or.inl hx
    · exact still (by rw [e])

theorem frame_via (hk : LawfulP pg k) : ∀ (qs : List Req) (p : Proc State), (∀ q ∈ qs, Asked fs maps as q) →
    Frame pg fs maps as p (via k p qs)
  | [], p, _ => .refl p
  | q :: qs, p, h => (frame_ask hk p (h q (by simp))).trans (frame_via hk qs _ fun x hx => h x (by simp [hx]))

/-! ## A run -/

theorem jump_frame {arch : Arch} {vs : Vmas} {m m' : Mem} {src dst : Addr} {rd wr : Option Nat} {ret : Int}
    (h : runJmp arch vs m src dst rd wr = some (m', ret)) {a : Addr}
    (ha : ¬ (a - src).toNat < 16) : m' a = m a := by
  have hput : ∀ bs : List Byte, bs.length ≤ 16 → (m.write src bs) a = m a := by
    intro bs hb
    simp only [Mem.write]
    rw [List.getElem?_eq_none (by omega)]
  have hto : (memcpyToTask m src (jmpEntry arch dst) wr).1 a = m a := by
    unfold memcpyToTask
    cases wr with
    | none => rfl
    | some n => exact hput _ (by rw [List.length_take, jmpEntry_length]; omega)
  unfold runJmp at h
  by_cases h0 : src = 0 ∨ dst = 0
  · rw [if_pos h0] at h; cases h; rfl
  · rw [if_neg h0] at h
    cases h1 : findVma vs src with
    | none => rw [h1] at h; cases h
    | some f =>
      rw [h1, Option.bind_some] at h
      cases h2 : findVma vs dst with
      | none => rw [h2] at h; cases h
      | some t =>
        rw [h2, Option.map_some] at h
        have h := Option.some.inj h
        dsimp only at h
        by_cases h3 : f = 0 ∨ t = 0
        · rw [if_pos h3] at h; cases h; rfl
        · rw [if_neg h3] at h
          split at h
          · cases h; rfl
          · split at h <;> (cases h; exact hto)

/-- The lines can be read: new structures, mappings that are not empty. -/
def Fresh (u : List Nat) (ls : List (Nat × Line)) : Prop :=
  (0 :: ls.map (·.1)).Nodup ∧ ∀ x ∈ ls, x.1 ≠ 0 ∧ x.1 ∉ u ∧ x.2.start < x.2.stop

def isMap (a : Act) : Bool := a.change = some .map

/-- What holds during a run on `p`, with `rest` still to be done. -/
structure Held (pg : Nat) (c : Circ) (maps : List Area) (as rest : List Act) (p : Proc State) (s : Run' State) : Prop where
  known : ∃ u, From s.vs u maps ∧ (rest.any isMap = true → ∀ ls, c.lines = some ls → Fresh u ls)
  frame : Frame pg c.fs maps as p s.run.w
  log : ∀ q ∈ s.run.log, Asked c.fs maps as q

theorem Held.goes (hk : LawfulP pg k) {c : Circ} {rest : List Act} {p : Proc State} {s : Run' State}
    (h : Held pg c maps as rest p s) {r : Run (Proc State)} {n : Int} (hg : Goes k (Asked c.fs maps as) s.run r) :
    Held pg c maps as rest p { s with run := r, ret := n } := by
  obtain ⟨qs, h1, h2, h3⟩ := hg.ex
  refine ⟨h.known, ?_, ?_⟩
  · show Frame pg c.fs maps as p r.w
    rw [h2]
    exact h.frame.trans (frame_via hk qs _ h3)
  · intro q hq
    have hq : q ∈ r.log := hq
    rw [h1, List.mem_append] at hq
    exact hq.elim (h.log q) (h3 q)

theorem Held.tail {c : Circ} {a : Act} {rest : List Act} {p : Proc State} {s : Run' State}
    (h : Held pg c maps as (a :: rest) p s) : Held pg c maps as rest p s := by
  obtain ⟨u, h1, h2⟩ := h.known
  exact ⟨⟨u, h1, fun hr => h2 (by simp [hr])⟩, h.frame, h.log⟩

theorem withOut_run {s s' : Run' State} {x : Option (Option (List Byte) × Int)} (h : withOut s x = some s') :
    s'.run = s.run ∧ s'.vs = s.vs := by
  unfold withOut at h
  cases x with
  | none => cases h
  | some y => cases h; exact ⟨rfl, rfl⟩

theorem Held.congr {c : Circ} {rest : List Act} {p : Proc State} {s s' : Run' State} (h : Held pg c maps as rest p s)
    (hr : s'.run = s.run) (hv : s'.vs = s.vs) : Held pg c maps as rest p s' := by
  obtain ⟨u, h1, h2⟩ := h.known
  exact ⟨⟨u, by rw [hv]; exact h1, h2⟩, by rw [hr]; exact h.frame, by rw [hr]; exact h.log⟩

theorem held_act (hk : LawfulP pg k) {arch : Arch} {c : Circ} {a : Act} {rest : List Act} {p : Proc State} {s s' : Run' State}
    (h : Held pg c maps as (a :: rest) p s) (hin : a ∈ as) (hone : isMap a = true → rest.any isMap = false)
    (hl : ∀ ls, c.lines = some ls → ∀ x ∈ ls, areaOfLine x.2 ∈ maps) (e : act k arch c s a = some s') :
    Held pg c maps as rest p s' := by
  have same : act k arch c s a = some s → Held pg c maps as rest p s' := by
    intro h0
    rw [h0] at e; cases e
    exact h.tail
  cases a with
  | mprotect addr len prot =>
    unfold act at e
    dsimp only at e
    cases h1 : mprotectRegion k s.vs addr len prot s.run with
    | none => rw [h1] at e; cases e
    | some x =>
      rw [h1] at e; cases e
      exact h.tail.goes hk (goes_mprotect h1 ⟨_, hin, by simp [Act.change]⟩ ⟨_, hin, by simp [Act.change]⟩ ⟨prot, hin, rfl⟩)
  | unmap addr =>
    unfold act at e
    dsimp only at e
    cases h1 : munmapVma k c.fs s.vs addr s.run with
    | none => rw [h1] at e; cases e
    | some x =>
      rw [h1] at e; cases e
      obtain ⟨u, hf, _⟩ := h.known
      exact h.tail.goes hk (goes_munmap hf h1 ⟨_, hin, by simp [Act.change]⟩ ⟨_, hin, by simp [Act.change]⟩
        (fun m hm hlo hhi len hlen => ⟨addr, m, hin, hm, hlo, hhi, rfl, hlen⟩))
  | map path addr ro noexec =>
    unfold act at e
    dsimp only at e
    cases h1 : mmapFile k c.fs s.vs path addr ro noexec ⟨s.run.w, []⟩ with
    | none => rw [h1] at e; cases e
    | some x =>
      rw [h1, Option.bind_some] at e
      have hg : Goes k (Asked c.fs maps as) s.run ⟨x.1.w, s.run.log ++ x.1.log⟩ := by
        obtain ⟨qs, g1, g2, g3⟩ := (goes_map (ok := Asked c.fs maps as) h1 ⟨_, hin, by simp [Act.change]⟩
          ⟨_, hin, by simp [Act.change]⟩ ⟨rfl, addr, ro, noexec, hin⟩ (fun _ => ⟨path, addr, ro, noexec, hin⟩)
          (fun _ => ⟨path, addr, ro, noexec, hin, rfl⟩)
          (fun _ => ⟨rfl, rfl, path, ro, noexec, hin, rfl, mapProt_eq ro noexec⟩)).ex
        exact ⟨qs, by simpa using g1, g2, g3⟩
      have hh := h.goes (n := s.ret + x.2) hk hg
      by_cases hd : x.1.log.getLast? = some .detach
      · rw [if_pos hd] at e
        obtain ⟨u, hf, hfr⟩ := h.known
        have hnone := hone rfl
        cases hls : c.lines with
        | none =>
          rw [hls] at e
          cases e
          exact hh.tail
        | some ls =>
          rw [hls] at e
          obtain ⟨f1, f2⟩ := hfr (by simp [isMap, Act.change]) ls hls
          obtain ⟨vs', e', hf'⟩ := hf.read true ls f1 f2
          have er : reread s.vs (some ls) = some vs' := e'
          rw [er] at e
          cases e
          refine ⟨⟨_, hf'.mono (fun _ q => q) ?_, fun hr => by rw [hnone] at hr; cases hr⟩, hh.frame, hh.log⟩
          intro m hm
          rw [List.mem_append, List.mem_map] at hm
          rcases hm with ⟨x, hx, rfl⟩ | hm
          · exact hl ls hls x hx
          · exact hm
      · rw [if_neg hd] at e
        cases e
        exact hh.tail
  | dumpVma file addr =>
    have := withOut_run (e : withOut s _ = some s')
    exact h.tail.congr this.1 this.2
  | dumpVdso file =>
    unfold act at e
    dsimp only at e
    cases hv : c.vdso with
    | none => rw [hv] at e; cases e
    | some a =>
      rw [hv] at e
      have := withOut_run e
      exact h.tail.congr this.1 this.2
  | dumpMem file addr size =>
    have := withOut_run (e : withOut s _ = some s')
    exact h.tail.congr this.1 this.2
  | jmp src dst =>
    unfold act at e
    dsimp only at e
    cases h1 : runJmp arch s.vs s.run.w.mem src dst c.rd c.wr with
    | none => rw [h1] at e; cases e
    | some x =>
      rw [h1] at e; cases e
      refine ⟨h.tail.known, h.frame.trans ⟨fun _ _ _ q => Or.inl q, fun _ _ q => Or.inl q, fun a _ _ hj => ?_⟩, h.log⟩
      exact jump_frame h1 (fun hlt => hj ⟨src, dst, hin, hlt⟩)
  | printTask => exact same rfl
  | auxv => exact same rfl
  | status => exact same rfl
  | vmas => exact same rfl
  | symbols => exact same rfl
  | threads => exact same rfl
  | fds => exact same rfl
  | disasm _ _ => exact same rfl

theorem held_split (hk : LawfulP pg k) {arch : Arch} {c : Circ} {p : Proc State}
    (hl : ∀ ls, c.lines = some ls → ∀ x ∈ ls, areaOfLine x.2 ∈ maps) : ∀ (l rest : List Act) {s s' : Run' State},
    Held pg c maps as (l ++ rest) p s → (∀ a ∈ l, a ∈ as) → ((l ++ rest).filter isMap).length ≤ 1 →
    doActs k arch c s l = some s' → Held pg c maps as rest p s'
  | [], rest, s, s', h, _, _, e => by cases e; exact h
  | a :: l, rest, s, s', h, hin, hone, e => by
    unfold doActs at e
    cases h1 : act k arch c s a with
    | none => rw [h1] at e; cases e
    | some s1 =>
      rw [h1, Option.bind_some] at e
      rw [List.cons_append] at h hone
      have h2 := held_act hk h (hin a (by simp)) (fun hm => by
        rw [List.filter_cons, if_pos hm, List.length_cons] at hone
        rw [List.any_eq_false]
        intro x hx hxm
        have : x ∈ (l ++ rest).filter isMap := List.mem_filter.2 ⟨hx, hxm⟩
        have hz : ((l ++ rest).filter isMap).length = 0 := by omega
        rw [List.length_eq_zero_iff.1 hz] at this
        cases this) hl h1
      refine held_split hk hl l rest h2 (fun x hx => hin x (by simp [hx])) ?_ e
      rw [List.filter_cons] at hone
      split at hone
      · rw [List.length_cons] at hone; omega
      · exact hone

theorem held_acts (hk : LawfulP pg k) {arch : Arch} {c : Circ} {p : Proc State}
    (hl : ∀ ls, c.lines = some ls → ∀ x ∈ ls, areaOfLine x.2 ∈ maps) (rest : List Act) {s s' : Run' State}
    (h : Held pg c maps as rest p s) (hin : ∀ a ∈ rest, a ∈ as) (hone : (rest.filter isMap).length ≤ 1)
    (e : doActs k arch c s rest = some s') : Held pg c maps as [] p s' :=
  held_split hk hl rest [] (by rwa [List.append_nil]) hin (by rwa [List.append_nil]) e

theorem one_filter (b : Bool) (a : Act) (h : isMap a = false) : (Cli.one b a).filter isMap = [] := by
  unfold Cli.one
  cases b <;> simp [h]

theorem acts_one (c : Cli.Cfg) : ((Cli.acts c).filter isMap).length ≤ 1 := by
  unfold Cli.acts
  dsimp only
  simp only [List.filter_append]
  rw [one_filter _ _ rfl, one_filter _ _ rfl, one_filter _ _ rfl, one_filter _ _ rfl, one_filter _ _ rfl,
    one_filter _ _ rfl, one_filter _ _ rfl, one_filter _ _ rfl, one_filter _ _ rfl, one_filter _ _ rfl,
    one_filter _ _ rfl, one_filter _ _ rfl, one_filter _ _ rfl, one_filter _ _ rfl]
  cases c.mapFile <;> simp [isMap, Act.change]

/-- Without a request, what the kernel keeps does not change. -/
theorem act_quiet {arch : Arch} {c : Circ} {a : Act} {s s' : Run' State} (e : act k arch c s a = some s') :
    ∃ qs, s'.run.log = s.run.log ++ qs ∧ (qs = [] → s'.run.w.w = s.run.w.w) := by
  have hg : ∀ r : Run (Proc State), Goes k (fun _ => True) s.run r → ∃ qs, r.log = s.run.log ++ qs ∧ (qs = [] → r.w.w = s.run.w.w) := by
    intro r hr
    obtain ⟨qs, h1, h2, _⟩ := hr.ex
    exact ⟨qs, h1, fun hq => by rw [h2, hq]; rfl⟩
  have same : act k arch c s a = some s → ∃ qs, s'.run.log = s.run.log ++ qs ∧ (qs = [] → s'.run.w.w = s.run.w.w) := by
    intro h0
    rw [h0] at e; cases e
    exact ⟨[], by simp, fun _ => rfl⟩
  have outs : ∀ x, withOut s x = some s' → ∃ qs, s'.run.log = s.run.log ++ qs ∧ (qs = [] → s'.run.w.w = s.run.w.w) := by
    intro x hx
    rw [(withOut_run hx).1]
    exact ⟨[], by simp, fun _ => rfl⟩
  cases a with
  | mprotect addr len prot =>
    unfold act at e
    dsimp only at e
    cases h1 : mprotectRegion k s.vs addr len prot s.run with
    | none => rw [h1] at e; cases e
    | some x =>
      rw [h1] at e; cases e
      exact hg _ (goes_mprotect h1 trivial trivial trivial)
  | unmap addr =>
    unfold act at e
    dsimp only at e
    cases h1 : munmapVma k c.fs s.vs addr s.run with
    | none => rw [h1] at e; cases e
    | some x =>
      rw [h1] at e; cases e
      refine hg _ ?_
      unfold munmapVma at h1
      cases h2 : findVma s.vs addr with
      | none => rw [h2] at h1; cases h1
      | some v =>
        rw [h2, Option.bind_some] at h1
        by_cases h3 : v = 0
        · rw [if_pos h3] at h1; cases h1; exact .refl _
        · rw [if_neg h3] at h1
          dsimp only at h1
          by_cases h5 : int (Run.ask k s.run .attach).2 ≠ 0
          · rw [if_pos h5] at h1; cases h1; exact (Goes.refl _).ask trivial
          · rw [if_neg h5] at h1; cases h1
            exact (((Goes.refl _).ask trivial).ask trivial).ask trivial
  | map path addr ro noexec =>
    unfold act at e
    dsimp only at e
    cases h1 : mmapFile k c.fs s.vs path addr ro noexec ⟨s.run.w, []⟩ with
    | none => rw [h1] at e; cases e
    | some x =>
      rw [h1, Option.bind_some] at e
      have hx : ∃ qs, s.run.log ++ x.1.log = s.run.log ++ qs ∧ (qs = [] → x.1.w.w = s.run.w.w) := by
        obtain ⟨qs, h1, h2, _⟩ := (goes_map (ok := fun _ => True) h1 trivial trivial trivial (fun _ => trivial)
          (fun _ => trivial) (fun _ => trivial)).ex
        refine ⟨qs, by rw [h1]; simp, fun hq => by rw [h2, hq]; rfl⟩
      by_cases hd : x.1.log.getLast? = some .detach
      · rw [if_pos hd] at e
        cases hr : reread s.vs c.lines with
        | none => rw [hr] at e; cases e
        | some vs => rw [hr] at e; cases e; exact hx
      · rw [if_neg hd] at e; cases e; exact hx
  | dumpVma file addr => exact outs _ e
  | dumpVdso file =>
    unfold act at e
    dsimp only at e
    cases hv : c.vdso with
    | none => rw [hv] at e; cases e
    | some a => rw [hv] at e; exact outs _ e
  | dumpMem file addr size => exact outs _ e
  | jmp src dst =>
    unfold act at e
    dsimp only at e
    cases h1 : runJmp arch s.vs s.run.w.mem src dst c.rd c.wr with
    | none => rw [h1] at e; cases e
    | some x => rw [h1] at e; cases e; exact ⟨[], by simp, fun _ => rfl⟩
  | printTask => exact same rfl
  | auxv => exact same rfl
  | status => exact same rfl
  | vmas => exact same rfl
  | symbols => exact same rfl
  | threads => exact same rfl
  | fds => exact same rfl
  | disasm _ _ => exact same rfl

theorem acts_quiet {arch : Arch} {c : Circ} : ∀ (rest : List Act) {s s' : Run' State}, doActs k arch c s rest = some s' →
    ∃ qs, s'.run.log = s.run.log ++ qs ∧ (qs = [] → s'.run.w.w = s.run.w.w)
  | [], s, s', e => by cases e; exact ⟨[], by simp, fun _ => rfl⟩
  | a :: rest, s, s', e => by
    unfold doActs at e
    cases h1 : act k arch c s a with
    | none => rw [h1] at e; cases e
    | some s1 =>
      rw [h1, Option.bind_some] at e
      obtain ⟨q1, a1, b1⟩ := act_quiet h1
      obtain ⟨q2, a2, b2⟩ := acts_quiet rest e
      refine ⟨q1 ++ q2, by rw [a2, a1, List.append_assoc], fun hq => ?_⟩
      rw [List.append_eq_nil_iff] at hq
      rw [b2 hq.2, b1 hq.1]

theorem doActs_quiet {arch : Arch} {c : Circ} {rest : List Act} {p : Proc State} {vs : Vmas} {out : Option (List Byte)}
    {s' : Run' State} (e : doActs k arch c ⟨⟨p, []⟩, vs, out, 0⟩ rest = some s') (h : s'.run.log = []) : s'.run.w.w = p.w := by
  obtain ⟨qs, a, b⟩ := acts_quiet rest e
  exact b (by rw [h] at a; simpa using a.symm)

theorem asked_detach {q : Req} (h : Asked fs maps as q) : Asked fs maps as .detach := by
  cases q with
  | attach => exact h
  | detach => exact h
  | «open» path flags =>
    obtain ⟨_, addr, ro, nx, hin⟩ := h
    exact ⟨_, hin, by simp [Act.change]⟩
  | ftruncate fd len =>
    obtain ⟨path, addr, ro, nx, hin, _⟩ := h
    exact ⟨_, hin, by simp [Act.change]⟩
  | mmap hint len prot flags fd off =>
    obtain ⟨_, _, path, ro, nx, hin, _⟩ := h
    exact ⟨_, hin, by simp [Act.change]⟩
  | mprotect addr len prot =>
    obtain ⟨v, hin, _⟩ := h
    exact ⟨_, hin, by simp [Act.change]⟩
  | munmap lo len =>
    obtain ⟨addr, m, hin, _⟩ := h
    exact ⟨_, hin, by simp [Act.change]⟩
  | close fd =>
    obtain ⟨path, addr, ro, nx, hin⟩ := h
    exact ⟨_, hin, by simp [Act.change]⟩

theorem fine_read {j : Job} (hj : j.Fine) :
    ∃ vs, readTaskVmas (initVmas j.info) false j.ls = some vs ∧ ∃ u, From vs u (mapsOf j.c j.ls) ∧
      ∀ ls, j.c.lines = some ls → Fresh u ls := by
  obtain ⟨h1, h2⟩ := hj
  unfold linesOf at h1 h2
  rw [List.map_append, List.nodup_cons, List.nodup_append] at h1
  obtain ⟨h0, ha, hb, hab⟩ := h1
  rw [List.mem_append, not_or] at h0
  obtain ⟨vs, e, hf⟩ := (From.init j.info).read false j.ls (prev := 0) (List.nodup_cons.2 ⟨h0.1, ha⟩) (by
    intro x hx
    refine ⟨fun e => h0.1 (by rw [← e]; exact List.mem_map_of_mem hx), by simp, h2 x (List.mem_append_left _ hx)⟩)
  refine ⟨vs, e, _, hf.mono (fun _ q => q) ?_, ?_⟩
  · intro m hm
    rw [List.append_nil] at hm
    unfold mapsOf linesOf
    rw [List.map_append]
    exact List.mem_append_left _ hm
  · intro ls hls
    rw [hls] at h0 hb hab h2
    refine ⟨List.nodup_cons.2 ⟨h0.2, hb⟩, fun x hx => ⟨fun e => h0.2 (by rw [← e]; exact List.mem_map_of_mem hx), ?_,
      h2 x (List.mem_append_right _ hx)⟩⟩
    rw [List.append_nil]
    intro hm
    exact hab _ hm _ (List.mem_map_of_mem hx) rfl

theorem lines_in {j : Job} {ls : List (Nat × Line)} (h : j.c.lines = some ls) {x : Nat × Line} (hx : x ∈ ls) :
    areaOfLine x.2 ∈ mapsOf j.c j.ls := by
  unfold mapsOf linesOf
  rw [h]
  exact List.mem_map.2 ⟨x, List.mem_append_right _ hx, rfl⟩

/-- What a run leaves behind. -/
theorem job_held (hk : LawfulP pg k) {arch : Arch} {j : Job} (hj : j.Fine) {p : Proc State} {d : Done State}
    (h : j.run k arch p = some d) :
    Frame pg j.c.fs (mapsOf j.c j.ls) (asks j.e j.opts) p d.proc ∧
    (∀ q ∈ d.log, Asked j.c.fs (mapsOf j.c j.ls) (asks j.e j.opts) q) ∧
    (d.log = [] → d.proc.w = p.w) ∧ (p.w.stopped = false → d.proc.w.stopped = false) := by
  obtain ⟨vs, ev, u, hf, hfr⟩ := fine_read hj
  unfold Job.run at h
  rw [ev, Option.bind_some] at h
  unfold ultask at h
  cases hp : Cli.taskParse j.e j.opts with
  | error n =>
    rw [hp] at h
    cases h
    exact ⟨.refl _, by simp, fun _ => rfl, fun q => q⟩
  | ok g =>
    rw [hp] at h
    dsimp only at h
    have ha : asks j.e j.opts = Cli.acts g := by rw [asks, hp]
    rw [ha]
    by_cases h1 : j.c.starts = false
    · rw [if_pos h1] at h; cases h
      exact ⟨.refl _, by simp, fun _ => rfl, fun q => q⟩
    rw [if_neg h1] at h
    by_cases h2 : j.c.opens = false
    · rw [if_pos h2] at h; cases h
      exact ⟨.refl _, by simp, fun _ => rfl, fun q => q⟩
    rw [if_neg h2] at h
    cases hd : doActs k arch j.c ⟨⟨p, []⟩, vs, j.out, 0⟩ (Cli.acts g) with
    | none => rw [hd] at h; cases h
    | some s =>
      rw [hd] at h
      cases h
      have h0 : Held pg j.c (mapsOf j.c j.ls) (Cli.acts g) (Cli.acts g) p ⟨⟨p, []⟩, vs, j.out, 0⟩ :=
        ⟨⟨u, hf, fun _ => hfr⟩, .refl _, by simp⟩
      have hh := held_acts hk (fun ls hls x hx => lines_in hls hx) (Cli.acts g) h0 (fun _ q => q) (acts_one g) hd
      have hst := doActs_quiet hd
      refine ⟨?_, hh.log, ?_, ?_⟩
      · dsimp only
        by_cases hl : s.run.log = []
        · rw [if_pos hl]; exact hh.frame
        · rw [if_neg hl]
          obtain ⟨q, hq⟩ := List.exists_mem_of_ne_nil _ hl
          exact hh.frame.trans (frame_ask hk _ (asked_detach (hh.log q hq)))
      · intro hl
        dsimp only at hl ⊢
        rw [if_pos hl]
        exact hst hl
      · intro hs
        dsimp only
        by_cases hl : s.run.log = []
        · rw [if_pos hl, hst hl]; exact hs
        · rw [if_neg hl]
          have := (hk s.run.w .detach).1
          simp only [Answers] at this
          rw [this]

/-! ## Looking only -/

theorem look_act {arch : Arch} {c : Circ} {a : Act} {s s' : Run' State} (ha : a.change = none)
    (e : act k arch c s a = some s') : s'.run = s.run ∧ s'.vs = s.vs ∧ s'.ret = s.ret := by
  have same : act k arch c s a = some s → s'.run = s.run ∧ s'.vs = s.vs ∧ s'.ret = s.ret := by
    intro h0
    rw [h0] at e; cases e
    exact ⟨rfl, rfl, rfl⟩
  have outs : ∀ x, withOut s x = some s' → s'.run = s.run ∧ s'.vs = s.vs ∧ s'.ret = s.ret := by
    intro x hx
    unfold withOut at hx
    cases x with
    | none => cases hx
    | some y => cases hx; exact ⟨rfl, rfl, rfl⟩
  cases a with
  | mprotect addr len prot => cases ha
  | unmap addr => cases ha
  | map path addr ro noexec => cases ha
  | jmp src dst => cases ha
  | dumpVma file addr => exact outs _ e
  | dumpVdso file =>
    unfold act at e
    dsimp only at e
    cases hv : c.vdso with
    | none => rw [hv] at e; cases e
    | some a => rw [hv] at e; exact outs _ e
  | dumpMem file addr size => exact outs _ e
  | printTask => exact same rfl
  | auxv => exact same rfl
  | status => exact same rfl
  | vmas => exact same rfl
  | symbols => exact same rfl
  | threads => exact same rfl
  | fds => exact same rfl
  | disasm _ _ => exact same rfl

theorem look_acts {arch : Arch} {c : Circ} : ∀ (rest : List Act) {s s' : Run' State}, (∀ a ∈ rest, a.change = none) →
    doActs k arch c s rest = some s' → s'.run = s.run
  | [], s, s', _, e => by cases e; rfl
  | a :: rest, s, s', h, e => by
    unfold doActs at e
    cases h1 : act k arch c s a with
    | none => rw [h1] at e; cases e
    | some s1 =>
      rw [h1, Option.bind_some] at e
      rw [look_acts rest (fun x hx => h x (by simp [hx])) e]
      exact (look_act (h a (by simp)) h1).1

/-! ## A run comes to an end -/

theorem mprotect_some {vs : Vmas} {u : List Nat} (hv : From vs u maps) (addr len prot : BitVec 64) (r : Run (Proc State)) :
    ∃ x, mprotectRegion k vs addr len prot r = some x := by
  obtain ⟨v, ev, _⟩ := hv.find addr
  obtain ⟨v', ev', _⟩ := hv.find (addr + len)
  unfold mprotectRegion
  rw [ev, ev', Option.bind_some, Option.bind_some]
  split
  · exact ⟨_, rfl⟩
  · split
    · exact ⟨_, rfl⟩
    · split
      · exact ⟨_, rfl⟩
      · dsimp only
        split <;> exact ⟨_, rfl⟩

theorem munmap_some {vs : Vmas} {u : List Nat} (hv : From vs u maps) (addr : BitVec 64) (r : Run (Proc State)) :
    ∃ x, munmapVma k fs vs addr r = some x := by
  obtain ⟨v, ev, _⟩ := hv.find addr
  unfold munmapVma
  rw [ev, Option.bind_some]
  split
  · exact ⟨_, rfl⟩
  · dsimp only
    split <;> exact ⟨_, rfl⟩

theorem map_some {vs : Vmas} {u : List Nat} (hv : From vs u maps) (path : List Byte) (addr : BitVec 64) (ro noexec : Bool)
    (r : Run (Proc State)) : ∃ x, mmapFile k fs vs path addr ro noexec r = some x := by
  have : ∃ b, mapInUse vs addr ((fsize fs path).signExtend 64) = some b := by
    obtain ⟨v, ev, _⟩ := hv.find addr
    obtain ⟨v', ev', _⟩ := hv.find (addr + (fsize fs path).signExtend 64)
    unfold mapInUse
    rw [ev, ev', Option.bind_some, Option.map_some]
    split
    · exact ⟨_, rfl⟩
    · split <;> exact ⟨_, rfl⟩
  obtain ⟨b, e⟩ := this
  unfold mmapFile
  dsimp only
  rw [e]
  exact ⟨_, rfl⟩

theorem dumpAddr_some {vs : Vmas} {u : List Nat} (hv : From vs u maps) (m : Mem) (addr size : BitVec 64) (e : DumpEnv) :
    ∃ x, dumpAddr vs m addr size e = some x := by
  obtain ⟨v, ev, _⟩ := hv.find addr
  unfold dumpAddr
  rw [ev]
  exact ⟨_, rfl⟩

theorem dumpVma_some {vs : Vmas} {u : List Nat} (hv : From vs u maps) (m : Mem) (addr : BitVec 64) (e : DumpEnv) :
    ∃ x, dumpVma vs m addr e = some x := by
  obtain ⟨v, ev, _⟩ := hv.find addr
  unfold dumpVma
  rw [ev, Option.bind_some]
  split
  · exact ⟨_, rfl⟩
  · exact dumpAddr_some hv ..

theorem jmp_some {vs : Vmas} {u : List Nat} (hv : From vs u maps) (arch : Arch) (m : Mem) (src dst : Addr) (rd wr : Option Nat) :
    ∃ x, runJmp arch vs m src dst rd wr = some x := by
  obtain ⟨v, ev, _⟩ := hv.find src
  obtain ⟨v', ev', _⟩ := hv.find dst
  unfold runJmp
  rw [ev, ev', Option.bind_some, Option.map_some]
  split <;> exact ⟨_, rfl⟩

theorem act_some {arch : Arch} {c : Circ} {a : Act} {s : Run' State} {u : List Nat} (hv : From s.vs u maps)
    (hfr : isMap a = true → ∀ ls, c.lines = some ls → Fresh u ls) (hvd : c.vdso ≠ none) : ∃ s', act k arch c s a = some s' := by
  cases a with
  | mprotect addr len prot =>
    obtain ⟨x, e⟩ := mprotect_some (k := k) hv addr len prot s.run
    unfold act; dsimp only; rw [e]; exact ⟨_, rfl⟩
  | unmap addr =>
    obtain ⟨x, e⟩ := munmap_some (k := k) (fs := c.fs) hv addr s.run
    unfold act; dsimp only; rw [e]; exact ⟨_, rfl⟩
  | map path addr ro noexec =>
    obtain ⟨x, e⟩ := map_some (k := k) (fs := c.fs) hv path addr ro noexec ⟨s.run.w, []⟩
    unfold act; dsimp only; rw [e, Option.bind_some]
    split
    · cases hls : c.lines with
      | none => exact ⟨_, rfl⟩
      | some ls =>
        obtain ⟨f1, f2⟩ := hfr rfl ls hls
        obtain ⟨vs', e', _⟩ := hv.read true ls f1 f2
        have er : reread s.vs (some ls) = some vs' := e'
        rw [er]
        exact ⟨_, rfl⟩
    · exact ⟨_, rfl⟩
  | dumpVma file addr =>
    obtain ⟨x, e⟩ := dumpVma_some hv s.run.w.mem addr { c.dump (.dumpVma file addr) with file := s.out }
    unfold act; dsimp only; rw [e]; exact ⟨_, rfl⟩
  | dumpVdso file =>
    unfold act; dsimp only
    cases hd : c.vdso with
    | none => exact absurd hd hvd
    | some a =>
      obtain ⟨x, e⟩ := dumpVma_some hv s.run.w.mem (a + 1) { c.dump (.dumpVdso file) with file := s.out }
      dsimp only; rw [e]; exact ⟨_, rfl⟩
  | dumpMem file addr size =>
    obtain ⟨x, e⟩ := dumpAddr_some hv s.run.w.mem addr size { c.dump (.dumpMem file addr size) with file := s.out }
    unfold act; dsimp only; rw [e]; exact ⟨_, rfl⟩
  | jmp src dst =>
    obtain ⟨x, e⟩ := jmp_some hv arch s.run.w.mem src dst c.rd c.wr
    unfold act; dsimp only; rw [e]; exact ⟨_, rfl⟩
  | printTask => exact ⟨_, rfl⟩
  | auxv => exact ⟨_, rfl⟩
  | status => exact ⟨_, rfl⟩
  | vmas => exact ⟨_, rfl⟩
  | symbols => exact ⟨_, rfl⟩
  | threads => exact ⟨_, rfl⟩
  | fds => exact ⟨_, rfl⟩
  | disasm _ _ => exact ⟨_, rfl⟩

theorem acts_some (hk : LawfulP pg k) {arch : Arch} {c : Circ} {p : Proc State} (hvd : c.vdso ≠ none)
    (hl : ∀ ls, c.lines = some ls → ∀ x ∈ ls, areaOfLine x.2 ∈ maps) : ∀ (rest : List Act) {s : Run' State},
    Held pg c maps as rest p s → (∀ a ∈ rest, a ∈ as) → (rest.filter isMap).length ≤ 1 →
    ∃ s', doActs k arch c s rest = some s'
  | [], s, _, _, _ => ⟨s, rfl⟩
  | a :: rest, s, h, hin, hone => by
    obtain ⟨u, hf, hfr⟩ := h.known
    obtain ⟨s1, e1⟩ := act_some (k := k) (arch := arch) (a := a) hf (fun hm => hfr (by simp [hm])) hvd
    have h2 := held_act hk h (hin a (by simp)) (fun hm => by
      rw [List.filter_cons, if_pos hm, List.length_cons] at hone
      rw [List.any_eq_false]
      intro x hx hxm
      have : x ∈ rest.filter isMap := List.mem_filter.2 ⟨hx, hxm⟩
      have hz : (rest.filter isMap).length = 0 := by omega
      rw [List.length_eq_zero_iff.1 hz] at this
      cases this) hl e1
    obtain ⟨s2, e2⟩ := acts_some hk hvd hl rest h2 (fun x hx => hin x (by simp [hx])) (by
      rw [List.filter_cons] at hone
      split at hone
      · rw [List.length_cons] at hone; omega
      · exact hone)
    exact ⟨s2, by unfold doActs; rw [e1, Option.bind_some, e2]⟩

/-! ## The status -/

theorem mprotect_ret (he : Errs k) {vs : Vmas} {addr len prot : BitVec 64} {r : Run (Proc State)} {x : Run (Proc State) × Int}
    (h : mprotectRegion k vs addr len prot r = some x) : x.2 ≤ 0 := by
  unfold mprotectRegion at h
  by_cases h0 : addr = 0 ∨ len = 0
  · rw [if_pos h0] at h; cases h; show (-22 : Int) ≤ 0; decide
  · rw [if_neg h0] at h
    cases h1 : findVma vs addr with
    | none => rw [h1] at h; cases h
    | some v =>
      rw [h1, Option.bind_some] at h
      by_cases h2 : v = 0
      · rw [if_pos h2] at h; cases h; show (-22 : Int) ≤ 0; decide
      · rw [if_neg h2] at h
        cases h3 : findVma vs (addr + len) with
        | none => rw [h3] at h; cases h
        | some u =>
          rw [h3, Option.bind_some] at h
          by_cases h4 : u = 0
          · rw [if_pos h4] at h; cases h; show (-22 : Int) ≤ 0; decide
          · rw [if_neg h4] at h
            dsimp only at h
            by_cases h5 : int (Run.ask k r .attach).2 ≠ 0
            · rw [if_pos h5] at h; cases h; exact he _ _ (Or.inl rfl)
            · rw [if_neg h5] at h; cases h; exact he _ _ (Or.inr (Or.inl ⟨_, _, _, rfl⟩))

theorem munmap_ret (he : Errs k) {vs : Vmas} {addr : BitVec 64} {r : Run (Proc State)} {x : Run (Proc State) × Int}
    (h : munmapVma k fs vs addr r = some x) : x.2 ≤ 0 := by
  unfold munmapVma at h
  cases h1 : findVma vs addr with
  | none => rw [h1] at h; cases h
  | some v =>
    rw [h1, Option.bind_some] at h
    by_cases h2 : v = 0
    · rw [if_pos h2] at h; cases h; show (-1 : Int) ≤ 0; decide
    · rw [if_neg h2] at h
      dsimp only at h
      by_cases h5 : int (Run.ask k r .attach).2 ≠ 0
      · rw [if_pos h5] at h; cases h; exact he _ _ (Or.inl rfl)
      · rw [if_neg h5] at h; cases h; exact Int.le_refl _

theorem ftruncate_ret (he : Errs k) (fd : BitVec 32) (len : BitVec 64) (r : Run (Proc State)) :
    (ftruncateReq k fd len r).2 ≤ 0 := by
  unfold ftruncateReq
  split
  · show (-22 : Int) ≤ 0; decide
  · exact he _ _ (Or.inr (Or.inr ⟨_, _, rfl⟩))

theorem map_ret (he : Errs k) {vs : Vmas} {path : List Byte} {addr : BitVec 64} {ro noexec : Bool} {r : Run (Proc State)}
    {x : Run (Proc State) × Int} (h : mmapFile k fs vs path addr ro noexec r = some x) : x.2 ≤ 0 := by
  unfold mmapFile at h
  dsimp only at h
  cases h1 : mapInUse vs addr ((fsize fs path).signExtend 64) with
  | none => rw [h1] at h; cases h
  | some used =>
    rw [h1, Option.map_some] at h
    by_cases h2 : used = true
    · rw [if_pos h2] at h; cases h; show (-22 : Int) ≤ 0; decide
    · rw [if_neg h2] at h
      by_cases h3 : int (Run.ask k r .attach).2 ≠ 0
      · rw [if_pos h3] at h; cases h; exact he _ _ (Or.inl rfl)
      · rw [if_neg h3] at h
        split at h
        · cases h; show (-1 : Int) ≤ 0; decide
        · split at h <;> (cases h; exact ftruncate_ret he ..)

theorem act_ret (he : Errs k) {arch : Arch} {c : Circ} {a : Act} {s s' : Run' State}
    (e : act k arch c s a = some s') : s'.ret ≤ s.ret := by
  have look : a.change = none → s'.ret ≤ s.ret := fun ha => by
    rw [(look_act ha e).2.2]; exact Int.le_refl _
  cases a with
  | mprotect addr len prot =>
    unfold act at e
    dsimp only at e
    cases h1 : mprotectRegion k s.vs addr len prot s.run with
    | none => rw [h1] at e; cases e
    | some x => rw [h1] at e; cases e; have := mprotect_ret he h1; dsimp only; omega
  | unmap addr =>
    unfold act at e
    dsimp only at e
    cases h1 : munmapVma k c.fs s.vs addr s.run with
    | none => rw [h1] at e; cases e
    | some x => rw [h1] at e; cases e; have := munmap_ret he h1; dsimp only; omega
  | map path addr ro noexec =>
    unfold act at e
    dsimp only at e
    cases h1 : mmapFile k c.fs s.vs path addr ro noexec ⟨s.run.w, []⟩ with
    | none => rw [h1] at e; cases e
    | some x =>
      rw [h1, Option.bind_some] at e
      have := map_ret he h1
      by_cases hd : x.1.log.getLast? = some .detach
      · rw [if_pos hd] at e
        cases hr : reread s.vs c.lines with
        | none => rw [hr] at e; cases e
        | some vs => rw [hr] at e; cases e; dsimp only; omega
      · rw [if_neg hd] at e; cases e; dsimp only; omega
  | jmp src dst =>
    unfold act at e
    dsimp only at e
    cases h1 : runJmp arch s.vs s.run.w.mem src dst c.rd c.wr with
    | none => rw [h1] at e; cases e
    | some x => rw [h1] at e; cases e; exact Int.le_refl _
  | dumpVma file addr => exact look rfl
  | dumpVdso file => exact look rfl
  | dumpMem file addr size => exact look rfl
  | printTask => exact look rfl
  | auxv => exact look rfl
  | status => exact look rfl
  | vmas => exact look rfl
  | symbols => exact look rfl
  | threads => exact look rfl
  | fds => exact look rfl
  | disasm _ _ => exact look rfl

theorem acts_ret (he : Errs k) {arch : Arch} {c : Circ} : ∀ (rest : List Act) {s s' : Run' State},
    doActs k arch c s rest = some s' → s'.ret ≤ s.ret
  | [], s, s', e => by cases e; exact Int.le_refl _
  | a :: rest, s, s', e => by
    unfold doActs at e
    cases h1 : act k arch c s a with
    | none => rw [h1] at e; cases e
    | some s1 =>
      rw [h1, Option.bind_some] at e
      exact Int.le_trans (acts_ret he rest e) (act_ret he h1)

theorem doActs_append {arch : Arch} {c : Circ} : ∀ (l1 l2 : List Act) (s : Run' State),
    doActs k arch c s (l1 ++ l2) = (doActs k arch c s l1).bind fun s => doActs k arch c s l2
  | [], l2, s => rfl
  | a :: l1, l2, s => by
    rw [List.cons_append, doActs, doActs]
    cases act k arch c s a with
    | none => rfl
    | some s1 => exact doActs_append l1 l2 s1

/-- If the region is protected, every page of it has the protection. -/
theorem mprotect_done (hk : LawfulP pg k) {vs : Vmas} {addr len prot : BitVec 64} {r : Run (Proc State)} {x : Run (Proc State) × Int}
    (h : mprotectRegion k vs addr len prot r = some x) (h0 : x.2 = 0) {n : Nat} (hn : Touches pg addr.toNat len.toNat n) :
    ∃ q, x.1.w.w.space n = some q ∧ q.prot = prot.setWidth 32 := by
  unfold mprotectRegion at h
  by_cases hz : addr = 0 ∨ len = 0
  · rw [if_pos hz] at h; cases h; cases h0
  · rw [if_neg hz] at h
    cases h1 : findVma vs addr with
    | none => rw [h1] at h; cases h
    | some v =>
      rw [h1, Option.bind_some] at h
      by_cases h2 : v = 0
      · rw [if_pos h2] at h; cases h; cases h0
      · rw [if_neg h2] at h
        cases h3 : findVma vs (addr + len) with
        | none => rw [h3] at h; cases h
        | some u =>
          rw [h3, Option.bind_some] at h
          by_cases h4 : u = 0
          · rw [if_pos h4] at h; cases h; cases h0
          · rw [if_neg h4] at h
            dsimp only at h
            by_cases h5 : int (Run.ask k r .attach).2 ≠ 0
            · rw [if_pos h5] at h; cases h; exact absurd h0 h5
            · rw [if_neg h5] at h
              cases h
              have hm := (hk (k.ask r.w .attach).1 (.mprotect addr len (prot.setWidth 32))).1
              have hd := (hk (k.ask (k.ask r.w .attach).1 (.mprotect addr len (prot.setWidth 32))).1 .detach).1
              simp only [Answers] at hd
              dsimp only [Run.ask] at h0 ⊢
              rw [hd]
              rcases hm with ⟨_, _, m2, m3⟩ | ⟨m0, _⟩
              · rw [m3]
                simp only [State.change]
                rw [if_pos hn]
                cases hq : (k.ask r.w .attach).1.w.space n with
                | none => exact absurd hq (m2 n hn)
                | some q => exact ⟨_, rfl, rfl⟩
              · exact absurd h0 m0

def isProtect (a : Act) : Bool := a.change = some .mprotect

theorem one_filter' (b : Bool) (a : Act) (h : isProtect a = false) : (Cli.one b a).filter isProtect = [] := by
  unfold Cli.one
  cases b <;> simp [h]

/-- There is one `--mprotect` at most. -/
theorem acts_protect (c : Cli.Cfg) : ((Cli.acts c).filter isProtect).length ≤ 1 := by
  unfold Cli.acts
  dsimp only
  simp only [List.filter_append]
  rw [one_filter' (Cli.idle c) _ rfl, one_filter' c.unmapIt _ rfl, one_filter' c.auxv _ rfl,
    one_filter' c.status _ rfl, one_filter' c.vmas _ rfl, one_filter' c.dumpVma _ rfl, one_filter' c.dumpVdso _ rfl,
    one_filter' c.dumpMem _ rfl, one_filter' c.symbols _ rfl, one_filter' c.threads _ rfl, one_filter' c.fds _ rfl,
    one_filter' _ (.jmp c.jmpFrom c.jmpTo) rfl, one_filter' _ (.disasm _ _) rfl]
  unfold Cli.one
  cases c.mapFile <;> (split <;> simp [isProtect, Act.change])

end Ulp.TaskRun
