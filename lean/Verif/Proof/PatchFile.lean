/-
Proofs about `Verif.Model.PatchFile`: what each function does to the files and to what
the process holds.
-/
import Verif.Model.PatchFile
namespace Ulp.PFile

/-- `x` started in `w` ends in a result and a world with `Q`. -/
def wp {α : Type} (x : M α) (Q : Except Crash α → World → Prop) (w : World) : Prop :=
  Q (x w).1 (x w).2

/-- `Q` after going on with `f`. -/
def cont {α β : Type} (f : α → M β) (Q : Except Crash β → World → Prop) :
    Except Crash α → World → Prop
  | .ok a, w => wp (f a) Q w
  | .error c, w => Q (.error c) w

theorem wp_bind {α β : Type} (x : M α) (f : α → M β) (Q) (w : World) :
    wp (x >>= f) Q w ↔ wp x (cont f Q) w := by
  show Q (M.bind x f w).1 (M.bind x f w).2 ↔ cont f Q (x w).1 (x w).2
  unfold M.bind
  rcases h : x w with ⟨r, w'⟩
  cases r <;> simp [cont, wp]

theorem cont_ok {α β : Type} (f : α → M β) (Q) (a : α) (w : World) :
    cont f Q (.ok a) w ↔ wp (f a) Q w := Iff.rfl

theorem cont_error {α β : Type} (f : α → M β) (Q) (c : Crash) (w : World) :
    cont f Q (.error c) w ↔ Q (.error c) w := Iff.rfl

theorem wp_pure {α : Type} (a : α) (Q) (w : World) : wp (pure a : M α) Q w ↔ Q (.ok a) w := Iff.rfl

theorem wp_crash {α : Type} (c : Crash) (Q) (w : World) :
    wp (crash c : M α) Q w ↔ Q (.error c) w := Iff.rfl

theorem wp_call (E : Env) (Q) (w : World) :
    wp (call E) Q w ↔ Q (.ok (E.code w.clock)) { w with clock := w.clock + 1 } := Iff.rfl

theorem wp_alloc (k : Kind) (Q) (w : World) : wp (alloc k) Q w ↔
    Q (.ok ⟨k, w.next⟩) { w with live := w.live ++ [⟨k, w.next⟩], next := w.next + 1 } := Iff.rfl

theorem wp_readFile (p : Path) (Q) (w : World) : wp (readFile p) Q w ↔ Q (.ok (w.files p)) w := Iff.rfl

theorem wp_setFile (p : Path) (c) (Q) (w : World) :
    wp (setFile p c) Q w ↔ Q (.ok ()) { w with files := update w.files p c } := Iff.rfl

theorem wp_free {r : Res} {Q} {w : World} (h : 0 < w.live.count r)
    (hq : ∀ w', w'.files = w.files → w'.next = w.next → (∀ a, w'.live.count a + (if r = a then 1 else 0) = w.live.count a) →
      Q (.ok ()) w') : wp (free r) Q w := by
  have hm : r ∈ w.live := List.count_pos_iff.mp h
  unfold wp free
  rw [if_pos hm]
  refine hq _ rfl rfl fun a => ?_
  show (w.live.erase r).count a + _ = _
  rw [List.count_erase]
  by_cases e : r = a
  · subst e; simp; omega
  · simp [e]

theorem wp_mono {α : Type} {x : M α} {P Q : Except Crash α → World → Prop} {w : World}
    (h : wp x P w) (hi : ∀ r w', P r w' → Q r w') : wp x Q w := hi _ _ h

theorem wp_fexist (p : Path) (Q) (w : World) : wp (fexist p) Q w ↔ Q (.ok (w.files p).isSome) w := by
  unfold fexist
  rw [wp_bind, wp_readFile, cont_ok, wp_pure]

theorem wp_fremove (p : Path) (Q) (w : World)
    (h : ∀ w', w'.files = update w.files p none → w'.live = w.live → Q (.ok ()) w') :
    wp (fremove p) Q w := by
  unfold fremove
  rw [wp_bind, wp_fexist, cont_ok]
  split
  · rw [wp_setFile]
    exact h _ rfl rfl
  · rename_i hn
    rw [wp_pure]
    refine h w ?_ rfl
    funext q
    unfold update
    split
    · subst q
      revert hn
      cases w.files p <;> simp
    · rfl

/-- Nothing, or one descriptor when a call failed. -/
def Leak (E : Env) (l : List Res) : Prop :=
  l = [] ∨ ∃ d n, l = [⟨.fd, d⟩] ∧ E.code n ≠ 0

/-- A call failed. -/
def Bad (E : Env) : Prop := ∃ n, E.code n ≠ 0

/-- What the process holds grew by `l`. -/
def Grew (w w' : World) (l : List Res) : Prop := ∀ a, w'.live.count a = w.live.count a + l.count a

theorem fsize_wp (E : Env) (p : Path) (w : World) :
    wp (fsize E p) (fun r w' => ∃ v l, r = .ok v ∧ w'.files = w.files ∧ w.next ≤ w'.next ∧ Grew w w' l ∧ Leak E l ∧
      ((v = -1 ∧ (Bad E ∨ w.files p = none)) ∨
       (l = [] ∧ ∃ c, w.files p = some c ∧ v = BitVec.ofNat 32 c.length))) w := by
  unfold fsize
  simp only [wp_bind, wp_call, cont_ok, wp_readFile]
  split
  · rename_i hb
    rw [wp_pure]
    exact ⟨_, [], rfl, rfl, Nat.le_refl _, fun a => by simp, Or.inl rfl, Or.inl ⟨rfl, Or.inr hb⟩⟩
  · rename_i bytes hb
    split
    · rename_i hc
      rw [wp_pure]
      exact ⟨_, [], rfl, rfl, Nat.le_refl _, fun a => by simp, Or.inl rfl, Or.inl ⟨rfl, Or.inl ⟨_, hc⟩⟩⟩
    · simp only [wp_bind, wp_call, cont_ok, wp_alloc]
      split
      · rename_i hc
        rw [wp_pure]
        refine ⟨_, [⟨.fd, w.next⟩], rfl, rfl, Nat.le_succ _, fun a => ?_, Or.inr ⟨_, _, rfl, hc⟩, Or.inl ⟨rfl, Or.inl ⟨_, hc⟩⟩⟩
        rw [List.count_append]
      · rw [wp_bind]
        apply wp_free
        · show 0 < List.count _ (_ ++ _)
          rw [List.count_append, List.count_singleton_self]; omega
        · intro w' hf hn hl
          rw [cont_ok, wp_pure]
          refine ⟨_, [], rfl, hf, by rw [hn]; exact Nat.le_succ _, fun a => ?_, Or.inl rfl, Or.inr ⟨rfl, bytes, hb, rfl⟩⟩
          have := hl a
          simp only [List.count_append, List.count_cons, List.count_nil, beq_iff_eq] at this ⊢
          omega

def Mmap.owned (m : Mmap) : List Res := [m.map, m.fd, m.filepath, m.self]

theorem fmunmap_wp (m : Mmap) (w : World) (L : List Res) (h : ∀ a, w.live.count a = m.owned.count a + L.count a) :
    wp (fmunmap m) (fun r w' => r = .ok () ∧ w'.files = w.files ∧ ∀ a, w'.live.count a = L.count a) w := by
  have hh : ∀ a, w.live.count a = (if m.map = a then 1 else 0) + (if m.fd = a then 1 else 0) +
      (if m.filepath = a then 1 else 0) + (if m.self = a then 1 else 0) + L.count a := by
    intro a
    rw [h a]
    simp only [Mmap.owned, List.count_cons, List.count_nil, beq_iff_eq]
    omega
  unfold fmunmap
  rw [wp_bind]
  refine wp_free ?_ fun w1 f1 _ l1 => ?_
  · rw [hh, if_pos rfl]; omega
  rw [cont_ok, wp_bind]
  refine wp_free ?_ fun w2 f2 _ l2 => ?_
  · have a1 := l1 m.fd
    rw [hh] at a1; simp only [if_true] at *; omega
  rw [cont_ok, wp_bind]
  refine wp_free ?_ fun w3 f3 _ l3 => ?_
  · have a1 := l1 m.filepath
    have a2 := l2 m.filepath
    rw [hh] at a1; simp only [if_true] at *; omega
  rw [cont_ok]
  refine wp_free ?_ fun w4 f4 _ l4 => ?_
  · have a1 := l1 m.self
    have a2 := l2 m.self
    have a3 := l3 m.self
    rw [hh] at a1; simp only [if_true] at *; omega
  refine ⟨rfl, by rw [f4, f3, f2, f1], fun a => ?_⟩
  have a1 := l1 a
  have a2 := l2 a
  have a3 := l3 a
  have a4 := l4 a
  rw [hh] at a1
  omega

def optList {α : Type} : Option α → List α
  | none => []
  | some a => [a]

theorem freeOpt_wp (r : Option Res) (w : World) (L : List Res)
    (h : ∀ a, w.live.count a = (optList r).count a + L.count a) :
    wp (freeOpt r) (fun x w' => x = .ok () ∧ w'.files = w.files ∧ ∀ a, w'.live.count a = L.count a) w := by
  unfold freeOpt
  cases r with
  | none =>
    dsimp only
    rw [wp_pure]
    exact ⟨rfl, rfl, fun a => by rw [h a]; simp [optList]⟩
  | some r =>
    dsimp only
    refine wp_free ?_ fun w1 f1 _ l1 => ⟨rfl, f1, fun a => ?_⟩
    · rw [h]; simp [optList]; omega
    · have a1 := l1 a
      rw [h a] at a1
      simp only [optList, List.count_cons, List.count_nil, beq_iff_eq] at a1
      omega

def Info.mapped (i : Info) : List Res :=
  match i.mmap with
  | none => []
  | some m => m.owned

/-- What `release_load_info` gives back. -/
def Info.owned (i : Info) : List Res :=
  i.mapped ++ (optList i.path ++ (optList i.buildId ++ optList i.ulpName))

/-- After `release_load_info`. -/
def Info.released (i : Info) : Info :=
  { i with mmap := none, path := none, buildId := none, ulpName := none }

theorem release_wp (i : Info) (w : World) (L : List Res)
    (h : ∀ a, w.live.count a = i.owned.count a + L.count a) :
    wp (releaseLoadInfo i) (fun r w' => r = .ok i.released ∧ w'.files = w.files ∧
      ∀ a, w'.live.count a = L.count a) w := by
  have key : ∀ w0 : World, (∀ a, w0.live.count a =
      (optList i.path ++ (optList i.buildId ++ optList i.ulpName)).count a + L.count a) →
      wp (do freeOpt i.path; freeOpt i.buildId; freeOpt i.ulpName
             pure { i with mmap := none, path := none, buildId := none, ulpName := none })
        (fun r w' => r = .ok i.released ∧ w'.files = w0.files ∧ ∀ a, w'.live.count a = L.count a) w0 := by
    intro w0 h0
    rw [wp_bind]
    refine wp_mono (freeOpt_wp _ w0 (optList i.buildId ++ (optList i.ulpName ++ L)) ?_) ?_
    · intro a; rw [h0 a]; simp only [List.count_append]; omega
    rintro _ w1 ⟨rfl, f1, l1⟩
    rw [cont_ok, wp_bind]
    refine wp_mono (freeOpt_wp _ w1 (optList i.ulpName ++ L) ?_) ?_
    · intro a; rw [l1 a]; simp only [List.count_append]
    rintro _ w2 ⟨rfl, f2, l2⟩
    rw [cont_ok, wp_bind]
    refine wp_mono (freeOpt_wp _ w2 L ?_) ?_
    · intro a; rw [l2 a]; simp only [List.count_append]
    rintro _ w3 ⟨rfl, f3, l3⟩
    rw [cont_ok, wp_pure]
    exact ⟨rfl, by rw [f3, f2, f1], l3⟩
  unfold releaseLoadInfo
  rw [wp_bind]
  unfold unmapOpt
  cases hm : i.mmap with
  | none =>
    dsimp only
    rw [wp_pure, cont_ok]
    apply key
    intro a
    rw [h a]
    simp [Info.owned, Info.mapped, hm]
  | some m =>
    dsimp only
    refine wp_mono (fmunmap_wp m w ((optList i.path ++ (optList i.buildId ++ optList i.ulpName)) ++ L) ?_) ?_
    · intro a
      rw [h a]
      simp only [Info.owned, Info.mapped, hm, List.count_append]
      omega
    rintro _ w1 ⟨rfl, f1, l1⟩
    rw [cont_ok]
    refine wp_mono (key w1 ?_) ?_
    · intro a; rw [l1 a, List.count_append]
    rintro _ w2 ⟨rfl, f2, l2⟩
    exact ⟨rfl, by rw [f2, f1], l2⟩

theorem released_owned (i : Info) : i.released.owned = [] := rfl

theorem mmapTail_wp (E : Env) (p : Path) (self fp fd : Res) (w : World) (L : List Res)
    (h : ∀ a, w.live.count a = L.count a + [fd, fp, self].count a) :
    wp (mmapTail E p self fp fd) (fun r w' => w'.files = w.files ∧
      ((r = .ok none ∧ Bad E ∧ ∃ l : List Res, ∀ a, w'.live.count a = L.count a + l.count a) ∨
       ∃ m, r = .ok (some m) ∧ m.path = p ∧ m.map = ⟨.map, w.next⟩ ∧
         ∀ a, w'.live.count a = L.count a + m.owned.count a)) w := by
  unfold mmapTail
  rw [wp_bind, wp_call, cont_ok]
  split
  · rename_i hbad
    rw [wp_bind]
    refine wp_free ?_ fun w1 f1 _ l1 => ?_
    · show 0 < w.live.count self
      rw [h]; simp only [List.count_cons, List.count_nil, beq_self_eq_true, if_true]; omega
    rw [cont_ok, wp_pure]
    refine ⟨f1, Or.inl ⟨rfl, ⟨_, hbad⟩, [fd, fp], fun a => ?_⟩⟩
    have a1 := l1 a
    have a2 := h a
    simp only [List.count_cons, List.count_nil, beq_iff_eq] at a1 a2 ⊢
    omega
  · rw [wp_bind, wp_alloc, cont_ok, wp_pure]
    refine ⟨rfl, Or.inr ⟨_, rfl, rfl, rfl, fun a => ?_⟩⟩
    have a2 := h a
    simp only [Mmap.owned, List.count_append, List.count_cons, List.count_nil, beq_iff_eq] at a2 ⊢
    omega

/-- The files are the same but for one. -/
def SameBut (p : Path) (w w' : World) : Prop := ∀ q, q ≠ p → w'.files q = w.files q

theorem update_ne (f : Path → Option (List Byte)) (p : Path) (c) (q : Path) (h : q ≠ p) :
    update f p c q = f q := if_neg h

theorem update_eq (f : Path → Option (List Byte)) (p : Path) (c) : update f p c p = c := if_pos rfl

theorem update_update (f : Path → Option (List Byte)) (p : Path) (c d) :
    update (update f p c) p d = update f p d := by
  funext q
  unfold update
  split <;> rfl

theorem update_self (f : Path → Option (List Byte)) (p : Path) : update f p (f p) = f := by
  funext q
  unfold update
  split
  · subst q; rfl
  · rfl

theorem fmmap_wp (E : Env) (p : Path) (size : BitVec 64) (w : World) :
    wp (fmmapShmemCreate E p size) (fun r w' => SameBut p w w' ∧
      ((r = .ok none ∧ (Bad E ∨ size = 0 ∨ size.msb = true) ∧ ∃ l, Grew w w' l) ∨
       ∃ m, r = .ok (some m) ∧ size.msb = false ∧ m.path = p ∧ m.map = ⟨.map, w.next + 3⟩ ∧
         w'.files = update w.files p (some (List.replicate size.toNat 0)) ∧ Grew w w' m.owned)) w := by
  unfold fmmapShmemCreate
  simp only [wp_bind, wp_alloc, cont_ok, wp_call]
  split
  · rename_i hbad
    rw [wp_bind]
    refine wp_free ?_ fun w1 f1 _ l1 => ?_
    · simp only [List.count_append, List.count_singleton_self]; omega
    rw [cont_ok, wp_pure]
    refine ⟨fun q _ => by rw [f1], Or.inl ⟨rfl, Or.inl ⟨_, hbad⟩, [⟨.heap, w.next + 1⟩], fun a => ?_⟩⟩
    have a1 := l1 a
    simp only [List.count_append, List.count_cons, List.count_nil, beq_iff_eq] at a1 ⊢
    omega
  · simp only [wp_bind, wp_alloc, cont_ok, wp_setFile]
    split
    · rename_i hz
      rw [wp_bind]
      refine wp_mono (fsize_wp _ _ _) ?_
      rintro _ w1 ⟨v, l, rfl, f1, -, g1, -, -⟩
      rw [cont_ok, wp_bind]
      refine wp_free ?_ fun w2 f2 _ l2 => ?_
      · rw [g1]
        simp only [List.count_append, List.count_singleton_self]; omega
      rw [cont_ok, wp_pure]
      refine ⟨fun q hq => ?_, Or.inl ⟨rfl, Or.inr (Or.inl hz), l ++ [⟨.heap, w.next + 1⟩, ⟨.fd, w.next + 1 + 1⟩], fun a => ?_⟩⟩
      · rw [f2, f1]; exact update_ne _ _ _ _ hq
      · have a1 := g1 a
        have a2 := l2 a
        simp only [List.count_append, List.count_cons, List.count_nil, beq_iff_eq] at a1 a2 ⊢
        omega
    · rw [wp_bind, wp_call, cont_ok]
      split
      · rename_i hbad
        rw [wp_pure]
        refine ⟨fun q hq => update_ne _ _ _ _ hq, Or.inl ⟨rfl, hbad.elim (fun h => Or.inl ⟨_, h⟩)
          (fun h => Or.inr (Or.inr h)), [⟨.heap, w.next⟩, ⟨.heap, w.next + 1⟩,
          ⟨.fd, w.next + 1 + 1⟩], fun a => ?_⟩⟩
        simp only [List.count_append, List.count_cons, List.count_nil, beq_iff_eq]
        omega
      · rename_i hc
        rw [wp_bind, wp_setFile, cont_ok]
        refine wp_mono (mmapTail_wp E p _ _ _ _ w.live ?_) ?_
        · intro a
          simp only [List.count_append, List.count_cons, List.count_nil, beq_iff_eq]
          omega
        rintro r w1 ⟨f1, h1⟩
        refine ⟨fun q hq => ?_, ?_⟩
        · rw [f1]
          show update (update w.files p _) p _ q = _
          rw [update_update, update_ne _ _ _ _ hq]
        rcases h1 with ⟨hr, hbad, l, hl⟩ | ⟨m, hr, hp, hmm, hl⟩
        · exact Or.inl ⟨hr, Or.inl hbad, l, hl⟩
        · refine Or.inr ⟨m, hr, ?_, hp, hmm, ?_, hl⟩
          · cases hb : size.msb
            · rfl
            · exact absurd (Or.inr hb) hc
          · rw [f1]
            exact update_update _ _ _ _

theorem minSize_wp (E : Env) (memLen : BitVec 32) (p : Path) (w : World) (c : List Byte)
    (hc : w.files p = some c) (hl : memLen = BitVec.ofNat 32 c.length) (hm : memLen.msb = false) :
    wp (minSize E memLen p) (fun r w' => w'.files = w.files ∧ ∃ v l, r = .ok v ∧ Grew w w' l ∧
      ((v = -1 ∧ Bad E) ∨ (v = memLen ∧ Leak E l))) w := by
  have hs : (-1 : BitVec 32).slt memLen = true := by
    have h1 : memLen.toInt = (memLen.toNat : Int) := by
      rw [BitVec.toInt_eq_msb_cond, hm]; simp
    rw [BitVec.slt, h1, show (-1 : BitVec 32).toInt = -1 from by decide]
    simp only [decide_eq_true_eq]
    omega
  unfold minSize
  rw [wp_bind]
  refine wp_mono (fsize_wp _ _ _) ?_
  rintro _ w1 ⟨v, l, rfl, f1, -, g1, k1, h1⟩
  rw [cont_ok]
  have hv : v = -1 ∨ (v = memLen ∧ l = []) := by
    rcases h1 with h | ⟨h, c', hc', hv⟩
    · exact Or.inl h.1
    · rw [hc] at hc'
      cases hc'
      exact Or.inr ⟨by rw [hv, hl], h⟩
  rcases hv with rfl | ⟨rfl, rfl⟩
  · rw [if_pos hs]
    refine wp_mono (fsize_wp _ _ _) ?_
    rintro _ w2 ⟨v2, l2, rfl, f2, -, g2, k2, h2⟩
    refine ⟨by rw [f2, f1], v2, l ++ l2, rfl, fun a => ?_, ?_⟩
    · rw [g2 a, g1 a, List.count_append]; omega
    · rcases h2 with ⟨h, hb | hb⟩ | ⟨h, c', hc', hv⟩
      · exact Or.inl ⟨h, hb⟩
      · rw [f1, hc] at hb
        cases hb
      · rw [f1, hc] at hc'
        cases hc'
        exact Or.inr ⟨by rw [hv, hl], by rw [h, List.append_nil]; exact k1⟩
  · have : v.slt v = false := by rw [BitVec.slt]; simp
    rw [this]
    simp only [Bool.false_eq_true, if_false]
    rw [wp_pure]
    exact ⟨f1, _, [], rfl, g1, Or.inr ⟨rfl, k1⟩⟩

theorem sext_nonneg (v : BitVec 32) (h : v.msb = false) : (v.signExtend 64).toNat = v.toNat := by
  rw [BitVec.signExtend_eq_setWidth_of_msb_false h, BitVec.toNat_setWidth]
  have := v.isLt
  omega

theorem sext_neg (v : BitVec 32) (h : v.msb = true) : ¬ v.signExtend 64 < 64 := by
  have h1 : (v.signExtend 64).msb = true := by
    rw [BitVec.msb_signExtend]
    simpa using h
  have h2 := BitVec.toNat_ge_of_msb_true h1
  rw [BitVec.lt_def]
  have : (64 : BitVec 64).toNat = 64 := rfl
  omega

theorem fmemcpy_wp (E : Env) (dst p : Path) (memLen : BitVec 32) (w : World) (c old : List Byte)
    (hc : w.files p = some c) (hl : memLen = BitVec.ofNat 32 c.length) (hm : memLen.msb = false)
    (h0 : memLen ≠ 0) (hsm : c.length < 2 ^ 63) (ho : w.files dst = some old)
    (hol : old.length = memLen.toNat) :
    wp (fmemcpy E dst memLen p) (fun r w' => ∃ l, Grew w w' l ∧
      ((r = .error .null ∧ Bad E ∧ w'.files = w.files) ∨ (r = .ok 0 ∧ Bad E ∧ w'.files = w.files) ∨
       (r = .ok memLen ∧ Leak E l ∧ w'.files = update w.files dst (some (c.take memLen.toNat))))) w := by
  unfold fmemcpy
  rw [wp_bind]
  refine wp_mono (minSize_wp E memLen p w c hc hl hm) ?_
  rintro _ w1 ⟨f1, v, l, rfl, g1, h1⟩
  simp only [wp_bind, wp_call, cont_ok, wp_readFile]
  rw [f1, hc]
  dsimp only
  split
  · rename_i hbad
    rw [wp_crash]
    exact ⟨l, g1, Or.inl ⟨rfl, ⟨_, hbad⟩, rfl⟩⟩
  · simp only [wp_bind, wp_alloc, cont_ok, wp_call]
    split
    · rename_i hn
      obtain ⟨-, hn0, hn⟩ := hn
      have hv : v = memLen ∧ Leak E l := by
        rcases h1 with ⟨rfl, -⟩ | h
        · exact absurd hn (by rw [show ((-1 : BitVec 32).signExtend 64).toNat = 2 ^ 64 - 1 from by decide]; omega)
        · exact h
      obtain ⟨rfl, hk⟩ := hv
      rw [sext_nonneg _ hm] at hn hn0 ⊢
      simp only [wp_bind, wp_readFile, cont_ok]
      rw [ho]
      dsimp only
      rw [if_neg (by omega)]
      simp only [wp_bind, wp_setFile, cont_ok]
      refine wp_free ?_ fun w2 f2 _ l2 => ?_
      · simp only [List.count_append, List.count_singleton_self]; omega
      rw [cont_ok, wp_bind]
      refine wp_free ?_ fun w3 f3 _ l3 => ?_
      · have a2 := l2 ⟨.fd, w1.next⟩
        simp only [List.count_append, List.count_cons, List.count_nil, beq_iff_eq, Res.mk.injEq,
          reduceCtorEq, false_and, if_false, if_true] at a2
        omega
      rw [cont_ok, wp_pure]
      refine ⟨l, fun a => ?_, Or.inr (Or.inr ⟨rfl, hk, ?_⟩)⟩
      · have a1 := g1 a
        have a2 := l2 a
        have a3 := l3 a
        simp only [List.count_append, List.count_cons, List.count_nil, beq_iff_eq] at a1 a2 a3 ⊢
        omega
      · rw [f3, f2]
        show update w.files dst _ = _
        rw [List.drop_eq_nil_of_le (by omega), List.append_nil]
    · rename_i hn
      have hbad : Bad E := by
        rcases h1 with ⟨-, h⟩ | ⟨rfl, -⟩
        · exact h
        · rw [sext_nonneg _ hm] at hn
          refine ⟨_, fun h => hn ⟨h, ?_, ?_⟩⟩
          · rcases Nat.eq_zero_or_pos v.toNat with h | h
            · exact absurd (BitVec.eq_of_toNat_eq (by simpa using h)) h0
            · exact h
          · rw [hl, BitVec.toNat_ofNat]
            exact Nat.mod_le _ _
      rw [wp_pure]
      refine ⟨l ++ [⟨.fd, w1.next⟩, ⟨.heap, w1.next + 1⟩], fun a => ?_, Or.inr (Or.inl ⟨rfl, hbad, rfl⟩)⟩
      have a1 := g1 a
      simp only [List.count_append, List.count_cons, List.count_nil, beq_iff_eq] at a1 ⊢
      omega

theorem magicOk_zero (n : Nat) (h : 4 ≤ n) (hn : n < 2 ^ 64) :
    Load.magicOk (List.replicate n 0) ≠ some true := by
  have hr : Load.rd (List.replicate n 0) 0 1 = some 0 := by
    unfold Load.rd
    rw [if_pos (by rw [List.length_replicate]; simp; omega)]
    obtain ⟨k, rfl⟩ : ∃ k, n = k + 1 := ⟨n - 1, by omega⟩
    rfl
  unfold Load.magicOk
  rw [hr]
  split
  · rename_i h0 _ _ _
    cases h0
    simp
  · simp

theorem image_wp (m : Mmap) (w : World) (c : List Byte) (hm : 0 < w.live.count m.map)
    (hc : w.files m.path = some c) (Q) : wp (image m) Q w ↔ Q (.ok c) w := by
  unfold wp image
  rw [if_pos (List.count_pos_iff.mp hm), hc]

theorem image_gone (m : Mmap) (w : World) (hm : w.live.count m.map = 0) (Q) :
    wp (image m) Q w ↔ Q (.error .dangling) w := by
  unfold wp image
  rw [if_neg (fun h => by have := List.count_pos_iff.mpr h; omega)]

theorem checkHeader_wp (i : Info) (m : Mmap) (w : World) (c : List Byte) (L : List Res)
    (hi : i.mmap = some m) (hc : w.files m.path = some c)
    (hl : ∀ a, w.live.count a = i.owned.count a + L.count a) :
    wp (checkHeader i m) (fun r w' => w'.files = w.files ∧
      ((r = .error .fault ∧ w' = w ∧ (Load.magicOk c = none ∨ Load.chkLen c = none)) ∨
       (∀ a, w'.live.count a = L.count a) ∧ r = .ok (Load.ENOENT, i.released) ∧
         Load.magicOk c = some false ∨
       (∀ a, w'.live.count a = L.count a) ∧ r = .ok (0, i.released) ∧ Load.magicOk c = some true ∧
         Load.chkLen c = some false ∨
       w' = w ∧ r = .ok (0, i) ∧ Load.magicOk c = some true ∧ Load.chkLen c = some true)) w := by
  unfold checkHeader
  rw [wp_bind, image_wp m w c ?_ hc, cont_ok]
  · split
    · rename_i h
      rw [wp_crash]
      exact ⟨rfl, Or.inl ⟨rfl, rfl, Or.inl h⟩⟩
    · rename_i hmag
      rw [wp_bind]
      refine wp_mono (release_wp i w L hl) ?_
      rintro _ w1 ⟨rfl, f1, l1⟩
      rw [cont_ok, wp_pure]
      exact ⟨f1, Or.inr (Or.inl ⟨l1, rfl, hmag⟩)⟩
    · rename_i hmag
      split
      · rename_i h
        rw [wp_crash]
        exact ⟨rfl, Or.inl ⟨rfl, rfl, Or.inr h⟩⟩
      · rename_i h
        rw [wp_bind]
        refine wp_mono (release_wp i w L hl) ?_
        rintro _ w1 ⟨rfl, f1, l1⟩
        rw [cont_ok, wp_pure]
        exact ⟨f1, Or.inr (Or.inr (Or.inl ⟨l1, rfl, hmag, h⟩))⟩
      · rename_i h
        rw [wp_pure]
        exact ⟨rfl, Or.inr (Or.inr (Or.inr ⟨rfl, rfl, hmag, h⟩))⟩
  · rw [hl]
    simp only [Info.owned, Info.mapped, hi, Mmap.owned, List.count_append, List.count_cons, beq_self_eq_true, if_true]
    omega

theorem rd_some (img : List Byte) (off : BitVec 64) (n : Nat) (h : off.toNat + n ≤ img.length) :
    ∃ v, Load.rd img off n = some v := ⟨_, if_pos h⟩

theorem header_reads (img : List Byte) (h : 64 ≤ img.length) :
    Load.magicOk img ≠ none ∧ Load.chkLen img ≠ none := by
  obtain ⟨a, ha⟩ := rd_some img 0 1 (by simp; omega)
  obtain ⟨b, hb⟩ := rd_some img 1 1 (by simp; omega)
  obtain ⟨c, hc⟩ := rd_some img 2 1 (by simp; omega)
  obtain ⟨d, hd⟩ := rd_some img 3 1 (by simp; omega)
  obtain ⟨o, ho⟩ := rd_some img 40 8 (by simp; omega)
  obtain ⟨n, hn⟩ := rd_some img 60 2 (by simp; omega)
  constructor
  · unfold Load.magicOk
    rw [ha, hb, hc, hd]
    simp
  · unfold Load.chkLen Load.shoff Load.shnum
    rw [ho, hn]
    dsimp only
    split <;> simp

/-- Why a file is refused before it is read: a call failed, it is not there, its size is not
one of an ELF file below 2 GiB, it is the copy itself or not an ELF file. -/
def Refusable (E : Env) (from_ ulp : Path) (w : World) : Prop :=
  Bad E ∨ ∀ c, w.files from_ = some c → c.length % 2 ^ 32 < 64 ∨ 2 ^ 31 ≤ c.length % 2 ^ 32 ∨
    from_ = ulp ∨ Load.magicOk (c.take (c.length % 2 ^ 32)) = some false

/-- What `alloc_patch_file` can end with. -/
inductive AllocPost (E : Env) (from_ ulp : Path) (w : World) : Except Crash (Int × Info) → World → Prop
  | crash (w' : World) (l : List Res) (hb : Bad E) (hf : SameBut ulp w w') (hl : Grew w w' l) :
      AllocPost E from_ ulp w (.error .null) w'
  | fail (w' : World) (l : List Res) (e : Int) (i : Info) (he : e ≠ 0)
      (hb : Refusable E from_ ulp w) (hf : SameBut ulp w w')
      (hl : Grew w w' l) : AllocPost E from_ ulp w (.ok (e, i)) w'
  | gone (w' : World) (l : List Res) (i : Info) (m : Mmap) (c : List Byte) (hf : SameBut ulp w w')
      (hl : Grew w w' l) (hk : Leak E l) (hh : i.hdr = some m) (hp : i.path = none)
      (ho : i.owned = []) (hm : m.map.kind = .map ∧ w.next ≤ m.map.id)
      (hc : w.files from_ = some c) (hne : from_ ≠ ulp)
      (hmag : Load.magicOk (c.take (c.length % 2 ^ 32)) = some true)
      (hchk : Load.chkLen (c.take (c.length % 2 ^ 32)) = some false) :
      AllocPost E from_ ulp w (.ok (0, i)) w'
  | good (w' : World) (l : List Res) (i : Info) (m : Mmap) (c : List Byte) (name path : Res)
      (hl : Grew w w' (i.owned ++ l)) (hk : Leak E l)
      (hi : i = { ulpName := some name, path := some path, mmap := some m, hdr := some m, len := i.len })
      (hp : m.path = ulp) (hc : w.files from_ = some c) (hne : from_ ≠ ulp)
      (hf : w'.files = update w.files ulp (some (c.take (c.length % 2 ^ 32))))
      (hmag : Load.magicOk (c.take (c.length % 2 ^ 32)) = some true)
      (hchk : Load.chkLen (c.take (c.length % 2 ^ 32)) = some true) :
      AllocPost E from_ ulp w (.ok (0, i)) w'

theorem allocPatchFile_wp (E : Env) (from_ ulp : Path) (w : World)
    (hsm : ∀ c, w.files from_ = some c → c.length < 2 ^ 63) :
    wp (allocPatchFile E from_ ulp) (AllocPost E from_ ulp w) w := by
  unfold allocPatchFile
  rw [wp_bind, wp_fexist, cont_ok]
  cases hc : w.files from_ with
  | none =>
    simp only [Option.isSome_none, if_true]
    rw [wp_pure]
    exact .fail w [] _ _ (by decide) (Or.inr fun c h => by rw [hc] at h; cases h) (fun _ _ => rfl)
      (fun a => by simp)
  | some c =>
    have hcl := hsm c hc
    simp only [Option.isSome_some, Bool.true_eq_false, if_false, wp_bind, wp_alloc, cont_ok]
    refine wp_mono (fsize_wp _ _ _) ?_
    rintro _ w1 ⟨v, l, rfl, f1, n1, g1, k1, h1⟩
    have g1' : Grew w w1 (⟨.heap, w.next⟩ :: ⟨.heap, w.next + 1⟩ :: l) := by
      intro a
      rw [g1 a]
      simp only [List.count_append, List.count_cons, List.count_nil]
      omega
    have hv' : Bad E ∨ v = BitVec.ofNat 32 c.length := by
      rcases h1 with ⟨-, h | h⟩ | ⟨-, c', h, hv⟩
      · exact Or.inl h
      · exact absurd (h.symm.trans hc) (by simp)
      · have : w.files from_ = some c' := h
        rw [hc] at this
        cases this
        exact Or.inr hv
    rw [cont_ok]
    split
    · rename_i hlen
      rw [wp_pure]
      refine .fail w1 _ _ _ (by decide) ?_ (fun q _ => by rw [f1]) g1'
      refine hv'.elim Or.inl fun hv => Or.inr fun c' h => Or.inl ?_
      rw [hc] at h
      cases h
      rw [← BitVec.toNat_ofNat, ← hv]
      rcases hb : v.msb with _ | _
      · rw [BitVec.lt_def, sext_nonneg v hb] at hlen
        exact hlen
      · exact absurd hlen (sext_neg v hb)
    · rename_i hlen
      rw [wp_bind]
      refine wp_mono (fmmap_wp _ _ _ _) ?_
      rintro r w2 ⟨s2, h2⟩
      have s2' : SameBut ulp w w2 := fun q hq => by rw [s2 q hq, f1]
      rcases h2 with ⟨rfl, hbad, l2, g2⟩ | ⟨m, rfl, hmsb, hp, hmm, f2, g2⟩
      · rw [cont_ok]
        dsimp only
        rw [wp_pure]
        refine .fail w2 (⟨.heap, w.next⟩ :: ⟨.heap, w.next + 1⟩ :: (l ++ l2)) _ _ (by decide) ?_ s2' ?_
        · rcases hbad with h | h | h
          · exact Or.inl h
          · rw [h] at hlen
            exact absurd (by decide) hlen
          · refine hv'.elim Or.inl fun hv => Or.inr fun c' hc' => Or.inr (Or.inl ?_)
            rw [hc] at hc'
            cases hc'
            rw [BitVec.msb_signExtend] at h
            have := BitVec.toNat_ge_of_msb_true (x := v) (by simpa using h)
            rw [hv, BitVec.toNat_ofNat] at this
            exact this
        intro a
        rw [g2 a, g1' a]
        simp only [List.count_append, List.count_cons]
        omega
      · rw [cont_ok]
        dsimp only
        have hvm : v.msb = false := by
          rw [BitVec.msb_signExtend] at hmsb
          simpa using hmsb
        have hv1 : v ≠ -1 := by
          rintro rfl
          exact absurd hvm (by decide)
        rcases h1 with ⟨h1, -⟩ | ⟨rfl, c', hc', hv⟩
        · exact absurd h1 hv1
        have : c' = c := by
          have : w.files from_ = some c' := hc'
          rw [hc] at this
          cases this
          rfl
        subst this
        have hvn : v.toNat = c'.length % 2 ^ 32 := by rw [hv, BitVec.toNat_ofNat]
        have hsx : (v.signExtend 64).toNat = v.toNat := sext_nonneg v hvm
        have hlen64 : 64 ≤ v.toNat := by
          have := BitVec.not_lt.mp hlen
          rw [BitVec.le_def, hsx] at this
          exact this
        have hsw : (v.signExtend 64).setWidth 32 = v := by
          apply BitVec.eq_of_toNat_eq
          rw [BitVec.toNat_setWidth, hsx]
          have := v.isLt
          omega
        rw [hsw, wp_bind]
        -- the contents of the source once the copy is made
        obtain ⟨c1, hc1, hc1l, hc1s, hc1e⟩ : ∃ c1, w2.files from_ = some c1 ∧
            v = BitVec.ofNat 32 c1.length ∧ c1.length < 2 ^ 63 ∧
            (from_ ≠ ulp ∧ c1 = c' ∨ from_ = ulp ∧ c1 = List.replicate v.toNat 0) := by
          rw [f2]
          by_cases e : from_ = ulp
          · subst e
            refine ⟨_, update_eq _ _ _, ?_, ?_, Or.inr ⟨rfl, by rw [hsx]⟩⟩
            · rw [List.length_replicate, hsx]
              apply BitVec.eq_of_toNat_eq
              rw [BitVec.toNat_ofNat]
              have := v.isLt
              omega
            · rw [List.length_replicate, hsx]
              have := v.isLt
              omega
          · refine ⟨c', ?_, hv, hcl, Or.inl ⟨e, rfl⟩⟩
            rw [update_ne _ _ _ _ e, f1]
            exact hc
        have ho : w2.files ulp = some (List.replicate v.toNat 0) := by
          rw [f2, update_eq, hsx]
        refine wp_mono (fmemcpy_wp E ulp from_ v w2 c1 _ hc1 hc1l hvm ?_ hc1s ho (by simp)) ?_
        · rintro rfl
          simp at hlen64
        have G : ∀ w3 l3, Grew w2 w3 l3 →
            Grew w w3 (⟨.heap, w.next⟩ :: ⟨.heap, w.next + 1⟩ :: (m.owned ++ l3)) := by
          intro w3 l3 g3 a
          rw [g3 a, g2 a, g1' a]
          simp only [List.count_append, List.count_cons, List.count_nil]
          omega
        rintro r w3 ⟨l3, g3, h3⟩
        rcases h3 with ⟨rfl, hbad, f3⟩ | ⟨rfl, hbad, f3⟩ | ⟨rfl, k3, f3⟩
        · rw [cont_error]
          exact .crash w3 _ hbad (fun q hq => by rw [f3, s2' q hq]) (G w3 l3 g3)
        · rw [cont_ok, if_pos, wp_pure]
          · exact .fail w3 _ _ _ (by decide) (Or.inl hbad) (fun q hq => by rw [f3, s2' q hq]) (G w3 l3 g3)
          · intro h
            have := congrArg BitVec.toNat h
            rw [hsx] at this
            simp at this
            omega
        · rw [cont_ok, if_neg (by simp)]
          have f3' : w3.files = update w.files ulp (some (c1.take v.toNat)) := by
            rw [f3, f2, update_update, f1]
          have s3 : SameBut ulp w w3 := fun q hq => by rw [f3', update_ne _ _ _ _ hq]
          have hm3 : w3.files m.path = some (c1.take v.toNat) := by rw [hp, f3', update_eq]
          have hc1len : v.toNat ≤ c1.length := by
            have := congrArg BitVec.toNat hc1l
            rw [BitVec.toNat_ofNat] at this
            have := Nat.mod_le c1.length (2 ^ 32)
            omega
          refine wp_mono (checkHeader_wp _ m w3 _ (w.live ++ l3) rfl hm3 ?_) ?_
          · intro a
            rw [G w3 l3 g3 a]
            simp only [Info.owned, Info.mapped, optList, List.count_append, List.count_cons, List.count_nil]
            omega
          have hdr := header_reads (c1.take v.toNat) (by rw [List.length_take]; omega)
          have hne : Load.magicOk (c1.take v.toNat) = some true → from_ ≠ ulp ∧ c1 = c' := by
            intro hmag
            rcases hc1e with h | ⟨-, h⟩
            · exact h
            · exfalso
              rw [h, List.take_of_length_le (by simp)] at hmag
              exact magicOk_zero v.toNat (by omega) (by have := v.isLt; omega) hmag
          rintro r w4 ⟨f4, h4⟩
          rcases h4 with ⟨-, -, h | h⟩ | ⟨l4, rfl, hmag⟩ | ⟨l4, rfl, hmag, hchk⟩ | ⟨rfl, rfl, hmag, hchk⟩
          · exact absurd h hdr.1
          · exact absurd h hdr.2
          · refine .fail w4 l3 _ _ (by decide) ?_ (fun q hq => by rw [f4, s3 q hq]) ?_
            · refine Or.inr fun c2 h2 => ?_
              rw [hc] at h2
              cases h2
              rcases hc1e with ⟨-, rfl⟩ | ⟨h, -⟩
              · rw [hvn] at hmag
                exact Or.inr (Or.inr (Or.inr hmag))
              · exact Or.inr (Or.inr (Or.inl h))
            intro a
            rw [l4 a, List.count_append]
          · obtain ⟨hne', rfl⟩ := hne hmag
            rw [hvn] at hmag hchk
            refine .gone w4 l3 _ m c1 (fun q hq => by rw [f4, s3 q hq]) ?_ k3 rfl rfl rfl ?_ hc hne' hmag hchk
            · intro a
              rw [l4 a, List.count_append]
            · rw [hmm]
              refine ⟨rfl, ?_⟩
              have : w.next + 1 + 1 ≤ w1.next := n1
              show w.next ≤ w1.next + 3
              omega
          · obtain ⟨hne', rfl⟩ := hne hmag
            rw [hvn] at hmag hchk f3'
            refine .good w4 l3 _ m c1 ⟨.heap, w.next⟩ ⟨.heap, w.next + 1⟩ ?_ k3 rfl hp hc hne' f3' hmag hchk
            intro a
            rw [G w4 l3 g3 a]
            simp only [Info.owned, Info.mapped, optList, List.count_append, List.count_cons, List.count_nil]
            omega

theorem setup_wp (E : Env) (i : Info) (m : Mmap) (w : World) (img : List Byte) (hh : i.hdr = some m)
    (hb : i.buildId = none) (hm : 0 < w.live.count m.map) (hc : w.files m.path = some img) :
    wp (setup E i) (fun r w' => w'.files = w.files ∧ ∃ b, Grew w w' (optList b) ∧
      ((r = .error .fault ∧ Load.setupLoadInfo img = none) ∨
       (∃ e, r = .ok (.error e, { i with buildId := b }) ∧ Load.setupLoadInfo img = some (.error e)) ∨
       ∃ li, r = .ok (.ok (img, li), { i with buildId := b }) ∧ Load.setupLoadInfo img = some (.ok li))) w := by
  have g0 : ∀ w1 : World, w1.live = w.live → Grew w w1 (optList none) := by
    intro w1 h a
    rw [h]
    simp [optList]
  have i0 : { i with buildId := none } = i := by
    cases i
    simp only [Info.mk.injEq, and_self, and_true, true_and]
    exact hb.symm
  rw [hh] at i0
  unfold setup
  rw [hh]
  dsimp only
  rw [wp_bind, image_wp m w img hm hc, cont_ok]
  split
  · rename_i he
    rw [wp_crash]
    exact ⟨rfl, none, g0 _ rfl, Or.inl ⟨rfl, he⟩⟩
  · rename_i e he
    rw [wp_bind, wp_call, cont_ok]
    split
    · rw [wp_bind, wp_alloc, cont_ok, wp_pure]
      refine ⟨rfl, some _, fun a => ?_, Or.inr (Or.inl ⟨e, rfl, he⟩)⟩
      simp only [optList, List.count_append]
    · rw [wp_pure]
      exact ⟨rfl, none, g0 _ rfl, Or.inr (Or.inl ⟨e, by rw [i0], he⟩)⟩
  · rename_i li he
    split
    · rw [wp_pure]
      exact ⟨rfl, none, g0 _ rfl, Or.inr (Or.inr ⟨li, by rw [i0], he⟩)⟩
    · rw [wp_bind, wp_alloc, cont_ok, wp_pure]
      refine ⟨rfl, some _, fun a => ?_, Or.inr (Or.inr ⟨li, rfl, he⟩)⟩
      simp only [optList, List.count_append]

theorem setup_gone (E : Env) (i : Info) (m : Mmap) (w : World) (hh : i.hdr = some m)
    (hm : w.live.count m.map = 0) (Q) : wp (setup E i) Q w ↔ Q (.error .dangling) w := by
  unfold setup
  rw [hh]
  dsimp only
  rw [wp_bind, image_gone m w hm, cont_error]

/-- What the process holds has names below the next one. -/
def Fresh (w : World) : Prop := ∀ r ∈ w.live, r.id < w.next

theorem gone_count {E : Env} {w w' : World} {l : List Res} {m : Mmap} (hw : Fresh w)
    (hl : Grew w w' l) (hk : Leak E l) (hm : m.map.kind = .map ∧ w.next ≤ m.map.id) :
    w'.live.count m.map = 0 := by
  rw [hl]
  have h1 : w.live.count m.map = 0 := by
    rw [List.count_eq_zero]
    intro h
    have := hw _ h
    omega
  have h2 : l.count m.map = 0 := by
    rcases hk with rfl | ⟨d, n, rfl, -⟩
    · rfl
    · rw [List.count_eq_zero]
      intro h
      rw [List.mem_singleton] at h
      rw [h] at hm
      cases hm.1
  omega

/-- The contents of a file as it is copied. -/
def Copied (file : Path) (w : World) (img : List Byte) : Prop :=
  ∃ c, w.files file = some c ∧ img = c.take (c.length % 2 ^ 32)

/-- The section header table or something `setup_load_info` or printing reads is outside of the
file. -/
def Unusable (file : Path) (w : World) : Prop :=
  ∀ img, Copied file w img → Load.chkLen img = some false ∨ Load.setupLoadInfo img = none ∨
    ∃ li, Load.setupLoadInfo img = some (.ok li) ∧ render file img li = none

/-- `setup_load_info` refuses the file. -/
def NotSetUp (file : Path) (w : World) : Prop :=
  ∀ img, Copied file w img → ∃ e, Load.setupLoadInfo img = some (.error e)

/-- What `ulpinfo --patch` can end with. -/
inductive ShowPost (E : Env) (file : Path) (w : World) : Except Crash (Int × Option Printed) → World → Prop
  | crash (w' : World) (l : List Res) (c : Crash) (hc : c ≠ .doubleFree ∧ c ≠ .overflow)
      (hb : Bad E ∨ Unusable file w)
      (hf : SameBut tempUlp w w') (hl : Grew w w' l) : ShowPost E file w (.error c) w'
  | fail (w' : World) (l : List Res) (e : Int) (he : e ≠ 0)
      (hb : Refusable E file tempUlp w ∨ NotSetUp file w)
      (hf : SameBut tempUlp w w') (hl : Grew w w' l) :
      ShowPost E file w (.ok (e, none)) w'
  | good (w' : World) (l : List Res) (c : List Byte) (li : Load.Info) (out : Printed)
      (hf : w'.files = update w.files tempUlp none) (hl : Grew w w' l) (hk : Leak E l)
      (hc : w.files file = some c) (hne : file ≠ tempUlp)
      (hs : Load.setupLoadInfo (c.take (c.length % 2 ^ 32)) = some (.ok li))
      (hr : render file (c.take (c.length % 2 ^ 32)) li = some out) :
      ShowPost E file w (.ok (0, some out)) w'

theorem owned_count (i : Info) (name path : Res) (m : Mmap) (b : Option Res)
    (hi : i = { ulpName := some name, path := some path, mmap := some m, hdr := some m, len := i.len })
    (a : Res) : ({ i with buildId := b } : Info).owned.count a = i.owned.count a + (optList b).count a := by
  rw [hi]
  simp only [Info.owned, Info.mapped, optList, List.count_append, List.count_nil]
  omega

theorem owned_map (i : Info) (m : Mmap) (h : i.mmap = some m) : 0 < i.owned.count m.map := by
  simp only [Info.owned, Info.mapped, h, Mmap.owned, List.count_append, List.count_cons, beq_self_eq_true, if_true]
  omega

theorem showFile_wp (E : Env) (file : Path) (w : World) (hw : Fresh w)
    (hsm : ∀ c, w.files file = some c → c.length < 2 ^ 63)
    (hse : ∀ img e, Load.setupLoadInfo img = some (.error e) → e ≠ 0) :
    wp (showFile E file) (ShowPost E file w) w := by
  unfold showFile
  rw [wp_bind, wp_fexist, cont_ok]
  split
  · rename_i hn
    rw [wp_pure]
    refine .fail w [] 1 (by decide) (Or.inl (Or.inr fun c hc => ?_)) (fun _ _ => rfl) (fun a => by simp)
    rw [hc] at hn
    cases hn
  rw [wp_bind]
  refine wp_mono (allocPatchFile_wp E file tempUlp w hsm) ?_
  rintro r w1 h1
  cases h1 with
  | crash _ l hb hf hl =>
    rw [cont_error]
    exact .crash w1 l _ (by decide) (Or.inl hb) hf hl
  | fail _ l e i he hb hf hl =>
    rw [cont_ok, if_pos he, wp_pure]
    exact .fail w1 l e he (Or.inl hb) hf hl
  | gone _ l i m c hf hl hk hh hp ho hm hc hne hmag hchk =>
    rw [cont_ok, if_neg (by simp), wp_bind, setup_gone E i m w1 hh (gone_count hw hl hk hm), cont_error]
    refine .crash w1 l _ (by decide) (Or.inr ?_) hf hl
    rintro img ⟨c', hc', rfl⟩
    rw [hc] at hc'
    cases hc'
    exact Or.inl hchk
  | good _ l i m c name path hl hk hi hp hc hne hf hmag hchk =>
    have hmap : i.mmap = some m := by rw [hi]
    have s1 : SameBut tempUlp w w1 := fun q hq => by rw [hf, update_ne _ _ _ _ hq]
    rw [cont_ok, if_neg (by simp), wp_bind]
    refine wp_mono (setup_wp E i m w1 (c.take (c.length % 2 ^ 32)) (by rw [hi]) (by rw [hi]) ?_ ?_) ?_
    · rw [hl, List.count_append]
      have := owned_map i m hmap
      omega
    · rw [hp, hf, update_eq]
    rintro r w2 ⟨f2, b, g2, h2⟩
    have s2 : SameBut tempUlp w w2 := fun q hq => by rw [f2, s1 q hq]
    have G2 : Grew w w2 (i.owned ++ l ++ optList b) := fun a => by
      rw [g2 a, hl a]; simp only [List.count_append]; omega
    have copy : ∀ img, Copied file w img → img = c.take (c.length % 2 ^ 32) := by
      rintro img ⟨c', hc', rfl⟩
      rw [hc] at hc'
      cases hc'
      rfl
    rcases h2 with ⟨rfl, he⟩ | ⟨e, rfl, he⟩ | ⟨li, rfl, he⟩
    · rw [cont_error]
      exact .crash w2 _ _ (by decide) (Or.inr fun img hi => Or.inr (Or.inl (by rw [copy img hi]; exact he))) s2 G2
    · rw [cont_ok]
      dsimp only
      rw [wp_pure]
      exact .fail w2 _ e (hse _ _ he) (Or.inr fun img hi => ⟨e, by rw [copy img hi]; exact he⟩) s2 G2
    · rw [cont_ok]
      dsimp only
      split
      · rename_i hout
        rw [wp_crash]
        exact .crash w2 _ _ (by decide) (Or.inr fun img hi => Or.inr (Or.inr
          ⟨li, by rw [copy img hi]; exact he, by rw [copy img hi]; exact hout⟩)) s2 G2
      · rename_i out hout
        rw [wp_bind]
        refine wp_mono (release_wp _ w2 (w.live ++ l) ?_) ?_
        · intro a
          rw [G2 a, owned_count i name path m b hi a]
          simp only [List.count_append]
          omega
        rintro _ w3 ⟨rfl, f3, l3⟩
        rw [cont_ok, wp_bind]
        refine wp_fremove _ _ _ fun w4 f4 l4 => ?_
        rw [cont_ok, wp_pure]
        refine .good w4 l c li out ?_ ?_ hk hc hne he hout
        · rw [f4, f3, f2, hf, update_update]
        · intro a
          rw [l4, l3 a, List.count_append]

/-- The section header table or something `setup_load_info` reads is outside of the file. -/
def Unloadable (file : Path) (w : World) : Prop :=
  ∀ img, Copied file w img → Load.chkLen img = some false ∨ Load.setupLoadInfo img = none

/-- What `init_patch` can end with. -/
inductive InitPost (E : Env) (from_ ulp : Path) (w : World) : Except Crash Int → World → Prop
  | crash (w' : World) (l : List Res) (c : Crash) (hc : c = .null ∨ c = .fault)
      (hb : Bad E ∨ Unloadable from_ w) (hf : SameBut ulp w w') (hl : Grew w w' l) : InitPost E from_ ulp w (.error c) w'
  | fail (w' : World) (l : List Res) (e : Int) (he : e ≠ 0)
      (hb : Refusable E from_ ulp w ∨ NotSetUp from_ w) (hf : w'.files = update w.files ulp none) (hl : Grew w w' l) : InitPost E from_ ulp w (.ok e) w'
  | good (w' : World) (l : List Res) (c : List Byte) (li : Load.Info)
      (hc : w.files from_ = some c) (hne : from_ ≠ ulp)
      (hs : Load.setupLoadInfo (c.take (c.length % 2 ^ 32)) = some (.ok li))
      (hf : w'.files = update w.files ulp (some (E.linked (c.take (c.length % 2 ^ 32)))))
      (hl : Grew w w' l) (hk : Leak E l) : InitPost E from_ ulp w (.ok 0) w'

theorem errExit_wp (E : Env) (from_ ulp : Path) (e : Int) (he : e ≠ 0) (w w1 : World) (l : List Res)
    (hb : Refusable E from_ ulp w ∨ NotSetUp from_ w) (hf : SameBut ulp w w1) (hl : Grew w w1 l) :
    wp (errExit ulp e) (InitPost E from_ ulp w) w1 := by
  have key : update w1.files ulp none = update w.files ulp none := by
    funext q
    unfold update
    split
    · rfl
    · rename_i hq
      exact hf q hq
  unfold errExit
  rw [wp_bind, wp_fexist, cont_ok]
  split
  · rw [wp_bind]
    refine wp_fremove _ _ _ fun w2 f2 l2 => ?_
    rw [cont_ok, wp_pure]
    exact .fail w2 l e he hb (by rw [f2, key]) (fun a => by rw [l2]; exact hl a)
  · rename_i h
    rw [wp_pure]
    refine .fail w1 l e he hb ?_ hl
    rw [← key]
    have : w1.files ulp = none := by
      revert h
      cases w1.files ulp <;> simp
    rw [← this, update_self]

theorem initPatch_wp (E : Env) (from_ ulp : Path) (w : World)
    (hsm : ∀ c, w.files from_ = some c → c.length < 2 ^ 63)
    (hse : ∀ img e, Load.setupLoadInfo img = some (.error e) → e ≠ 0) :
    wp (initPatch E true from_ ulp) (InitPost E from_ ulp w) w := by
  unfold initPatch
  rw [if_neg (by simp), wp_bind]
  refine wp_mono (allocPatchFile_wp E from_ ulp w hsm) ?_
  rintro r w1 h1
  cases h1 with
  | crash _ l hb hf hl =>
    rw [cont_error]
    exact .crash w1 l _ (Or.inl rfl) (Or.inl hb) hf hl
  | fail _ l e i he hb hf hl =>
    rw [cont_ok, if_pos he]
    exact errExit_wp E from_ ulp e he w w1 l (Or.inl hb) hf hl
  | gone _ l i m c hf hl hk hh hp ho hm hc hne hmag hchk =>
    rw [cont_ok, if_neg (by simp), wp_bind, wp_call, cont_ok]
    split
    · rename_i he
      exact errExit_wp E from_ ulp _ he w _ l (Or.inl (Or.inl ⟨_, he⟩)) hf hl
    · rw [wp_bind]
      unfold createMmap
      rw [wp_bind, wp_call, cont_ok]
      split
      · rename_i he
        rw [wp_pure, cont_ok, if_pos he, wp_bind]
        refine wp_mono (release_wp i _ (w.live ++ l) ?_) ?_
        · intro a
          rw [ho]
          show w1.live.count a = _
          rw [hl a, List.count_append]
          simp
        rintro _ w2 ⟨rfl, f2, l2⟩
        rw [cont_ok]
        exact errExit_wp E from_ ulp _ he w w2 l (Or.inl (Or.inl ⟨_, he⟩)) (fun q hq => by rw [f2]; exact hf q hq)
          (fun a => by rw [l2 a, List.count_append])
      · rw [hp]
        dsimp only
        rw [wp_crash, cont_error]
        refine .crash _ l _ (Or.inl rfl) (Or.inr ?_) hf hl
        rintro img ⟨c', hc', rfl⟩
        rw [hc] at hc'
        cases hc'
        exact Or.inl hchk
  | good _ l i m c name path hl hk hi hp hc hne hf hmag hchk =>
    have hmap : i.mmap = some m := by rw [hi]
    have s1 : SameBut ulp w w1 := fun q hq => by rw [hf, update_ne _ _ _ _ hq]
    rw [cont_ok, if_neg (by simp), wp_bind, wp_call, cont_ok]
    split
    · rename_i he
      exact errExit_wp E from_ ulp _ he w _ _ (Or.inl (Or.inl ⟨_, he⟩)) s1 hl
    · have rel : ∀ (w2 : World) (e : Int), e ≠ 0 → Bad E → w2.files = w1.files → w2.live = w1.live →
          wp (do let _ ← releaseLoadInfo i; errExit ulp e) (InitPost E from_ ulp w) w2 := by
        intro w2 e he hb f2 l2
        rw [wp_bind]
        refine wp_mono (release_wp i _ (w.live ++ l) ?_) ?_
        · intro a
          rw [l2, hl a]
          simp only [List.count_append]
          omega
        rintro _ w3 ⟨rfl, f3, l3⟩
        rw [cont_ok]
        exact errExit_wp E from_ ulp _ he w w3 l (Or.inl (Or.inl hb)) (fun q hq => by rw [f3, f2]; exact s1 q hq)
          (fun a => by rw [l3 a, List.count_append])
      have hpath : i.path = some path := by rw [hi]
      rw [wp_bind]
      unfold createMmap
      rw [wp_bind, wp_call, cont_ok]
      split
      · rename_i he
        rw [wp_pure, cont_ok, if_pos he]
        exact rel _ _ he ⟨_, he⟩ rfl rfl
      · rw [hpath]
        dsimp only
        rw [wp_call, cont_ok]
        split
        · rename_i he
          exact rel _ _ he ⟨_, he⟩ rfl rfl
        · rw [wp_bind]
          unfold loadPatch
          rw [wp_bind]
          refine wp_mono (setup_wp E i m _ (c.take (c.length % 2 ^ 32)) (by rw [hi]) (by rw [hi]) ?_ ?_) ?_
          · show 0 < w1.live.count m.map
            rw [hl, List.count_append]
            have := owned_map i m hmap
            omega
          · rw [hp]
            show w1.files ulp = _
            rw [hf, update_eq]
          rintro r w2 ⟨f2, b, g2, h2⟩
          have s2 : SameBut ulp w w2 := fun q hq => by rw [f2]; exact s1 q hq
          have G2 : Grew w w2 (i.owned ++ l ++ optList b) := fun a => by
            rw [g2 a]
            show w1.live.count a + _ = _
            rw [hl a]
            simp only [List.count_append]
            omega
          have F2 : ∀ a, w2.live.count a = ({ i with buildId := b } : Info).owned.count a + (w.live ++ l).count a := by
            intro a
            rw [G2 a, owned_count i name path m b hi a]
            simp only [List.count_append]
            omega
          have copy : ∀ img, Copied from_ w img → img = c.take (c.length % 2 ^ 32) := by
            rintro img ⟨c', hc', rfl⟩
            rw [hc] at hc'
            cases hc'
            rfl
          rcases h2 with ⟨rfl, he⟩ | ⟨e, rfl, he⟩ | ⟨li, rfl, he⟩
          · rw [cont_error, cont_error]
            exact .crash w2 _ _ (Or.inr rfl) (Or.inr fun img hi => Or.inr (by rw [copy img hi]; exact he)) s2 G2
          · rw [cont_ok]
            dsimp only
            rw [wp_bind]
            refine wp_mono (release_wp _ w2 (w.live ++ l) F2) ?_
            rintro _ w3 ⟨rfl, f3, l3⟩
            rw [cont_ok, wp_pure, cont_ok, if_pos (hse _ _ he), wp_bind]
            refine wp_mono (release_wp _ w3 (w.live ++ l) ?_) ?_
            · intro a
              rw [l3 a, released_owned]
              simp
            rintro _ w4 ⟨rfl, f4, l4⟩
            rw [cont_ok]
            exact errExit_wp E from_ ulp _ (hse _ _ he) w w4 l
              (Or.inr fun img hi => ⟨e, by rw [copy img hi]; exact he⟩) (fun q hq => by rw [f4, f3]; exact s2 q hq)
              (fun a => by rw [l4 a, List.count_append])
          · rw [cont_ok]
            dsimp only
            rw [wp_bind, wp_call, cont_ok, wp_bind, wp_setFile, cont_ok, wp_bind]
            refine wp_mono (release_wp _ _ (w.live ++ l) F2) ?_
            rintro _ w3 ⟨rfl, f3, l3⟩
            have f3' : w3.files = update w.files ulp (some (E.linked (c.take (c.length % 2 ^ 32)))) := by
              rw [f3]
              show update w2.files ulp _ = _
              rw [f2]
              show update w1.files ulp _ = _
              rw [hf, update_update]
            rw [cont_ok, wp_pure, cont_ok]
            split
            · rename_i hne0
              rw [wp_bind]
              refine wp_mono (release_wp _ w3 (w.live ++ l) ?_) ?_
              · intro a
                rw [l3 a, released_owned]
                simp
              rintro _ w4 ⟨rfl, f4, l4⟩
              rw [cont_ok]
              exact errExit_wp E from_ ulp _ hne0 w w4 l (Or.inl (Or.inl ⟨_, hne0⟩))
                (fun q hq => by rw [f4, f3', update_ne _ _ _ _ hq])
                (fun a => by rw [l4 a, List.count_append])
            · rw [wp_pure]
              exact .good w3 l c li hc hne he f3' (fun a => by rw [l3 a, List.count_append]) hk

theorem setup_error_ne (img : List Byte) (e : Int) (h : Load.setupLoadInfo img = some (.error e)) :
    e ≠ 0 := by
  unfold Load.setupLoadInfo at h
  simp only [Option.bind_eq_bind, Option.bind_eq_some_iff, Option.pure_def] at h
  obtain ⟨_, _, _, _, _, _, h⟩ := h
  split at h
  · cases h; decide
  simp only [Option.bind_eq_some_iff] at h
  obtain ⟨_, _, _, _, h⟩ := h
  split at h
  · cases h; decide
  simp only [Option.bind_eq_some_iff] at h
  obtain ⟨_, _, h⟩ := h
  split at h
  · cases h; decide
  simp only [Option.bind_eq_some_iff] at h
  obtain ⟨_, _, _, _, h⟩ := h
  split at h
  · cases h; decide
  simp only [Option.bind_eq_some_iff] at h
  obtain ⟨_, _, _, _, h⟩ := h
  split at h
  · cases h; decide
  simp only [Option.bind_eq_some_iff] at h
  obtain ⟨_, _, _, _, h⟩ := h
  split at h
  · cases h; decide
  simp only [Option.bind_eq_some_iff] at h
  obtain ⟨_, _, h⟩ := h
  split at h
  · cases h; decide
  simp only [Option.bind_eq_some_iff] at h
  obtain ⟨_, _, _, _, h⟩ := h
  split at h
  · cases h; decide
  simp only [Option.bind_eq_some_iff] at h
  obtain ⟨_, _, _, _, h⟩ := h
  split at h
  · cases h; decide
  · cases h

theorem untilNul_iff (l s : List Byte) : untilNul l = some s ↔ 0 ∉ s ∧ (s ++ [0]) <+: l := by
  induction l generalizing s with
  | nil => simp [untilNul]
  | cons b bs ih =>
    unfold untilNul
    split
    · rename_i hb
      subst hb
      constructor
      · rintro h
        cases h
        exact ⟨by simp, bs, rfl⟩
      · rintro ⟨h0, h⟩
        cases s with
        | nil => rfl
        | cons x xs =>
          obtain ⟨t, ht⟩ := h
          injection ht with h1 h2
          subst h1
          simp at h0
    · rename_i hb
      rw [Option.map_eq_some_iff]
      constructor
      · rintro ⟨t, ht, rfl⟩
        obtain ⟨h0, u, hu⟩ := (ih t).mp ht
        refine ⟨?_, u, by rw [← hu]; simp⟩
        rw [List.mem_cons]
        rintro (h | h)
        · exact hb h.symm
        · exact h0 h
      · rintro ⟨h0, u, hu⟩
        cases s with
        | nil =>
          injection hu with h1 h2
          exact absurd h1.symm hb
        | cons x xs =>
          injection hu with h1 h2
          subst h1
          refine ⟨xs, (ih xs).mpr ⟨?_, u, h2⟩, rfl⟩
          exact fun h => h0 (List.mem_cons_of_mem _ h)

end Ulp.PFile
