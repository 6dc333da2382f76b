/- Facts about the directory of a process over a history of sessions. -/
import Verif.Spec.WorkDir
namespace Ulp.WorkDir

/-- The files are those of the patches in the process, each name once. -/
structure Inv (w : World) : Prop where
  pid : w.dir.maps.isSome → w.dir.pid = true
  files : ∀ l, w.dir.maps = some l → (l.Pairwise fun f g => f.1 ≠ g.1) ∧ ∀ f, f ∈ l ↔ f ∈ w.live
  gone : w.dir.maps = none → w.live = []

theorem inv_fresh (comm : Content) : Inv (World.fresh comm) :=
  ⟨by intro h; simp [World.fresh, Dir.none] at h, by intro l h; simp [World.fresh, Dir.none] at h,
    fun _ => rfl⟩

theorem inv_openPid {w : World} (h : Inv w) (c : Content) : Inv { w with dir := openPid c w.dir } :=
  ⟨fun _ => rfl, h.files, h.gone⟩

theorem inv_openMaps {w : World} (h : Inv w) (hp : w.dir.pid = true) :
    Inv { w with dir := openMaps w.dir } := by
  refine ⟨fun _ => hp, ?_, ?_⟩
  · intro l hl
    simp only [openMaps, Option.some.injEq] at hl
    cases hm : w.dir.maps with
    | none =>
      rw [hm] at hl; subst hl
      exact ⟨List.Pairwise.nil, by simp [h.gone hm]⟩
    | some l' => rw [hm] at hl; subst hl; exact h.files _ hm
  · intro hn; simp [openMaps] at hn

theorem inv_clean {w : World} (h : Inv w) : Inv { w with dir := cleanProc w.dir } := by
  rcases w with ⟨⟨p, c, m⟩, cm, live, k⟩
  cases m with
  | none =>
    refine ⟨?_, ?_, fun _ => h.gone rfl⟩
    · intro hs; simp [cleanProc] at hs
    · intro l hl; simp [cleanProc] at hl
  | some l =>
    cases l with
    | nil =>
      have hf := (h.files [] rfl).2
      refine ⟨?_, ?_, fun _ => ?_⟩
      · intro hs; simp [cleanProc] at hs
      · intro l hl; simp [cleanProc] at hl
      · exact List.eq_nil_iff_forall_not_mem.2 fun f hf' => by simpa using (hf f).2 hf'
    | cons f l =>
      have e : cleanProc ⟨p, c, some (f :: l)⟩ = ⟨p, none, some (f :: l)⟩ := by simp [cleanProc]
      simp only [e]
      exact ⟨fun _ => h.pid rfl, fun l' hl => h.files l' hl, fun hn => by simp at hn⟩

theorem inv_check {w : World} (h : Inv w) (k : List Name) :
    Inv { w with dir := checkAndFree k w.dir } := by
  unfold checkAndFree
  split
  · exact inv_clean h
  · exact h

theorem inv_session {w : World} (h : Inv w) (s : Nat) (k : Option (List Name)) : Inv (w.session s k) :=
  ⟨h.pid, h.files, h.gone⟩

theorem mem_remove {n : Name} {l : List (Name × Content)} {f : Name × Content} :
    f ∈ removeFile n l ↔ f ∈ l ∧ f.1 ≠ n := by simp [removeFile]

theorem uniq {f g : Name × Content} : ∀ {l : List (Name × Content)},
    (l.Pairwise fun a b => a.1 ≠ b.1) → f ∈ l → g ∈ l → g.1 = f.1 → g = f
  | [], _, hf, _, _ => nomatch hf
  | a :: l, h, hf, hg, e => by
    rw [List.pairwise_cons] at h
    rcases List.mem_cons.1 hf with rfl | hf1 <;> rcases List.mem_cons.1 hg with rfl | hg1
    · rfl
    · exact absurd e.symm (h.1 _ hg1)
    · exact absurd e (h.1 _ hf1)
    · exact uniq h.2 hf1 hg1 e

/-- What a step needs of the name it uses. -/
def Ok (w : World) : Op → Prop
  | .patch _ n _ => ∀ f ∈ w.live, f.1 ≠ n
  | .patchFail _ n _ _ => ∀ f ∈ w.live, f.1 ≠ n
  | _ => True

theorem inv_step {w : World} (h : Inv w) (o : Op) (ho : Ok w o) : Inv (step w o).1 := by
  cases o with
  | «open» s => exact inv_session (inv_openMaps (inv_openPid h _) rfl) _ _
  | openFail a =>
    cases a with
    | unread => exact inv_check h _
    | read => exact inv_check h _
    | mkdir => exact inv_check (inv_openPid h _) _
  | close s =>
    unfold step
    dsimp only
    split
    · exact h
    · exact inv_session (inv_check h _) _ _
  | patch s n c =>
    unfold step
    dsimp only
    split
    · exact h
    split
    · exact h
    rename_i l hl
    obtain ⟨h1, h2⟩ := h.files l hl
    have hn : ∀ f ∈ l, f.1 ≠ n := fun f hf => ho f ((h2 f).1 hf)
    have e : writeFile n c l = (n, c) :: l := by
      rw [writeFile, List.filter_eq_self.2]
      intro f hf; simp [hn f hf]
    apply inv_session
    refine ⟨fun _ => h.pid (by rw [hl]; rfl), ?_, by intro hx; simp at hx⟩
    intro l' hl'
    simp only [e, Option.some.injEq] at hl'
    subst hl'
    refine ⟨List.pairwise_cons.2 ⟨fun f hf => (hn f hf).symm, h1⟩, fun f => ?_⟩
    simp only [List.mem_cons, List.mem_append, List.not_mem_nil, or_false, h2 f]
    exact or_comm
  | patchFail s n c m =>
    unfold step
    dsimp only
    split
    · exact h
    split
    · exact h
    rename_i l hl
    obtain ⟨h1, h2⟩ := h.files l hl
    have hn : ∀ f ∈ l, f.1 ≠ n := fun f hf => ho f ((h2 f).1 hf)
    have e : removeFile n (writeFile n c l) = l := by
      have : l.filter (fun f => f.1 ≠ n) = l := List.filter_eq_self.2 (by intro f hf; simp [hn f hf])
      rw [writeFile, this, removeFile, List.filter_cons]
      rw [if_neg (by simp)]
      exact this
    apply inv_session
    refine ⟨fun _ => h.pid (by rw [hl]; rfl), ?_, by intro hx; simp at hx⟩
    intro l' hl'
    simp only [e, Option.some.injEq] at hl'
    subst hl'
    exact ⟨h1, h2⟩
  | unpatch s n =>
    unfold step
    dsimp only
    split
    · exact h
    split
    · refine ⟨fun hs => h.pid (by simpa using hs), ?_, ?_⟩
      · intro l' hl'
        cases hm : w.dir.maps with
        | none => simp [hm] at hl'
        | some l =>
          simp only [hm, Option.map_some, Option.some.injEq] at hl'
          subst hl'
          obtain ⟨h1, h2⟩ := h.files l hm
          refine ⟨List.Pairwise.filter _ h1, fun f => ?_⟩
          rw [mem_remove, h2 f]
          simp
      · intro hn
        have : w.live = [] := h.gone (by simpa using hn)
        simp [this]
    · exact h

/-- The names in the process after a step were there before or are the name of the
step. -/
theorem live_step {w : World} {o : Op} {f : Name × Content} (h : f ∈ (step w o).1.live) :
    f ∈ w.live ∨ f.1 ∈ names [o] := by
  cases o with
  | «open» s => exact Or.inl h
  | openFail a => cases a <;> exact Or.inl h
  | close s =>
    unfold step at h
    dsimp only at h
    split at h <;> exact Or.inl h
  | patch s n c =>
    unfold step at h
    dsimp only at h
    split at h
    · exact Or.inl h
    split at h
    · exact Or.inl h
    simp only [World.session, List.mem_append, List.mem_cons, List.not_mem_nil, or_false] at h
    rcases h with h | rfl
    · exact Or.inl h
    · exact Or.inr (by simp [names])
  | patchFail s n c m =>
    unfold step at h
    dsimp only at h
    split at h
    · exact Or.inl h
    split at h <;> exact Or.inl h
  | unpatch s n =>
    unfold step at h
    dsimp only at h
    split at h
    · exact Or.inl h
    split at h
    · simp only [List.mem_filter] at h; exact Or.inl h.1
    · exact Or.inl h

theorem names_cons (o : Op) (l : List Op) : names (o :: l) = names [o] ++ names l := by
  cases o <;> rfl

theorem inv_run : ∀ (ops : List Op) (w : World), Inv w → (names ops).Nodup →
    (∀ f ∈ w.live, f.1 ∉ names ops) → Inv (run w ops)
  | [], w, h, _, _ => h
  | o :: l, w, h, hd, hf => by
    rw [names_cons, List.nodup_append] at hd
    refine inv_run l _ (inv_step h o ?_) hd.2.1 ?_
    · cases o with
      | patch s n c => intro f hl e; exact hf f hl (by simp [names, e])
      | patchFail s n c m => intro f hl e; exact hf f hl (by simp [names, e])
      | _ => trivial
    · intro f hl hn
      rcases live_step hl with h1 | h1
      · exact hf f h1 (by rw [names_cons]; exact List.mem_append_right _ hn)
      · exact hd.2.2 _ h1 _ hn rfl

theorem inv_history (comm : Content) (ops : List Op) (h : (names ops).Nodup) :
    Inv (run (World.fresh comm) ops) :=
  inv_run ops _ (inv_fresh comm) h (by intro f hf; simp [World.fresh] at hf)

end Ulp.WorkDir
