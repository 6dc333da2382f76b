import Verif.Proof.PatchFile
import Verif.Model.CheckFile
namespace Ulp.PFile
open Load (lit)

theorem setup_magic (img : List Byte) (li : Load.Info) (h : Load.setupLoadInfo img = some (.ok li)) :
    magicAgain img li = some true := by
  unfold Load.setupLoadInfo at h
  simp only [Option.bind_eq_bind, Option.bind_eq_some_iff, Option.pure_def] at h
  obtain ⟨_, _, _, _, _, _, h⟩ := h
  split at h
  · cases h
  simp only [Option.bind_eq_some_iff] at h
  obtain ⟨_, _, _, _, h⟩ := h
  split at h
  · cases h
  simp only [Option.bind_eq_some_iff] at h
  obtain ⟨si, _, h⟩ := h
  split at h
  · cases h
  simp only [Option.bind_eq_some_iff] at h
  obtain ⟨s, hs, _, _, h⟩ := h
  split at h
  · cases h
  simp only [Option.bind_eq_some_iff] at h
  obtain ⟨_, _, _, _, h⟩ := h
  split at h
  · cases h
  simp only [Option.bind_eq_some_iff] at h
  obtain ⟨_, _, _, _, h⟩ := h
  split at h
  · cases h
  simp only [Option.bind_eq_some_iff] at h
  obtain ⟨_, _, h⟩ := h
  split at h
  · cases h
  simp only [Option.bind_eq_some_iff] at h
  obtain ⟨_, _, p, hp, h⟩ := h
  split at h
  · cases h
  · rename_i q
    simp only [Option.bind_eq_some_iff] at h
    obtain ⟨_, _, st, _, h⟩ := h
    split at h
    · cases h
    · injection h with h; injection h with h
      subst h
      unfold magicAgain
      dsimp only
      rw [hs]
      dsimp only
      unfold Load.parseStrtab at hp
      split at hp
      · cases hp
      · cases hp
      · assumption

/-- What `check_patch_file` can end with. -/
inductive CheckPost (E : Env) (file : Path) (w : World) : Except Crash Int → World → Prop
  | crash (w' : World) (l : List Res) (c : Crash) (hc : c ≠ .doubleFree ∧ c ≠ .overflow)
      (hb : Bad E ∨ Unloadable file w) (hf : SameBut tempUlp w w') (hl : Grew w w' l) :
      CheckPost E file w (.error c) w'
  | fail (w' : World) (l : List Res) (e : Int) (he : e ≠ 0)
      (hb : Refusable E file tempUlp w) (hf : SameBut tempUlp w w') (hl : Grew w w' l) :
      CheckPost E file w (.ok e) w'
  | refused (w' : World) (l : List Res) (c : List Byte) (e : Int)
      (hf : w'.files = update w.files tempUlp (some (c.take (c.length % 2 ^ 32))))
      (hl : Grew w w' l) (hk : Leak E l) (hc : w.files file = some c) (hne : file ≠ tempUlp)
      (hs : Load.setupLoadInfo (c.take (c.length % 2 ^ 32)) = some (.error e)) :
      CheckPost E file w (.ok (-61)) w'
  | good (w' : World) (l : List Res) (c : List Byte) (li : Load.Info)
      (hf : w'.files = update w.files tempUlp (some (c.take (c.length % 2 ^ 32))))
      (hl : Grew w w' l) (hk : Leak E l) (hc : w.files file = some c) (hne : file ≠ tempUlp)
      (hs : Load.setupLoadInfo (c.take (c.length % 2 ^ 32)) = some (.ok li)) :
      CheckPost E file w (.ok 0) w'

theorem checkPatchFile_wp (E : Env) (file : Path) (w : World) (hw : Fresh w)
    (hsm : ∀ c, w.files file = some c → c.length < 2 ^ 63) :
    wp (checkPatchFile E (some file)) (CheckPost E file w) w := by
  unfold checkPatchFile
  dsimp only
  rw [wp_bind, wp_fexist, cont_ok]
  split
  · rename_i hn
    rw [wp_pure]
    refine .fail w [] _ (by decide) (Or.inr fun c hc => ?_) (fun _ _ => rfl) (fun a => by simp)
    rw [hc] at hn
    cases hn
  rw [wp_bind]
  refine wp_mono (allocPatchFile_wp E file tempUlp w hsm) ?_
  rintro r w1 h1
  cases h1 with
  | crash _ l hb hf hl =>
    rw [cont_error]
    exact .crash w1 l _ (by decide) (Or.inl hb) hf hl
  | fail _ l e i he hb hf hl =>
    rw [cont_ok, if_pos he, wp_pure]
    exact .fail w1 l e he hb hf hl
  | gone _ l i m c hf hl hk hh hp ho hm hc hne hmag hchk =>
    rw [cont_ok, if_neg (by simp), wp_bind, setup_gone E i m w1 hh (gone_count hw hl hk hm), cont_error]
    refine .crash w1 l _ (by decide) (Or.inr ?_) hf hl
    rintro img ⟨c', hc', rfl⟩
    rw [hc] at hc'
    cases hc'
    exact Or.inl hchk
  | good _ l i m c name path hl hk hi hp hc hne hf hmag hchk =>
    have hmap : i.mmap = some m := by rw [hi]
    have s1 : SameBut tempUlp w w1 := fun q hq => by rw [hf, update_ne _ _ _ _ hq]
    rw [cont_ok, if_neg (by simp), wp_bind]
    refine wp_mono (setup_wp E i m w1 (c.take (c.length % 2 ^ 32)) (by rw [hi]) (by rw [hi]) ?_ ?_) ?_
    · rw [hl, List.count_append]
      have := owned_map i m hmap
      omega
    · rw [hp, hf, update_eq]
    rintro r w2 ⟨f2, b, g2, h2⟩
    have s2 : SameBut tempUlp w w2 := fun q hq => by rw [f2, s1 q hq]
    have G2 : Grew w w2 (i.owned ++ l ++ optList b) := fun a => by
      rw [g2 a, hl a]; simp only [List.count_append]; omega
    have copy : ∀ img, Copied file w img → img = c.take (c.length % 2 ^ 32) := by
      rintro img ⟨c', hc', rfl⟩
      rw [hc] at hc'
      cases hc'
      rfl
    have rel : ∀ a, w2.live.count a =
        ({ i with buildId := b } : Info).owned.count a + (w.live ++ l).count a := by
      intro a
      rw [G2 a, owned_count i name path m b hi a]
      simp only [List.count_append]
      omega
    rcases h2 with ⟨rfl, he⟩ | ⟨e, rfl, he⟩ | ⟨li, rfl, he⟩
    · rw [cont_error]
      exact .crash w2 _ _ (by decide) (Or.inr fun img hi => Or.inr (by rw [copy img hi]; exact he)) s2 G2
    · rw [cont_ok]
      dsimp only
      rw [wp_bind]
      refine wp_mono (release_wp _ w2 (w.live ++ l) rel) ?_
      rintro _ w3 ⟨rfl, f3, l3⟩
      rw [cont_ok, wp_pure]
      exact .refused w3 l c e (by rw [f3, f2, hf]) (fun a => by rw [l3 a, List.count_append]) hk hc hne he
    · rw [cont_ok]
      dsimp only
      rw [setup_magic _ _ he]
      dsimp only
      rw [wp_bind]
      refine wp_mono (release_wp _ w2 (w.live ++ l) rel) ?_
      rintro _ w3 ⟨rfl, f3, l3⟩
      rw [cont_ok, wp_pure]
      exact .good w3 l c li (by rw [f3, f2, hf]) (fun a => by rw [l3 a, List.count_append]) hk hc hne he

end Ulp.PFile
