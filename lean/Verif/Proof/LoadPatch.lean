import Verif.Model.LoadPatch
import Verif.Props.LoadBytes
import Verif.Props.Patch
import Verif.Props.JmpTable
namespace Ulp.LoadBytes
open Load PatchFile

theorem SymAddr.unique {secs : List Sec} {th : BitVec 64} {find : List Byte → Option (BitVec 64)} {k : Nat}
    {s : SymEntry} {S T : BitVec 64} (a : SymAddr secs th find k s S) (b : SymAddr secs th find k s T) :
    S = T := by
  cases a <;> cases b <;> first
    | rfl
    | contradiction
    | (rename_i h _ _ h' _ _; rcases h with h | h <;> omega)
    | grind

theorem m1_ne : (-1 : Int) ≠ 0 := by decide
theorem ealready_ne : Patch.EALREADY ≠ 0 := by decide
theorem enoent_ne : Patch.ENOENT ≠ 0 := by decide
theorem enoexec_ne : Patch.ENOEXEC ≠ 0 := by decide

theorem createMmap_mem (w : Patch.World) (e : Patch.PatchEnv) :
    (Patch.createMmap w e).1.mem = w.mem ∧ (Patch.createMmap w e).1.arch = w.arch := by
  unfold Patch.createMmap
  cases e.attach1 with
  | fail n left => exact ⟨rfl, rfl⟩
  | ok =>
    dsimp only
    split
    · exact ⟨rfl, rfl⟩
    · split
      · exact ⟨rfl, rfl⟩
      · cases e.mmap with
        | created a => exact ⟨rfl, rfl⟩
        | errno v => exact ⟨rfl, rfl⟩
        | inject l => cases l <;> exact ⟨rfl, rfl⟩

theorem deleteMmap_mem (w : Patch.World) (e : Patch.PatchEnv) (hdr : Addr) :
    (Patch.deleteMmap w e hdr).mem = w.mem := by
  unfold Patch.deleteMmap
  cases e.attach3 with
  | fail n left => rfl
  | ok =>
    dsimp only
    cases e.munmap3 with
    | done => rfl
    | failed gone => dsimp only; split <;> rfl

/-- The patch command stops before anything is copied. -/
def Stops (e : Patch.PatchEnv) (n : Nat) : Prop :=
  e.setup = some n ∨ (e.setup = none ∧ e.rewrite = none ∧ e.simplify = some n)

theorem stops_refused (e : Patch.PatchEnv) (f : Image) (done : Bool) (n : Int) :
    Stops (refused e f done n) (n.natAbs - 1) := by
  cases done
  · exact .inl rfl
  · exact .inr ⟨rfl, rfl, rfl⟩

theorem Stops.load {e : Patch.PatchEnv} {n : Nat} (h : Stops e n) (w : Patch.World) (s : Patch.Session) (hdr : Addr) :
    (Patch.loadPatch w s e hdr).2.2 ≠ 0 ∧ (Patch.loadPatch w s e hdr).1.mem = w.mem ∧
      (Patch.loadPatch w s e hdr).2.1 = s := by
  have hneg : Patch.neg n ≠ 0 := by unfold Patch.neg; omega
  unfold Patch.loadPatch
  rcases h with h | ⟨h1, h2, h3⟩
  · rw [h]
    exact ⟨hneg, rfl, rfl⟩
  · rw [h1]
    dsimp only
    by_cases hb : (s.ulps.any fun u => decide (u.bid = e.bid)) = true
    · rw [if_pos hb]
      exact ⟨ealready_ne, rfl, rfl⟩
    · rw [if_neg hb, h2]
      dsimp only
      rw [h3]
      exact ⟨hneg, rfl, rfl⟩

/-- A patch command that is refused before anything is copied leaves the memory alone. -/
theorem initPatch_setup (w : Patch.World) (s : Patch.Session) (e : Patch.PatchEnv) {n : Nat}
    (h : Stops e n) : (Patch.initPatch w s e).2.2 ≠ 0 ∧ (Patch.initPatch w s e).1.mem = w.mem := by
  have hm := (createMmap_mem w e).1
  have hneg : ∀ k, Patch.neg k ≠ 0 := fun k => by unfold Patch.neg; omega
  unfold Patch.initPatch
  split
  · exact ⟨m1_ne, rfl⟩
  cases e.alloc with
  | some k => exact ⟨hneg k, rfl⟩
  | none =>
    cases e.chown with
    | some k => exact ⟨hneg k, rfl⟩
    | none =>
      dsimp only
      cases hc : Patch.createMmap w e with
      | mk w' x =>
        rw [hc] at hm
        cases x with
        | error r =>
          refine ⟨?_, hm⟩
          dsimp only
          unfold Patch.createMmap at hc
          revert hc
          cases e.attach1 with
          | fail k l => intro hc; cases hc; exact hneg k
          | ok =>
            dsimp only
            split
            · intro hc; cases hc; decide
            · split
              · intro hc; cases hc; decide
              · cases e.mmap with
                | created a => intro hc; cases hc
                | errno v => intro hc; cases hc
                | inject l => cases l <;> (intro hc; cases hc; decide)
        | ok hdr =>
          dsimp only
          obtain ⟨l1, l2, -⟩ := h.load w' s hdr
          rw [if_pos l1]
          exact ⟨l1, (deleteMmap_mem _ _ _).trans (l2.trans hm)⟩

theorem writeTask_mem {w : Patch.World} {t : Addr} {bs : List Byte} {n : Option Nat}
    (h : (Patch.writeTask w t bs n).2 = true) :
    (Patch.writeTask w t bs n).1 = { w with mem := w.mem.write t bs } := by
  unfold Patch.writeTask at h ⊢
  cases n with
  | none => cases h
  | some k =>
    dsimp only at h ⊢
    rw [List.take_of_length_le (by simpa using h)]

theorem kickImage_mem {w : Patch.World} {e : Patch.PatchEnv} {hdr : Addr} {info : Patch.Info}
    (h : (Patch.kickImage w e hdr info).2 = 0) :
    (Patch.kickImage w e hdr info).1.mem =
      (w.mem.write hdr (e.image info)).write info.virt (jmpEntry w.arch info.patchFn) := by
  have hneg : ∀ k, Patch.neg k ≠ 0 := fun k => by unfold Patch.neg; omega
  unfold Patch.kickImage at h ⊢
  generalize (if w.mapped hdr = true then e.imageN else none) = N at h ⊢
  dsimp only at h ⊢
  split at h
  · rename_i hw
    rw [if_pos hw]
    rw [writeTask_mem hw] at h ⊢
    unfold Patch.kickEntry at h ⊢
    cases h9 : e.attach2 with
    | fail a b => rw [h9] at h; exact absurd h (hneg a)
    | ok =>
      rw [h9] at h
      dsimp only at h ⊢
      split at h
      · rename_i hw'
        rw [writeTask_mem hw']
        rfl
      · exact absurd h enoexec_ne
  · exact absurd h enoexec_ne

/-- What a successful patch command has written. -/
theorem initPatch_mem {w : Patch.World} {s : Patch.Session} {e : Patch.PatchEnv}
    (hwf : e.info0.orig.length = 16) (h : (Patch.initPatch w s e).2.2 = 0) :
    ∃ hdr t p, mmapAddr e.mmap = hdr ∧ e.target = some t ∧ e.source = some p ∧
      (Patch.initPatch w s e).1.mem =
        (w.mem.write hdr (e.image ⟨s.maxId + 1, t, p, t, w.mem.read t 16⟩)).write t
          (jmpEntry w.arch p) := by
  have hneg : ∀ k, Patch.neg k ≠ 0 := fun k => by unfold Patch.neg; omega
  unfold Patch.initPatch at h ⊢
  split at h
  · exact absurd h m1_ne
  rename_i hf
  rw [if_neg hf]
  cases ha : e.alloc with
  | some k => rw [ha] at h; exact absurd h (hneg k)
  | none =>
  rw [ha] at h
  cases hch : e.chown with
  | some k => rw [hch] at h; exact absurd h (hneg k)
  | none =>
  rw [hch] at h
  dsimp only at h ⊢
  have hm := createMmap_mem w e
  have haddr : ∀ a, (Patch.createMmap w e).2 = .ok a → mmapAddr e.mmap = a := by
    intro a
    unfold Patch.createMmap
    cases e.attach1 with
    | fail k l => intro hc; cases hc
    | ok =>
      dsimp only
      split
      · intro hc; cases hc
      · split
        · intro hc; cases hc
        · cases e.mmap with
          | created a => intro hc; cases hc; rfl
          | errno v => intro hc; cases hc; rfl
          | inject l => cases l <;> (intro hc; cases hc)
  have herr : ∀ r, (Patch.createMmap w e).2 = .error r → r ≠ 0 := by
    intro r
    unfold Patch.createMmap
    cases e.attach1 with
    | fail k l => intro hc; cases hc; exact hneg k
    | ok =>
      dsimp only
      split
      · intro hc; cases hc; decide
      · split
        · intro hc; cases hc; decide
        · cases e.mmap with
          | created a => intro hc; cases hc
          | errno v => intro hc; cases hc
          | inject l => cases l <;> (intro hc; cases hc; decide)
  cases hc : Patch.createMmap w e with
  | mk w' x =>
  rw [hc] at h hm haddr herr
  dsimp only at hm
  cases x with
  | error r => exact absurd h (herr r rfl)
  | ok hdr =>
  dsimp only at h ⊢
  split at h
  · rename_i hne; exact absurd h hne
  rename_i hz
  rw [if_neg hz]
  have hz : (Patch.loadPatch w' s e hdr).2.2 = 0 := by simpa using hz
  refine ⟨hdr, ?_⟩
  unfold Patch.loadPatch at hz ⊢
  cases h1 : e.setup with
  | some n => rw [h1] at hz; exact absurd hz (hneg n)
  | none =>
  rw [h1] at hz
  dsimp only at hz ⊢
  split at hz
  · exact absurd hz ealready_ne
  rename_i hlive
  rw [if_neg hlive]
  cases h2 : e.rewrite with
  | some n => rw [h2] at hz; exact absurd hz (hneg n)
  | none =>
  rw [h2] at hz
  dsimp only at hz ⊢
  cases h3 : e.simplify with
  | some n => rw [h3] at hz; exact absurd hz (hneg n)
  | none =>
  rw [h3] at hz
  dsimp only at hz ⊢
  cases h4 : e.apply with
  | some n => rw [h4] at hz; exact absurd hz (hneg n)
  | none =>
  rw [h4] at hz
  dsimp only at hz ⊢
  unfold Patch.solveAndKick at hz ⊢
  cases h5 : e.target with
  | none => rw [h5] at hz; exact absurd hz enoent_ne
  | some t =>
  rw [h5] at hz
  dsimp only at hz ⊢
  cases h6 : e.source with
  | none => rw [h6] at hz; exact absurd hz enoent_ne
  | some p =>
  rw [h6] at hz
  dsimp only at hz ⊢
  refine ⟨t, p, haddr hdr rfl, rfl, rfl, ?_⟩
  unfold Patch.kick at hz ⊢
  cases h7 : e.preadN with
  | none => rw [h7] at hz; exact absurd hz enoexec_ne
  | some k =>
  rw [h7] at hz
  dsimp only at hz ⊢
  split at hz
  · exact absurd hz enoexec_ne
  rename_i hk
  rw [if_neg hk]
  have hk16 : min k 16 = 16 := by
    have : ¬ k < 16 := hk
    omega
  have hdrop : e.info0.orig.drop 16 = [] := List.drop_eq_nil_of_le (by omega)
  rw [hk16, hdrop, List.append_nil] at hz ⊢
  have hmem' : (Patch.updMap (Patch.updMap w' hdr fun m => { m with ready := true }) hdr fun m =>
      { m with info := ⟨s.maxId + 1, t, p, t, e.info0.orig⟩ }).mem = w.mem := hm.1
  rw [hmem'] at hz ⊢
  rw [kickImage_mem hz]
  change ((w'.mem.write _ _).write _ (jmpEntry w'.arch p)) = _
  rw [hm.1, hm.2]

end Ulp.LoadBytes
