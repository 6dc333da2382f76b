/-
C138: the actions of `Model/ThreadsHist` are those of the commands in `Model/Patch`.
-/
import Verif.Props.ThreadsHist
import Verif.Proof.LoadPatch
import Verif.Props.Patch
namespace Ulp.ThreadsHist
open Threads (Proc Mode poke)

variable {I : Isa}

theorem pokes_write_all (a : Addr) (bs : List Byte) (h : bs.length ≤ 2 ^ 64) (m : Mem) :
    (storesAt a bs).foldl (fun m s => poke m s.1 s.2) m = m.write a bs := by
  suffices key : ∀ (k : Nat), k + bs.length ≤ 2 ^ 64 → ∀ m : Mem,
      (((List.range' k bs.length).map fun i => a + BitVec.ofNat 64 i).zip bs).foldl
        (fun m s => poke m s.1 s.2) m = m.write (a + BitVec.ofNat 64 k) bs by
    have := key 0 (by omega) m
    rw [← List.range_eq_range'] at this
    simpa [storesAt, span] using this
  induction bs with
  | nil => intro k _ m; rfl
  | cons b bs ih =>
    intro k hk m
    rw [List.length_cons] at hk
    rw [List.length_cons, List.range'_succ, List.map_cons, List.zip_cons_cons, List.foldl_cons,
      ih (by simp at h; omega) (k + 1) (by omega)]
    funext x
    unfold Mem.write poke
    have e1 : (x - (a + BitVec.ofNat 64 (k + 1))) = (x - (a + BitVec.ofNat 64 k)) - 1 := by
      rw [BitVec.ofNat_add]
      bv_omega
    by_cases hx : x = a + BitVec.ofNat 64 k
    · subst hx
      rw [if_pos rfl]
      have e2 : (a + BitVec.ofNat 64 k - (a + BitVec.ofNat 64 k)).toNat = 0 := by simp
      have e3 : (a + BitVec.ofNat 64 k - (a + BitVec.ofNat 64 (k + 1))).toNat = 2 ^ 64 - 1 := by
        rw [e1]; simp
      rw [e2, e3, List.getElem?_eq_none (by omega), List.getElem?_cons_zero]
    · rw [if_neg hx]
      have e2 : (x - (a + BitVec.ofNat 64 k)).toNat =
          (x - (a + BitVec.ofNat 64 (k + 1))).toNat + 1 := by
        have : x - (a + BitVec.ofNat 64 k) ≠ 0 := fun h0 => hx (by bv_omega)
        rw [e1]
        bv_omega
      rw [e2, List.getElem?_cons_succ]

theorem acts_append (l l' : List Act) : ∀ q : Proc I, acts q (l ++ l') = (acts q l).bind fun r => acts r l' := by
  induction l with
  | nil => intro q; rfl
  | cons a l ih =>
    intro q
    rw [List.cons_append, acts, acts]
    cases act q a with
    | none => rfl
    | some r => exact ih r

theorem acts_copy (a : Addr) (bs : List Byte) (h : bs.length ≤ 2 ^ 64) (q : Proc I) :
    acts q (copyTo a bs) = some { q with mem := q.mem.write a bs } := by
  rw [← pokes_write_all a bs h]
  unfold copyTo
  generalize storesAt a bs = l
  clear h
  induction l generalizing q with
  | nil => rfl
  | cons e st ih => rw [List.map_cons, acts, act]; exact ih _

/-- **C138.**  Without threads in between, the actions of a patch command leave the memory that the model of the
whole command has when it succeeds. -/
theorem C138_same_patch (q : Proc I) (w : Patch.World) (s : Patch.Session) (e : Patch.PatchEnv)
    (hmem : w.mem = q.mem) (hwf : e.info0.orig.length = 16) (himg : ∀ i, (e.image i).length ≤ 2 ^ 64)
    (h : (Patch.initPatch w s e).2.2 = 0) :
    ∃ start t p, LoadBytes.mmapAddr e.mmap = start ∧ e.target = some t ∧ e.source = some p ∧
      ∃ q', acts q (patchActs w.arch (w.mem.read t 16) t p start
          (e.image ⟨s.maxId + 1, t, p, t, w.mem.read t 16⟩) e.len) = some q' ∧
        q'.mem = (Patch.initPatch w s e).1.mem ∧ q'.regs = q.regs ∧ q'.stopped 0 = false := by
  obtain ⟨start, t, p, h1, h2, h3, h4⟩ := LoadBytes.initPatch_mem hwf h
  refine ⟨start, t, p, h1, h2, h3, ?_⟩
  have hl := jmpEntry_length w.arch p
  rw [h4]
  unfold patchActs
  simp only [acts_append]
  have hlook : ∀ r : Proc I, r.mem = q.mem → act r (.look t (w.mem.read t 16)) = some r := by
    intro r hr
    show (if r.mem.read t (w.mem.read t 16).length = _ then _ else _) = _
    rw [Mem.read_length, hr, hmem, if_pos rfl]
  have h0 : acts q [.attach 0, .map start e.len, .detach 0, .look t (w.mem.read t 16)] =
      some { q with mapped := fun x => q.mapped x || decide ((x - start).toNat < e.len)
                    stopped := fun j => if j = 0 then false else if j = 0 then true else q.stopped j } := by
    rw [acts, act]
    dsimp only
    rw [acts, act]
    dsimp only
    rw [acts, act]
    dsimp only
    rw [acts, hlook { q with mapped := fun x => q.mapped x || decide ((x - start).toNat < e.len), stopped := fun j => if j = 0 then false else if j = 0 then true else q.stopped j } rfl]
    rfl
  rw [h0]
  simp only [Option.bind_some]
  rw [acts_copy _ _ (himg _)]
  simp only [Option.bind_some, acts, act]
  rw [acts_copy _ _ (by omega)]
  simp only [Option.bind_some]
  exact ⟨_, rfl, by rw [← hmem], rfl, rfl⟩

example : (Patch.initPatch Patch.exWorld ⟨[], 0, true⟩ Patch.exEnv).2.2 = 0 ∧ Patch.exEnv.info0.orig.length = 16 ∧
    ∀ i, (Patch.exEnv.image i).length ≤ 2 ^ 64 := ⟨by decide +kernel, rfl, fun _ => show 4 ≤ 2 ^ 64 by omega⟩

/-- **C138.**  The same for an unpatch command, for a patch whose kept code is what was read from its mapping. -/
theorem C138_same_unpatch (q : Proc I) (w : Patch.World) (s : Patch.Session) (d : Patch.DeleteEnv) (u : Patch.Mapping)
    (v : Live) (st : List Live) (hmem : w.mem = q.mem)
    (hu : (s.ulps.find? fun u => decide (s.maxId = u.info.id)) = some u)
    (hv : v.f = u.info.virt) (hs : v.saved = u.info.orig) (hl : v.saved.length = 16)
    (hk : q.mem.read v.keep 16 = v.saved) (h : (Patch.deletePatch w s d).2 = 0) :
    ∃ q', acts q (unpatchActs v st) = some q' ∧ q'.mem = (Patch.deletePatch w s d).1.mem ∧ q'.regs = q.regs ∧
      q'.stopped 0 = false := by
  have hneg : ∀ k, Patch.neg k ≠ 0 := fun k => by unfold Patch.neg; omega
  have hm : (Patch.deletePatch w s d).1.mem = w.mem.write u.info.virt u.info.orig := by
    unfold Patch.deletePatch at h ⊢
    rw [hu] at h ⊢
    dsimp only at h ⊢
    cases ha : d.attach with
    | fail n left => rw [ha] at h; exact absurd h (hneg n)
    | ok =>
      rw [ha] at h
      dsimp only at h ⊢
      by_cases hw : (Patch.writeTask (Patch.attach .ok w).1 u.info.virt u.info.orig d.writeN).2 = true
      · rw [if_pos hw] at h ⊢
        rw [LoadBytes.writeTask_mem hw] at h ⊢
        cases hu : d.munmap with
        | done => rfl
        | failed gone => cases gone <;> rfl
      · rw [if_neg hw] at h
        exact absurd h (show Patch.ENOEXEC ≠ 0 by decide)
  rw [hm]
  unfold unpatchActs
  simp only [acts_append]
  have h0 : acts q [.look v.keep v.saved, .attach 0, .mark v.f .changing] =
      some { q with stopped := fun j => if j = 0 then true else q.stopped j } := by
    rw [acts, act, if_pos (by rw [hl]; exact hk)]
    rfl
  rw [h0]
  simp only [Option.bind_some]
  rw [acts_copy _ _ (by omega)]
  simp only [Option.bind_some, acts, act]
  exact ⟨_, rfl, by rw [hv, hs, hmem], rfl, rfl⟩

end Ulp.ThreadsHist
