/-
C145: the order of what is typed for different processes does not matter.
-/
import Verif.Props.Session
import Verif.Spec.Order
namespace Ulp.Session
open LoadBytes
open Sys (System Out Ev pidOf exSys exCirc ex1 ex2)
open Linux (State)
open Mixed

theorem step_off (s : System) {p : BitVec 32} {a : Act} (h : a.on p = false) (l : Option (Patch.World × List Use)) :
    lifeStep s p l a = l := by
  have own_none : ∀ v : Ev, v.on p = false → v.own s p = none := by
    intro v hv
    cases v with
    | ulpatch opts c =>
      unfold Ev.own
      exact if_neg fun hc => absurd hc.2.1 (of_decide_eq_false hv)
    | ulftrace opts c =>
      unfold Ev.own
      exact if_neg fun hc => absurd hc.2.1 (of_decide_eq_false hv)
    | begins q w => rfl
    | ends q => rfl
  cases a with
  | ev v =>
    cases v with
    | begins q w => exact if_neg (of_decide_eq_false h)
    | ends q => exact if_neg (of_decide_eq_false h)
    | ulpatch opts c =>
      unfold lifeStep
      dsimp only
      rw [own_none (.ulpatch opts c) h]
    | ulftrace opts c =>
      unfold lifeStep
      dsimp only
      rw [own_none (.ulftrace opts c) h]
  | task k st j cut => exact if_neg (of_decide_eq_false h)
  | info opts => rfl

theorem fold_filter (s : System) (p : BitVec 32) : ∀ (as : List Act) (l : Option (Patch.World × List Use)),
    as.foldl (lifeStep s p) l = (as.filter (Act.on p)).foldl (lifeStep s p) l
  | [], _ => rfl
  | a :: as, l => by
    rw [List.foldl_cons]
    cases h : a.on p with
    | true =>
      rw [List.filter_cons_of_pos h, List.foldl_cons]
      exact fold_filter s p as _
    | false =>
      rw [List.filter_cons_of_neg (by rw [h]; decide), step_off s h]
      exact fold_filter s p as l

theorem life_same (s : System) {p : BitVec 32} {as bs : List Act} (h : SameFor p as bs) : life s p as = life s p bs := by
  unfold life
  rw [fold_filter s p as, fold_filter s p bs, h]

theorem same_end {M : Machine} {width value} {pg : Nat} {R : BitVec 32 → Patch.World → Addr → Prop} {s t t' : System} {as bs : List Act}
    {outs outs' : List Out} {p : BitVec 32} (h : Shows M width value pg R s t as outs p) (h' : Shows M width value pg R s t' bs outs' p)
    (hs : SameFor p as bs) : t.procs p = t'.procs p ∧ ((t.procs p).isSome → told s p (as.zip outs) = told s p (bs.zip outs')) := by
  cases hl : life s p as with
  | none =>
    have e1 := h.1 hl
    rw [life_same s hs] at hl
    rw [e1, h'.1 hl]
    exact ⟨rfl, nofun⟩
  | some x =>
    obtain ⟨w, us⟩ := x
    obtain ⟨w1, rs1, -, -, e1, e2, e3, -⟩ := h.2 w us hl
    rw [life_same s hs] at hl
    obtain ⟨w2, rs2, -, -, f1, f2, f3, -⟩ := h'.2 w us hl
    rw [e2] at f2
    cases f2
    rw [e1, f1, e3, f3]
    exact ⟨rfl, fun _ => rfl⟩

/-- **C145.**  Two sessions in which the same is done for the process `p`, in the same order, leave it the same, whatever
is done for other processes before, between and behind; and the commands on it end in the same way.  Missing: what is
missing from C142. -/
theorem C145_x86_partial (pg : Nat) (R : BitVec 32 → Patch.World → Addr → Prop) (s : System) {ls ks : List Line} {as bs : List Act}
    (hm : AllMean ls as) (hg : GoodLives x86 pg Psabi.x86Width R s as) (km : AllMean ks bs) (kg : GoodLives x86 pg Psabi.x86Width R s bs)
    {p : BitVec 32} (hs : SameFor p as bs) :
    ∃ t outs t' outs', types x86 s ls = some (t, outs) ∧ types x86 s ks = some (t', outs') ∧ t.procs p = t'.procs p ∧
      ((t.procs p).isSome → told s p (as.zip outs) = told s p (bs.zip outs')) := by
  obtain ⟨t, outs, e1, e2⟩ := C142_x86_partial pg R s hm hg
  obtain ⟨t', outs', f1, f2⟩ := C142_x86_partial pg R s km kg
  exact ⟨t, outs, t', outs', e1, f1, same_end (e2 p) (f2 p) hs⟩

/-- **C145.**  The same on AArch64. -/
theorem C145_a64_partial (junk : Bool) (pg : Nat) (R : BitVec 32 → Patch.World → Addr → Prop) (s : System) {ls ks : List Line}
    {as bs : List Act} (hm : AllMean ls as) (hg : GoodLives (a64 junk) pg Psabi.a64Width R s as) (km : AllMean ks bs)
    (kg : GoodLives (a64 junk) pg Psabi.a64Width R s bs) {p : BitVec 32} (hs : SameFor p as bs) :
    ∃ t outs t' outs', types (a64 junk) s ls = some (t, outs) ∧ types (a64 junk) s ks = some (t', outs') ∧ t.procs p = t'.procs p ∧
      ((t.procs p).isSome → told s p (as.zip outs) = told s p (bs.zip outs')) := by
  obtain ⟨t, outs, e1, e2⟩ := C142_a64_partial junk pg R s hm hg
  obtain ⟨t', outs', f1, f2⟩ := C142_a64_partial junk pg R s km kg
  exact ⟨t, outs, t', outs', e1, f1, same_end (e2 p) (f2 p) hs⟩

/-! ### The hypotheses are met -/

/-- The session of C142 in another order: the patch for process 8 comes first, and nobody looks. -/
def ex2Ls : List Line := [.shell (.ulpatch false Shell.ws2 exCirc), .shell (.ulpatch false Shell.ws1 exCirc), lineT]

def ex2As : List Act := [.ev ex2, .ev ex1, actT]

theorem ex2_mean : AllMean ex2Ls ex2As := .cons (.shell Shell.me2) (.cons (.shell Shell.me1) (.cons meT .nil))

theorem ex2_good : GoodLives x86 4096 Psabi.x86Width (fun _ _ => fhR) exSys ex2As := by
  refine ⟨fun a ha => ex_good.1 a ?_, ex_good.2.1, ?_⟩
  · unfold ex2As at ha
    unfold exAs
    simp only [List.mem_cons, List.not_mem_nil, or_false] at ha ⊢
    rcases ha with rfl | rfl | rfl <;> simp
  · intro bs hbs p w us h
    have key : w = fhWorld ∧ (us = [] ∨ us = [.cmd (fhPatch pfEnv)] ∨ us = [.cmd (fhPatch pfEnv), useT]) := by
      unfold life at h
      rw [ex_procs] at h
      have hlen : bs.length ≤ 3 := hbs.length_le
      rw [List.prefix_iff_eq_take.1 hbs] at h
      generalize bs.length = k at h hlen
      unfold ex2As at h
      match k, hlen with
      | 0, _ | 1, _ | 2, _ | 3, _ =>
        simp only [List.take, List.foldl, ex_step1, ex_step2, ex_stepT] at h
        by_cases h7 : p = 7
        · subst h7
          simp at h
          simp [← h.1, ← h.2]
        by_cases h8 : p = 8
        · subst h8
          simp at h
          simp [← h.1, ← h.2]
        · have hn : ¬ (p = 7 ∨ p = 8) := by
            rintro (h | h) <;> contradiction
          simp only [if_neg hn, if_neg h7, if_neg h8] at h
          cases h
    obtain ⟨hw, hc⟩ := key
    clear h
    subst hw
    refine ⟨rfl, ?_⟩
    rcases hc with rfl | rfl | rfl
    · exact ⟨by decide, trivial⟩
    · exact ⟨by show 1 < _; decide, fh_first.1, fun _ _ _ => trivial⟩
    · exact ⟨by show 2 < _; decide, ex_uses⟩

theorem ex2_same (p : BitVec 32) : SameFor p exAs ex2As := by
  have h1 : Act.on p (.ev ex1) = decide (p = 7) := by
    show decide (pidOf _ = some p) = _
    exact decide_eq_decide.2 ⟨fun e => (Option.some.inj e).symm, fun e => by rw [e]; decide +kernel⟩
  have h2 : Act.on p (.ev ex2) = decide (p = 8) := by
    show decide (pidOf _ = some p) = _
    exact decide_eq_decide.2 ⟨fun e => (Option.some.inj e).symm, fun e => by rw [e]; decide +kernel⟩
  have h3 : Act.on p actT = decide (p = 7) := by
    show decide (pidOf _ = some p) = _
    exact decide_eq_decide.2 ⟨fun e => (Option.some.inj e).symm, fun e => by rw [e]; decide +kernel⟩
  unfold SameFor exAs ex2As
  have h4 : Act.on p actI = false := rfl
  simp only [List.filter_cons, List.filter_nil, h1, h2, h3, h4]
  by_cases h7 : p = 7
  · have h8 : p ≠ 8 := by rw [h7]; decide
    rw [decide_eq_true h7, decide_eq_false h8]
    rfl
  · rw [decide_eq_false h7]
    rfl

/-- C145_x86_partial: every process ends the same in both. -/
example : ∃ t outs t' outs', types x86 exSys exLs = some (t, outs) ∧ types x86 exSys ex2Ls = some (t', outs') ∧ t.procs 7 = t'.procs 7 := by
  obtain ⟨t, outs, t', outs', e1, e2, e3, -⟩ := C145_x86_partial 4096 (fun _ _ => fhR) exSys ex_mean ex_good ex2_mean ex2_good (ex2_same 7)
  exact ⟨t, outs, t', outs', e1, e2, e3⟩

end Ulp.Session
