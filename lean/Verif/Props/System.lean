/-
C128: the tools in a system with many processes.
-/
import Verif.Proof.System
import Verif.Props.FileHist
import Verif.Props.TraceEx
namespace Ulp.Sys
open LoadBytes
open Cli (Opt)
open Load (lit)
open PatchFile (ascii)

/-- **C128.**  Whatever the command line, the file and the process are: a run changes no
process but the one that its last `-p` names, and no file but `temp.ulp`. -/
theorem C128_others (M : Machine) {s t : System} {v : Ev} {o : Out} (h : step M s v = some (t, o)) :
    (∀ p, v.on p = false → t.procs p = s.procs p) ∧ (∀ q, q ≠ ascii "temp.ulp" → t.files q = s.files q) ∧
      t.objPath = s.objPath ∧ t.object = s.object := by
  obtain ⟨h1, h2⟩ := step_off M h
  exact ⟨h2, h1.files, h1.objPath, h1.object⟩

/-- **C128.**  What becomes of a process, and how the commands on it end, is the same as if no
other process had ever been worked on.  `plain`: no command names `temp.ulp` as its file. -/
theorem C128_alone (M : Machine) {s t : System} {vs : List Ev} {os : List Out} (hv : ∀ v ∈ vs, v.plain = true)
    (h : run M s vs = some (t, os)) (p : BitVec 32) :
    ∃ t', run M s (vs.filter (·.on p)) = some (t', ((vs.zip os).filter (·.1.on p)).map (·.2)) ∧ t'.procs p = t.procs p := by
  obtain ⟨t', h1, -, h2⟩ := run_off M p vs s s t os hv (Same.refl s) rfl h
  exact ⟨t', h1, h2⟩

/-- **C128.**  At the end there are the processes that have begun and have not ended; each is as
the commands on it, since it began, make it, and they ended as told. -/
theorem C128_processes (M : Machine) {s t : System} {vs : List Ev} {os : List Out} (hv : ∀ v ∈ vs, v.plain = true)
    (h : run M s vs = some (t, os)) (p : BitVec 32) :
    (life s p vs = none → t.procs p = none) ∧
    ∀ w cs, life s p vs = some (w, cs) → ∃ w' rs, t.procs p = some w' ∧ runFiles M w cs = some (w', rs) ∧
      told s p (vs.zip os) = rs.map .status := by
  have h1 := (run_agree vs.length vs rfl hv t os h).2 p
  constructor
  · intro hl
    rw [hl] at h1
    exact h1
  · intro w cs hl
    rw [hl] at h1
    exact h1

section
variable {M : Machine} {width : Nat → Nat} {value : Nat → BitVec 64 → BitVec 64 → BitVec 64 → Option (Nat × BitVec 64)}

/-- The histories that `C119_x86_partial` and `C119_a64_partial` are about, in every process. -/
def GoodLives (M : Machine) (width : Nat → Nat) (R : BitVec 32 → Patch.World → Addr → Prop) (s : System) (vs : List Ev) : Prop :=
  (∀ v ∈ vs, v.plain = true) ∧ ∀ us, us <+: vs → ∀ p w cs, life s p us = some (w, cs) →
    w.maps = [] ∧ cs.length < 2 ^ 32 ∧ GoodFiles M width (R p w) w cs

theorem lives (R : BitVec 32 → Patch.World → Addr → Prop) (s : System) (vs : List Ev) (hg : GoodLives M width R s vs)
    (h119 : ∀ R w0 cs, w0.maps = [] → cs.length < 2 ^ 32 → GoodFiles M width R w0 cs →
      ∃ w rs st, runFiles M w0 cs = some (w, rs) ∧ w.arch = w0.arch ∧ AllDo [] cs rs st ∧ Holds width value R w0.mem w st) :
    ∃ t os, run M s vs = some (t, os) ∧ ∀ p,
      (life s p vs = none → t.procs p = none) ∧
      ∀ w cs, life s p vs = some (w, cs) → ∃ w' rs st, t.procs p = some w' ∧ told s p (vs.zip os) = rs.map .status ∧
        w'.arch = w.arch ∧ AllDo [] cs rs st ∧ Holds width value (R p w) w.mem w' st := by
  obtain ⟨hv, hg⟩ := hg
  obtain ⟨t, os, hr⟩ := run_total vs.length vs rfl hv fun us hus p w cs hl => by
    obtain ⟨g1, g2, g3⟩ := hg us hus p w cs hl
    obtain ⟨w', rs, st, h, -⟩ := h119 _ _ _ g1 g2 g3
    rw [h]
    exact nofun
  refine ⟨t, os, hr, fun p => ?_⟩
  obtain ⟨k1, k2⟩ := C128_processes M hv hr p
  refine ⟨k1, fun w cs hl => ?_⟩
  obtain ⟨w', rs, h1, h2, h3⟩ := k2 w cs hl
  obtain ⟨g1, g2, g3⟩ := hg vs (List.prefix_refl _) p w cs hl
  obtain ⟨w'', rs', st, e1, e2, e3, e4⟩ := h119 _ _ _ g1 g2 g3
  rw [h2] at e1
  cases e1
  exact ⟨w', rs, st, h1, h3, e2, e3, e4⟩
end

/-- **C128**, x86_64.  From the command lines to the memory of all processes: any runs of
`ulpatch` and `ulftrace`, in any order, on any processes that begin and end meanwhile.  At the
end every process has exactly the live patches that the ends of the commands on it tell, each
of them whole and linked, and its code is its code from the beginning with their redirects.

Missing, as in `C119_x86_partial`: partial transfers, failing clean-up and unreadable live
patches, where the program violates it. -/
theorem C128_x86_partial (R : BitVec 32 → Patch.World → Addr → Prop) (s : System) (vs : List Ev)
    (hg : GoodLives x86 Psabi.x86Width R s vs) :
    ∃ t os, run x86 s vs = some (t, os) ∧ ∀ p,
      (life s p vs = none → t.procs p = none) ∧
      ∀ w cs, life s p vs = some (w, cs) → ∃ w' rs st, t.procs p = some w' ∧ told s p (vs.zip os) = rs.map .status ∧
        w'.arch = w.arch ∧ AllDo [] cs rs st ∧ Holds Psabi.x86Width Psabi.x86 (R p w) w.mem w' st :=
  lives R s vs hg C119_x86_partial

/-- C128, aarch64. -/
theorem C128_a64_partial (junk : Bool) (R : BitVec 32 → Patch.World → Addr → Prop) (s : System) (vs : List Ev)
    (hg : GoodLives (a64 junk) Psabi.a64Width R s vs) :
    ∃ t os, run (a64 junk) s vs = some (t, os) ∧ ∀ p,
      (life s p vs = none → t.procs p = none) ∧
      ∀ w cs, life s p vs = some (w, cs) → ∃ w' rs st, t.procs p = some w' ∧ told s p (vs.zip os) = rs.map .status ∧
        w'.arch = w.arch ∧ AllDo [] cs rs st ∧ Holds Psabi.a64Width Psabi.a64Data (R p w) w.mem w' st :=
  lives R s vs hg (C119_a64_partial junk)

/-! ### Examples -/

/-- Two processes, a patch file, and the tracing object. -/
def exSys : System where
  files q := if q = lit "p.ulp" then some lkFile else none
  procs p := if p = 7 ∨ p = 8 then some fhWorld else none
  objPath := lit "/usr/share/ulpatch/mcount.obj"
  object := trFile

def exCirc : Circ where
  code _ := 0
  starts := true
  opens := true
  reloc _ := true
  rd := Patch.allOk
  hdr := 0x7f0000000000
  find := lkEnv.find
  now := 77
  e := pfEnv
  d := ⟨.ok, some 16, .done⟩

def ex1 : Ev := .ulpatch [.pid (lit "7"), .patch (lit "p.ulp")] exCirc
def ex2 : Ev := .ulpatch [.patch (lit "p.ulp"), .pid (lit "8")] exCirc
def ex3 : Ev := .begins 9 fhWorld
def ex4 : Ev := .ulpatch [.unpatch, .pid (lit "8")] exCirc
def ex5 : Ev := .ulpatch [.pid (lit "9"), .patch (lit "q.ulp")] exCirc
def ex6 : Ev := .ends 7

/-- The patch is applied to both processes; process 9 begins; the patch is taken out of process
8; a file that is not there is refused for process 9; process 7 ends. -/
def exVs : List Ev := [ex1, ex2, ex3, ex4, ex5, ex6]

theorem own_ulpatch {s : System} {p q : BitVec 32} {opts : List Opt} {c : Circ} (h : pidOf opts = some q) :
    Ev.own s p (.ulpatch opts c) = if p = q then Ev.own s q (.ulpatch opts c) else none := by
  by_cases hp : p = q
  · rw [if_pos hp, hp]
  · rw [if_neg hp]
    refine own_not_on ?_
    unfold Ev.on
    dsimp only
    rw [h]
    simp [Ne.symm hp]

theorem ex_file : exSys.files (lit "p.ulp") = some lkFile := by
  show (if lit "p.ulp" = lit "p.ulp" then some lkFile else none) = some lkFile
  rw [if_pos rfl]

theorem ex_own1 (p : BitVec 32) : ex1.own exSys p = if p = 7 then some (fhPatch pfEnv) else none := by
  unfold ex1
  rw [own_ulpatch (q := 7) (by decide +kernel)]
  refine congrArg (fun x => if p = 7 then x else none) (?_ : _ = _)
  unfold Ev.own
  dsimp only
  rw [if_pos ⟨by decide +kernel, by decide +kernel, by decide, rfl, rfl⟩,
    show Cli.lastCmd [.pid (lit "7"), .patch (lit "p.ulp")] = some (.patch (lit "p.ulp")) by decide +kernel]
  dsimp only
  rw [if_pos (by decide +kernel), ex_file]
  rw [Option.map_some, show lkFile.length % 2 ^ 32 = lkFile.length by rw [lk_len], List.take_length]
  rfl

theorem ex_own2 (p : BitVec 32) : ex2.own exSys p = if p = 8 then some (fhPatch pfEnv) else none := by
  unfold ex2
  rw [own_ulpatch (q := 8) (by decide +kernel)]
  refine congrArg (fun x => if p = 8 then x else none) (?_ : _ = _)
  unfold Ev.own
  dsimp only
  rw [if_pos ⟨by decide +kernel, by decide +kernel, by decide, rfl, rfl⟩,
    show Cli.lastCmd [.patch (lit "p.ulp"), .pid (lit "8")] = some (.patch (lit "p.ulp")) by decide +kernel]
  dsimp only
  rw [if_pos (by decide +kernel), ex_file]
  rw [Option.map_some, show lkFile.length % 2 ^ 32 = lkFile.length by rw [lk_len], List.take_length]
  rfl

theorem ex_own4 (p : BitVec 32) :
    ex4.own exSys p = if p = 8 then some (.unpatch Patch.allOk ⟨.ok, some 16, .done⟩) else none := by
  unfold ex4
  rw [own_ulpatch (q := 8) (by decide +kernel)]
  refine congrArg (fun x => if p = 8 then x else none) (?_ : _ = _)
  unfold Ev.own
  dsimp only
  rw [if_pos ⟨by decide +kernel, by decide +kernel, by decide, rfl, rfl⟩,
    show Cli.lastCmd [.unpatch, .pid (lit "8")] = some .unpatch by decide +kernel]
  rfl

theorem ex_own5 (p : BitVec 32) : ex5.own exSys p = none := by
  unfold ex5
  rw [own_ulpatch (q := 9) (by decide +kernel)]
  refine ite_eq_right_iff.2 fun _ => ?_
  unfold Ev.own
  dsimp only
  rw [if_pos ⟨by decide +kernel, by decide +kernel, by decide, rfl, rfl⟩,
    show Cli.lastCmd [.pid (lit "9"), .patch (lit "q.ulp")] = some (.patch (lit "q.ulp")) by decide +kernel]
  dsimp only
  rw [if_neg (by decide +kernel)]

theorem ex_life (s : System) (p : BitVec 32) (l : Option (Patch.World × List FileCmd)) (opts : List Opt) (c : Circ) :
    lifeStep s p l (.ulpatch opts c) = match Ev.own s p (.ulpatch opts c) with
      | none => l
      | some x => l.map fun y => (y.1, y.2 ++ [x]) := rfl

theorem ex_lives (us : List Ev) (hus : us <+: exVs) (p : BitVec 32) (w : Patch.World) (cs : List FileCmd)
    (h : life exSys p us = some (w, cs)) : w = fhWorld ∧
      (cs = [] ∨ cs = [fhPatch pfEnv] ∨ cs = [fhPatch pfEnv, .unpatch Patch.allOk ⟨.ok, some 16, .done⟩]) := by
  have h1 : ∀ l, lifeStep exSys p l ex1 = if p = 7 then l.map fun y => (y.1, y.2 ++ [fhPatch pfEnv]) else l := by
    intro l
    have := ex_own1 p
    unfold ex1 at this ⊢
    rw [ex_life, this]
    by_cases hp : p = 7
    · rw [if_pos hp, if_pos hp]
    · rw [if_neg hp, if_neg hp]
  have h2 : ∀ l, lifeStep exSys p l ex2 = if p = 8 then l.map fun y => (y.1, y.2 ++ [fhPatch pfEnv]) else l := by
    intro l
    have := ex_own2 p
    unfold ex2 at this ⊢
    rw [ex_life, this]
    by_cases hp : p = 8
    · rw [if_pos hp, if_pos hp]
    · rw [if_neg hp, if_neg hp]
  have h4 : ∀ l, lifeStep exSys p l ex4 = if p = 8 then l.map fun y => (y.1, y.2 ++ [.unpatch Patch.allOk ⟨.ok, some 16, .done⟩]) else l := by
    intro l
    have := ex_own4 p
    unfold ex4 at this ⊢
    rw [ex_life, this]
    by_cases hp : p = 8
    · rw [if_pos hp, if_pos hp]
    · rw [if_neg hp, if_neg hp]
  have h5 : ∀ l, lifeStep exSys p l ex5 = l := by
    intro l
    have := ex_own5 p
    unfold ex5 at this ⊢
    rw [ex_life, this]
  have h3 : ∀ l, lifeStep exSys p l ex3 = if 9 = p then some (fhWorld, []) else l := fun _ => rfl
  have h6 : ∀ l, lifeStep exSys p l ex6 = if 7 = p then none else l := fun _ => rfl
  have h0 : (exSys.procs p).map (fun w => (w, ([] : List FileCmd))) = if p = 7 ∨ p = 8 then some (fhWorld, []) else none := by
    show (if p = 7 ∨ p = 8 then some fhWorld else none).map _ = _
    by_cases hp : p = 7 ∨ p = 8
    · rw [if_pos hp, if_pos hp]
      rfl
    · rw [if_neg hp, if_neg hp]
      rfl
  unfold life at h
  rw [h0] at h
  have hlen : us.length ≤ 6 := hus.length_le
  rw [List.prefix_iff_eq_take.1 hus] at h
  generalize us.length = k at h hlen
  match k, hlen with
  | 0, _ | 1, _ | 2, _ | 3, _ | 4, _ | 5, _ | 6, _ =>
    simp only [exVs, List.take, List.foldl, h1, h2, h3, h4, h5, h6] at h
    by_cases h7 : p = 7
    · subst h7
      simp at h <;> simp [← h.1, ← h.2]
    by_cases h8 : p = 8
    · subst h8
      simp at h
      simp [← h.1, ← h.2]
    by_cases h9 : 9 = p
    · subst h9
      simp at h <;> simp [← h.1, ← h.2]
    · have hn : ¬ (p = 7 ∨ p = 8) := by
        rintro (h | h) <;> contradiction
      simp only [if_neg hn, if_neg h7, if_neg h8, if_neg h9, if_neg (Ne.symm h7)] at h
      cases h

theorem ex_good : GoodLives x86 Psabi.x86Width (fun _ _ => fhR) exSys exVs := by
  refine ⟨?_, ?_⟩
  · intro v hv
    unfold exVs ex1 ex2 ex3 ex4 ex5 ex6 at hv
    simp only [List.mem_cons, List.not_mem_nil, or_false] at hv
    rcases hv with rfl | rfl | rfl | rfl | rfl | rfl
    all_goals
      unfold Ev.plain
      first | rfl | decide +kernel
  · intro us hus p w cs hl
    obtain ⟨rfl, h⟩ := ex_lives us hus p w cs hl
    refine ⟨rfl, ?_⟩
    rcases h with rfl | rfl | rfl
    · exact ⟨by decide, trivial⟩
    · exact ⟨by show 1 < _; decide, fh_first⟩
    · exact ⟨by show 2 < _; decide, fh_first.1, fun w r _ => ⟨⟨fun _ => rfl, .inr (.inr ⟨16, by decide, rfl⟩)⟩, fun _ _ _ => trivial⟩⟩

example : ∃ t os, run x86 exSys exVs = some (t, os) ∧ t.procs 7 = none ∧ t.procs 5 = none ∧
    (∃ w8 st, t.procs 8 = some w8 ∧ Holds Psabi.x86Width Psabi.x86 fhR fhWorld.mem w8 st) ∧
    ∃ w9, t.procs 9 = some w9 ∧ Holds Psabi.x86Width Psabi.x86 fhR fhWorld.mem w9 [] := by
  obtain ⟨t, os, h, hp⟩ := C128_x86_partial (fun _ _ => fhR) exSys exVs ex_good
  have h0 : ∀ p, life exSys p exVs = lifeStep exSys p (lifeStep exSys p (lifeStep exSys p (lifeStep exSys p (lifeStep exSys p
      (lifeStep exSys p ((exSys.procs p).map fun w => (w, [])) ex1) ex2) ex3) ex4) ex5) ex6 := fun _ => rfl
  have h1 : ∀ p l, lifeStep exSys p l ex1 = match ex1.own exSys p with | none => l | some x => l.map fun y => (y.1, y.2 ++ [x]) :=
    fun _ _ => rfl
  have h2 : ∀ p l, lifeStep exSys p l ex2 = match ex2.own exSys p with | none => l | some x => l.map fun y => (y.1, y.2 ++ [x]) :=
    fun _ _ => rfl
  have h4 : ∀ p l, lifeStep exSys p l ex4 = match ex4.own exSys p with | none => l | some x => l.map fun y => (y.1, y.2 ++ [x]) :=
    fun _ _ => rfl
  have h5 : ∀ p l, lifeStep exSys p l ex5 = match ex5.own exSys p with | none => l | some x => l.map fun y => (y.1, y.2 ++ [x]) :=
    fun _ _ => rfl
  refine ⟨t, os, h, (hp 7).1 rfl, (hp 5).1 ?_, ?_, ?_⟩
  · rw [h0, h5, h4, h2, h1, ex_own1, ex_own2, ex_own4, ex_own5]
    rfl
  · have hl : life exSys 8 exVs = some (fhWorld, [fhPatch pfEnv, .unpatch Patch.allOk ⟨.ok, some 16, .done⟩]) := by
      rw [h0, h5, h4, h2, h1, ex_own1, ex_own2, ex_own4, ex_own5]
      rfl
    obtain ⟨w, rs, st, k1, -, -, -, k2⟩ := (hp 8).2 _ _ hl
    exact ⟨w, st, k1, k2⟩
  · have hl : life exSys 9 exVs = some (fhWorld, []) := by
      rw [h0, h5, h4, h2, h1, ex_own1, ex_own2, ex_own4, ex_own5]
      rfl
    obtain ⟨w, rs, st, k1, -, -, k3, k2⟩ := (hp 9).2 _ _ hl
    cases k3
    exact ⟨w, k1, k2⟩

/-! ### temp.ulp -/

/-- `ulpatch -p 8 --patch p.ulp`; the process cannot be opened. -/
def exOther : Ev := .ulpatch [.pid (lit "8"), .patch (lit "p.ulp")] { exCirc with opens := false }

/-- `ulftrace -p 7 -f old_f -j temp.ulp`. -/
def exMine : Ev := .ulftrace [.pid (lit "7"), .function (lit "old_f"), .patchObj (lit "temp.ulp")] exCirc

theorem ex_alone : run x86 exSys [exMine] = some (exSys, [.status 1]) := by
  have h : step x86 exSys exMine = some (exSys, .status 1) := by
    unfold exMine step
    dsimp only
    unfold ulftrace
    rw [show Cli.traceParse (traceEnv exSys exCirc) exSys.objPath
      [.pid (lit "7"), .function (lit "old_f"), .patchObj (lit "temp.ulp")] = .error 1 by decide +kernel]
  unfold run
  rw [h]
  rfl

/-- **Finding.**  What is left in `temp.ulp` by a command on one process decides how a command
on another process ends: without the first command the second ends with 1, because there is
no such object; after it, it goes to work. -/
theorem C128_temp : ∃ t o, run x86 exSys [exOther, exMine] = some (t, [o, .status (-2)]) ∧ exOther.on 7 = false ∧
    run x86 exSys [exMine] = some (exSys, [.status 1]) := by
  generalize hs1 : (check exSys exCirc (some (lit "p.ulp"))).2 = s1
  have hfile : s1.files (lit "temp.ulp") ≠ none := by
    rw [← hs1]
    decide +kernel
  have hprocs : s1.procs = exSys.procs := by
    rw [← hs1]
    exact (check_same _ _ _).2
  have hpath : s1.objPath = exSys.objPath := by
    rw [← hs1]
    exact (check_same _ _ _).1.objPath
  have hobj : s1.object = exSys.object := by
    rw [← hs1]
    exact (check_same _ _ _).1.object
  have h1 : step x86 exSys exOther = some (s1, .status (-2)) := by
    have hc : check exSys { exCirc with opens := false } (some (lit "p.ulp")) = check exSys exCirc (some (lit "p.ulp")) := by
      unfold check
      dsimp only
    have hfold : [Opt.pid (lit "8"), .patch (lit "p.ulp")].foldlM Cli.patchOpt {} =
        .ok { cmd := .patch, pid := 8, file := some (lit "p.ulp") } := by decide +kernel
    unfold exOther step
    dsimp only
    unfold ulpatch
    rw [hfold]
    dsimp only
    rw [if_neg (by decide), if_neg (by decide), show exSys.procs 8 = some fhWorld from rfl]
    dsimp only
    rw [if_neg (by decide), hc, hs1, show (check exSys exCirc (some (lit "p.ulp"))).1 = .ok 0 by decide +kernel]
    dsimp only
    rw [if_neg (by decide)]
    have hcont : contents s1 (some (lit "p.ulp")) ≠ none := by
      rw [← hs1]
      decide +kernel
    cases hco : contents s1 (some (lit "p.ulp")) with
    | none => exact absurd hco hcont
    | some b => rfl
  obtain ⟨w, rs, st, w', r, k1, k2, -, k4, k5⟩ := C120_takes_out_x86 fhR fhWorld [] Patch.allOk 0x7f0000000000 lkEnv.find 77
    (lit "old_f") trFile pfEnv ⟨.ok, some 16, .done⟩ rfl (by decide) trivial
    (show lkEnv.find (lit "old_f") = some 0x401000 by decide +kernel)
    (fun w rs h => by
      cases h
      refine ⟨fun _ => rfl, rfl, .inr (.inr ⟨16, by decide, rfl⟩), ⟨rfl, by exact nofun⟩, ⟨?_, nofun⟩, trParts, tr_made, tr_bid, ?_⟩
      · intro i hi
        rw [tr_len] at hi
        unfold fhR
        rw [BitVec.toNat_add, BitVec.toNat_ofNat, show (0x10000000 : BitVec 64).toNat = 0x10000000 from rfl]
        omega
      · intro t ht
        change lkEnv.find (lit "_ftrace_mcount") = some t at ht
        rw [show lkEnv.find (lit "_ftrace_mcount") = none by decide +kernel] at ht
        cases ht)
    tr_made rfl (show lkEnv.find (lit "_ftrace_mcount") = none by decide +kernel) rfl rfl rfl
  cases k1
  cases k2
  have hr : r = -2 := by
    rcases k5 with ⟨-, h, -⟩ | ⟨v, rest, h, -⟩
    · exact h
    · cases h
  subst hr
  have h2 : step x86 s1 exMine = some (setProc s1 7 w', .status (-2)) := by
    have hparse : Cli.traceParse (traceEnv s1 exCirc) s1.objPath
        [.pid (lit "7"), .function (lit "old_f"), .patchObj (lit "temp.ulp")] =
        .ok { pid := 7, func := some (lit "old_f"), obj := some (lit "temp.ulp") } := by
      rw [← hs1]
      decide +kernel
    unfold exMine step
    dsimp only
    unfold ulftrace
    rw [hparse]
    dsimp only
    rw [hprocs, show exSys.procs 7 = some fhWorld from rfl]
    dsimp only
    rw [hobj, onProc_eq x86 s1 exCirc _ _ _ _ rfl rfl]
    have : runFile x86 fhWorld (.trace exCirc.rd exCirc.hdr exCirc.find exCirc.now (lit "old_f") exSys.object exCirc.e exCirc.d) =
      some (w', -2) := k4
    rw [this]
    rfl
  refine ⟨setProc s1 7 w', .status (-2), ?_, by decide +kernel, ex_alone⟩
  unfold run
  rw [h1]
  dsimp only
  unfold run
  rw [h2]
  rfl

end Ulp.Sys
