/-
Runs of the tools on many processes: what a run reads and changes.
-/
import Verif.Spec.System
import Verif.Proof.PatchFile
import Verif.Props.Cli
import Verif.Props.CheckFile
namespace Ulp.PFile

/-- Two worlds that differ in `temp.ulp` at most. -/
structure Near (w w' : World) : Prop where
  files : ∀ q, q ≠ tempUlp → w.files q = w'.files q
  live : w.live = w'.live
  next : w.next = w'.next
  clock : w.clock = w'.clock

/-- The result does not depend on `temp.ulp`: either nothing does, or all but `temp.ulp` itself,
and then the result is as `Q` says. -/
def Blind {α : Type} (x : M α) (Q : Except Crash α → Prop) : Prop :=
  ∀ w w', Near w w' → x w = x w' ∨ ((x w).1 = (x w').1 ∧ Q (x w).1 ∧ Near (x w).2 (x w').2)

theorem bind_apply {α β : Type} (x : M α) (f : α → M β) (w : World) : (x >>= f) w =
    match x w with
    | (.ok a, w') => f a w'
    | (.error c, w') => (.error c, w') := rfl

theorem Blind.bind {α β : Type} {x : M α} {f : α → M β} {P : Except Crash α → Prop} {Q : Except Crash β → Prop}
    (hx : Blind x P) (he : ∀ c, P (.error c) → Q (.error c)) (hf : ∀ a, P (.ok a) → Blind (f a) Q) : Blind (x >>= f) Q := by
  intro w w' h
  rw [bind_apply, bind_apply]
  rcases hx w w' h with e | ⟨e1, e2, e3⟩
  · rw [e]
    exact .inl rfl
  · cases h1 : x w with
    | mk r w1 =>
      cases h2 : x w' with
      | mk r' w2 =>
        rw [h1, h2] at e1 e3
        rw [h1] at e2
        dsimp only at e1 e2 e3
        subst e1
        cases r with
        | error c => exact .inr ⟨rfl, he c e2, e3⟩
        | ok a => exact hf a e2 w1 w2 e3

theorem Blind.pure {α : Type} (a : α) {Q : Except Crash α → Prop} (h : Q (.ok a)) : Blind (Pure.pure a) Q :=
  fun _ _ hw => .inr ⟨rfl, h, hw⟩

theorem Blind.mono {α : Type} {x : M α} {P Q : Except Crash α → Prop} (hx : Blind x P) (h : ∀ r, P r → Q r) : Blind x Q := by
  intro w w' hw
  rcases hx w w' hw with e | ⟨e1, e2, e3⟩
  · exact .inl e
  · exact .inr ⟨e1, h _ e2, e3⟩

abbrev Any {α : Type} : α → Prop := fun _ => True

theorem Blind.call (E : Env) : Blind (call E) Any := by
  intro w w' h
  refine .inr ⟨?_, trivial, ⟨h.files, h.live, h.next, ?_⟩⟩
  · show Except.ok (E.code w.clock) = .ok (E.code w'.clock)
    rw [h.clock]
  · show w.clock + 1 = w'.clock + 1
    rw [h.clock]

theorem Blind.alloc (k : Kind) : Blind (alloc k) Any := by
  intro w w' h
  refine .inr ⟨?_, trivial, ⟨h.files, ?_, ?_, h.clock⟩⟩
  · show Except.ok (⟨k, w.next⟩ : Res) = .ok ⟨k, w'.next⟩
    rw [h.next]
  · show w.live ++ [⟨k, w.next⟩] = w'.live ++ [⟨k, w'.next⟩]
    rw [h.live, h.next]
  · show w.next + 1 = w'.next + 1
    rw [h.next]

theorem Blind.free (r : Res) : Blind (free r) Any := by
  intro w w' h
  unfold PFile.free
  by_cases hm : r ∈ w.live
  · rw [if_pos hm, if_pos (h.live ▸ hm)]
    exact .inr ⟨rfl, trivial, ⟨h.files, by rw [h.live], h.next, h.clock⟩⟩
  · rw [if_neg hm, if_neg (h.live ▸ hm)]
    exact .inr ⟨rfl, trivial, h⟩

theorem Blind.readFile {p : Path} (hp : p ≠ tempUlp) : Blind (readFile p) Any := by
  intro w w' h
  refine .inr ⟨?_, trivial, h⟩
  show Except.ok (w.files p) = .ok (w'.files p)
  rw [h.files p hp]

/-- After `temp.ulp` is written nothing depends on what it was. -/
theorem Blind.write {α : Type} (c : Option (List Byte)) (k : Unit → M α) (Q : Except Crash α → Prop) :
    Blind (setFile tempUlp c >>= k) Q := by
  intro w w' h
  refine .inl ?_
  have : setFile tempUlp c w = setFile tempUlp c w' := by
    unfold setFile
    have : ({ w with files := update w.files tempUlp c } : World) = { w' with files := update w'.files tempUlp c } := by
      cases w with
      | mk f l n t =>
        cases w' with
        | mk f' l' n' t' =>
          have h1 : l = l' := h.live
          have h2 : n = n' := h.next
          have h3 : t = t' := h.clock
          have h4 : update f tempUlp c = update f' tempUlp c := by
            funext q
            unfold update
            by_cases hq : q = tempUlp
            · rw [if_pos hq, if_pos hq]
            · rw [if_neg hq, if_neg hq]
              exact h.files q hq
          subst h1 h2 h3
          dsimp only
          rw [h4]
    rw [this]
  rw [bind_apply, bind_apply, this]

theorem Blind.ite {α : Type} {c : Prop} [Decidable c] {x y : M α} {Q : Except Crash α → Prop}
    (hx : c → Blind x Q) (hy : ¬ c → Blind y Q) : Blind (if c then x else y) Q := by
  by_cases h : c
  · rw [if_pos h]; exact hx h
  · rw [if_neg h]; exact hy h

theorem Blind.fexist {p : Path} (hp : p ≠ tempUlp) : Blind (fexist p) Any :=
  (Blind.readFile hp).bind (fun _ _ => trivial) fun _ _ => Blind.pure _ trivial

theorem Blind.fsize (E : Env) {p : Path} (hp : p ≠ tempUlp) : Blind (fsize E p) Any := by
  refine (Blind.call E).bind (fun _ _ => trivial) fun c _ => ?_
  refine (Blind.readFile hp).bind (fun _ _ => trivial) fun f _ => ?_
  cases f with
  | none => exact Blind.pure _ trivial
  | some b =>
    refine Blind.ite (fun _ => Blind.pure _ trivial) fun _ => ?_
    refine (Blind.alloc _).bind (fun _ _ => trivial) fun fd _ => ?_
    refine (Blind.call E).bind (fun _ _ => trivial) fun c _ => ?_
    refine Blind.ite (fun _ => Blind.pure _ trivial) fun _ => ?_
    exact (Blind.free _).bind (fun _ _ => trivial) fun _ _ => Blind.pure _ trivial

/-- If `temp.ulp` is not written, then it is not mapped. -/
theorem Blind.create (E : Env) (size : BitVec 64) :
    Blind (fmmapShmemCreate E tempUlp size) fun r => ∀ m, r ≠ .ok (some m) := by
  refine (Blind.alloc _).bind (fun _ _ => by exact nofun) fun self _ => ?_
  refine (Blind.alloc _).bind (fun _ _ => by exact nofun) fun fp _ => ?_
  refine (Blind.call E).bind (fun _ _ => by exact nofun) fun c _ => ?_
  refine Blind.ite (fun _ => ?_) fun _ => ?_
  · exact (Blind.free _).bind (fun _ _ => by exact nofun) fun _ _ => Blind.pure _ (by exact nofun)
  · refine (Blind.alloc _).bind (fun _ _ => by exact nofun) fun fd _ => ?_
    exact Blind.write _ _ _

/-- A failure of `alloc_patch_file`, or a crash. -/
def Fails (r : Except Crash (Int × Info)) : Prop := ∀ a, r = .ok a → a.1 ≠ 0

theorem Fails.error (c : Crash) : Fails (.error c) := fun _ h => nomatch h

theorem Fails.ok {n : Int} (h : n ≠ 0) (i : Info) : Fails (.ok (n, i)) := by
  intro a ha
  cases ha
  exact h

theorem Blind.allocFile (E : Env) {file : Path} (hp : file ≠ tempUlp) : Blind (allocPatchFile E file tempUlp) Fails := by
  unfold allocPatchFile
  refine (Blind.fexist hp).bind (fun c _ => Fails.error c) fun e _ => ?_
  refine Blind.ite (fun _ => Blind.pure _ (Fails.ok (by decide) _)) fun _ => ?_
  refine (Blind.alloc _).bind (fun c _ => Fails.error c) fun name _ => ?_
  refine (Blind.alloc _).bind (fun c _ => Fails.error c) fun path _ => ?_
  refine (Blind.fsize E hp).bind (fun c _ => Fails.error c) fun size _ => ?_
  refine Blind.ite (fun _ => Blind.pure _ (Fails.ok (by decide) _)) fun _ => ?_
  refine (Blind.create E _).bind (fun c _ => Fails.error c) fun mm hmm => ?_
  cases mm with
  | some m => exact absurd rfl (hmm m)
  | none => exact Blind.pure _ (Fails.ok (by decide) _)

theorem Blind.check (E : Env) {file : Path} (hp : file ≠ tempUlp) : Blind (checkPatchFile E (some file)) Any := by
  unfold checkPatchFile
  refine (Blind.fexist hp).bind (fun _ _ => trivial) fun e _ => ?_
  refine Blind.ite (fun _ => Blind.pure _ trivial) fun _ => ?_
  refine (Blind.allocFile E hp).bind (fun _ _ => trivial) fun r hr => ?_
  exact Blind.ite (fun _ => Blind.pure _ trivial) fun hn => absurd (hr r rfl) hn

/-- Only `temp.ulp` is changed. -/
def Keeps {α : Type} (x : M α) : Prop := ∀ w q, q ≠ tempUlp → (x w).2.files q = w.files q

theorem Keeps.bind {α β : Type} {x : M α} {f : α → M β} (hx : Keeps x) (hf : ∀ a, Keeps (f a)) : Keeps (x >>= f) := by
  intro w q hq
  have h := hx w q hq
  rw [bind_apply]
  cases h1 : x w with
  | mk r w1 =>
    rw [h1] at h
    cases r with
    | error c => exact h
    | ok a => exact (hf a w1 q hq).trans h

theorem Keeps.pure {α : Type} (a : α) : Keeps (Pure.pure a : M α) := fun _ _ _ => rfl
theorem Keeps.crash {α : Type} (c : Crash) : Keeps (PFile.crash c : M α) := fun _ _ _ => rfl
theorem Keeps.call (E : Env) : Keeps (PFile.call E) := fun _ _ _ => rfl
theorem Keeps.alloc (k : Kind) : Keeps (PFile.alloc k) := fun _ _ _ => rfl
theorem Keeps.readFile (p : Path) : Keeps (PFile.readFile p) := fun _ _ _ => rfl

theorem Keeps.free (r : Res) : Keeps (PFile.free r) := by
  intro w q _
  unfold PFile.free
  by_cases h : r ∈ w.live
  · rw [if_pos h]
  · rw [if_neg h]

theorem Keeps.setFile (c : Option (List Byte)) : Keeps (PFile.setFile tempUlp c) := by
  intro w q hq
  show update w.files tempUlp c q = w.files q
  unfold update
  rw [if_neg hq]

theorem Keeps.image (m : Mmap) : Keeps (PFile.image m) := by
  intro w q _
  unfold PFile.image
  by_cases h : m.map ∈ w.live
  · rw [if_pos h]
    cases w.files m.path <;> rfl
  · rw [if_neg h]

theorem Keeps.ite {α : Type} {c : Prop} [Decidable c] {x y : M α} (hx : Keeps x) (hy : Keeps y) :
    Keeps (if c then x else y) := by
  by_cases h : c
  · rw [if_pos h]; exact hx
  · rw [if_neg h]; exact hy

theorem Keeps.fexist (p : Path) : Keeps (PFile.fexist p) := (Keeps.readFile p).bind fun _ => .pure _

theorem Keeps.fsize (E : Env) (p : Path) : Keeps (PFile.fsize E p) := by
  unfold PFile.fsize
  refine (Keeps.call E).bind fun c => (Keeps.readFile p).bind fun f => ?_
  cases f with
  | none => exact .pure _
  | some b =>
    refine .ite (.pure _) ((Keeps.alloc _).bind fun fd => (Keeps.call E).bind fun c => .ite (.pure _) ?_)
    exact (Keeps.free _).bind fun _ => .pure _

theorem Keeps.create (E : Env) (size : BitVec 64) : Keeps (fmmapShmemCreate E tempUlp size) := by
  unfold fmmapShmemCreate
  refine (Keeps.alloc _).bind fun self => (Keeps.alloc _).bind fun fp => (Keeps.call E).bind fun c => .ite ?_ ?_
  · exact (Keeps.free _).bind fun _ => .pure _
  refine (Keeps.alloc _).bind fun fd => (Keeps.setFile _).bind fun _ => .ite ?_ ?_
  · exact (Keeps.fsize E _).bind fun _ => (Keeps.free _).bind fun _ => .pure _
  refine (Keeps.call E).bind fun c => .ite (.pure _) ((Keeps.setFile _).bind fun _ => ?_)
  unfold mmapTail
  refine (Keeps.call E).bind fun c => .ite ?_ ?_
  · exact (Keeps.free _).bind fun _ => .pure _
  · exact (Keeps.alloc _).bind fun _ => .pure _

theorem Keeps.fmemcpy (E : Env) (l : BitVec 32) (p : Path) : Keeps (PFile.fmemcpy E tempUlp l p) := by
  unfold PFile.fmemcpy
  have hm : Keeps (minSize E l p) := by
    unfold minSize
    exact (Keeps.fsize E p).bind fun s => .ite (Keeps.fsize E p) (.pure _)
  refine hm.bind fun size => (Keeps.call E).bind fun c => (Keeps.readFile p).bind fun f => ?_
  cases f with
  | none => exact .crash _
  | some b =>
    refine .ite (.crash _) ((Keeps.alloc _).bind fun fd => (Keeps.alloc _).bind fun fp => (Keeps.call E).bind fun c => ?_)
    dsimp only
    refine .ite ((Keeps.readFile _).bind fun d => ?_) (.pure _)
    cases d with
    | none => exact .crash _
    | some old =>
      refine .ite (.crash _) ((Keeps.setFile _).bind fun _ => ?_)
      exact (Keeps.free _).bind fun _ => (Keeps.free _).bind fun _ => .pure _

theorem Keeps.release (i : Info) : Keeps (releaseLoadInfo i) := by
  have ho : ∀ r, Keeps (freeOpt r) := by
    intro r
    cases r with
    | none => exact .pure _
    | some r => exact .free r
  have hu : ∀ m, Keeps (unmapOpt m) := by
    intro m
    cases m with
    | none => exact .pure _
    | some m =>
      exact (Keeps.free _).bind fun _ => (Keeps.free _).bind fun _ => (Keeps.free _).bind fun _ => Keeps.free _
  unfold releaseLoadInfo
  exact (hu _).bind fun _ => (ho _).bind fun _ => (ho _).bind fun _ => (ho _).bind fun _ => .pure _

theorem Keeps.allocFile (E : Env) (file : Path) : Keeps (allocPatchFile E file tempUlp) := by
  unfold allocPatchFile
  refine (Keeps.fexist _).bind fun e => .ite (.pure _) ?_
  refine (Keeps.alloc _).bind fun name => (Keeps.alloc _).bind fun path => (Keeps.fsize E _).bind fun size => ?_
  dsimp only
  refine .ite (.pure _) ((Keeps.create E _).bind fun mm => ?_)
  cases mm with
  | none => exact .pure _
  | some m =>
    refine (Keeps.fmemcpy E _ _).bind fun n => .ite (.pure _) ?_
    unfold checkHeader
    refine (Keeps.image _).bind fun img => ?_
    cases Load.magicOk img with
    | none => exact .crash _
    | some b =>
      cases b with
      | false => exact (Keeps.release _).bind fun _ => .pure _
      | true =>
        dsimp only
        cases Load.chkLen img with
        | none => exact .crash _
        | some b =>
          cases b with
          | false => exact (Keeps.release _).bind fun _ => .pure _
          | true => exact .pure _

theorem Keeps.setup (E : Env) (i : Info) : Keeps (PFile.setup E i) := by
  unfold PFile.setup
  cases i.hdr with
  | none => exact .crash _
  | some m =>
    refine (Keeps.image _).bind fun img => ?_
    cases Load.setupLoadInfo img with
    | none => exact .crash _
    | some r =>
      cases r with
      | error e =>
        refine (Keeps.call E).bind fun c => .ite ?_ (.pure _)
        exact (Keeps.alloc _).bind fun _ => .pure _
      | ok li =>
        dsimp only
        cases li.buildId with
        | none => exact .pure _
        | some b => exact (Keeps.alloc _).bind fun _ => .pure _

theorem Keeps.check (E : Env) (file : Option Path) : Keeps (checkPatchFile E file) := by
  cases file with
  | none => exact .pure _
  | some f =>
    unfold checkPatchFile
    refine (Keeps.fexist _).bind fun e => .ite (.pure _) ((Keeps.allocFile E f).bind fun r => .ite (.pure _) ?_)
    refine (Keeps.setup E _).bind fun s => ?_
    cases s.1 with
    | error e => exact (Keeps.release _).bind fun _ => .pure _
    | ok li =>
      dsimp only
      cases magicAgain li.1 li.2 with
      | none => exact .crash _
      | some b => exact (Keeps.release _).bind fun _ => .pure _

end Ulp.PFile

namespace Ulp.Sys
open LoadBytes (FileCmd runFile runFiles Machine)
open Cli (Opt lastPid lastCmd atoi)

/-! ### The command line -/

theorem last_cons {α β : Type} (f : α → Option β) (o : α) (os : List α) :
    ((o :: os).filterMap f).getLast? = ((os.filterMap f).getLast?).or (f o) := by
  rw [List.filterMap_cons]
  cases h : f o with
  | none => simp
  | some b =>
    dsimp only
    rw [List.getLast?_cons]
    cases (os.filterMap f).getLast? <;> rfl

def pidF : Opt → Option (BitVec 32)
  | .pid a => some (atoi a)
  | _ => none

theorem pidOf_cons (o : Opt) (os : List Opt) : pidOf (o :: os) = (pidOf os).or (pidF o) := by
  have h : ∀ os, pidOf os = (lastPid os).bind pidF := by
    intro os
    unfold pidOf
    cases lastPid os with
    | none => rfl
    | some x => cases x <;> rfl
  rw [h, h]
  unfold lastPid
  by_cases hc : o.isPid = true
  · rw [List.filter_cons_of_pos hc, Cli.getLast_cons]
    cases hl : (os.filter Opt.isPid).getLast? with
    | none => rfl
    | some x =>
      have hx : x.isPid = true := (List.mem_filter.1 (List.mem_of_getLast? hl)).2
      cases x <;> first | (cases hx; done) | rfl
  · rw [List.filter_cons_of_neg hc]
    have : pidF o = none := by
      cases o <;> first | rfl | exact absurd rfl hc
    rw [this]
    cases (os.filter Opt.isPid).getLast? with
    | none => rfl
    | some x => cases x <;> rfl

theorem trace_fold (os : List Opt) : ∀ c : Cli.TraceCfg,
    (∀ c', os.foldlM Cli.traceOpt c = .ok c' → (∀ o ∈ os, ofTrace o = true) ∧
      c'.pid = ((pidOf os).or (some c.pid)).getD 0 ∧ c'.func = (funcOf os).or c.func ∧ c'.obj = (objOf os).or c.obj) ∧
    ((∀ o ∈ os, ofTrace o = true) → ∃ c', os.foldlM Cli.traceOpt c = .ok c') := by
  induction os with
  | nil =>
    intro c
    refine ⟨fun c' h => ?_, fun _ => ⟨c, rfl⟩⟩
    cases h
    exact ⟨by simp, rfl, rfl, rfl⟩
  | cons o os ih =>
    intro c
    constructor
    · intro c' h
      rw [Cli.fold_cons] at h
      obtain ⟨d, h1, h2⟩ := Cli.bind_ok h
      obtain ⟨i1, i2, i3, i4⟩ := (ih d).1 c' h2
      have key : ofTrace o = true ∧ d.pid = ((pidF o).or (some c.pid)).getD 0 ∧
          d.func = (match o with | .function a => some a | _ => none : Option (List Byte)).or c.func ∧
          d.obj = (match o with | .patchObj a => some a | _ => none : Option (List Byte)).or c.obj := by
        cases o <;> first | (cases h1; done) | skip
        all_goals
          cases h1
          exact ⟨rfl, rfl, rfl, rfl⟩
      obtain ⟨k1, k2, k3, k4⟩ := key
      refine ⟨fun x hx => ?_, ?_, ?_, ?_⟩
      · rcases List.mem_cons.1 hx with rfl | hx
        · exact k1
        · exact i1 x hx
      · rw [i2, pidOf_cons, k2]
        cases pidOf os with
        | none => cases pidF o <;> rfl
        | some p => rfl
      · rw [i3, k3]
        unfold funcOf
        rw [last_cons, Option.or_assoc]
        cases o <;> rfl
      · rw [i4, k4]
        unfold objOf
        rw [last_cons, Option.or_assoc]
        cases o <;> rfl
    · intro hall
      have ho := hall o List.mem_cons_self
      have : ∃ d, Cli.traceOpt c o = .ok d := by
        cases o <;> first | (cases ho; done) | exact ⟨_, rfl⟩
      obtain ⟨d, hd⟩ := this
      obtain ⟨c', hc'⟩ := (ih d).2 fun x hx => hall x (List.mem_cons_of_mem _ hx)
      exact ⟨c', by rw [Cli.fold_cons, hd]; exact hc'⟩

/-! ### One run -/

/-- The same files but for `temp.ulp`, and the same tracing object. -/
structure Same (s t : System) : Prop where
  files : ∀ q, q ≠ PFile.tempUlp → t.files q = s.files q
  objPath : t.objPath = s.objPath
  object : t.object = s.object

theorem Same.refl (s : System) : Same s s := ⟨fun _ _ => rfl, rfl, rfl⟩

theorem Same.trans {s t u : System} (h : Same s t) (k : Same t u) : Same s u :=
  ⟨fun q hq => (k.files q hq).trans (h.files q hq), k.objPath.trans h.objPath, k.object.trans h.object⟩

theorem Same.proc {s t : System} (h : Same s t) (p : BitVec 32) (w : Patch.World) : Same s (setProc t p w) :=
  ⟨h.files, h.objPath, h.object⟩

theorem check_same (s : System) (c : Circ) (f : Option PFile.Path) :
    Same s (check s c f).2 ∧ (check s c f).2.procs = s.procs :=
  ⟨⟨fun q hq => PFile.Keeps.check ⟨c.code, id⟩ f ⟨s.files, [], 0, 0⟩ q hq, rfl, rfl⟩, rfl⟩

theorem check_congr {s t : System} (h : Same s t) (c : Circ) {f : PFile.Path} (hf : f ≠ PFile.tempUlp) :
    (check t c (some f)).1 = (check s c (some f)).1 := by
  have hn : PFile.Near ⟨t.files, [], 0, 0⟩ ⟨s.files, [], 0, 0⟩ := ⟨h.files, rfl, rfl, rfl⟩
  rcases PFile.Blind.check ⟨c.code, id⟩ hf _ _ hn with e | ⟨e, -, -⟩
  · unfold check
    rw [e]
  · exact e

/-- What a run does to a process is the same with other processes and another `temp.ulp`. -/
theorem own_congr {s t : System} (h : Same s t) (p : BitVec 32) {v : Ev} (hv : v.plain = true) :
    v.own t p = v.own s p := by
  cases v with
  | begins q w => rfl
  | ends q => rfl
  | ulpatch opts c =>
    unfold Ev.own
    dsimp only
    have key : ∀ f, lastCmd opts = some (.patch f) → passes t c f = passes s c f ∧ t.files f = s.files f := by
      intro f hf
      have hne : f ≠ PFile.tempUlp := by
        rintro rfl
        unfold Ev.plain at hv
        dsimp only at hv
        rw [hf] at hv
        simp at hv
      refine ⟨?_, h.files f hne⟩
      unfold passes
      rw [check_congr h c hne]
    cases hl : lastCmd opts with
    | none => rfl
    | some x =>
      cases x with
      | patch f =>
        obtain ⟨k1, k2⟩ := key f hl
        dsimp only
        rw [k1, k2]
      | _ => rfl
  | ulftrace opts c =>
    unfold Ev.own
    dsimp only
    have : objOk t c opts = objOk s c opts := by
      unfold objOk
      rw [h.objPath, h.object]
      cases ho : objOf opts with
      | none => rfl
      | some o =>
        have hne : o ≠ PFile.tempUlp := by
          rintro rfl
          unfold Ev.plain at hv
          dsimp only at hv
          rw [ho] at hv
          simp at hv
        dsimp only
        rw [h.files o hne]
    rw [this, h.object]

/-- A run does nothing to any process, or one command to one process. -/
def Shape (M : Machine) (s : System) (v : Ev) (r : Option (System × Out)) : Prop :=
  (∃ t o, r = some (t, o) ∧ t.procs = s.procs ∧ Same s t ∧ (v.plain = true → ∀ p w, s.procs p = some w → v.own s p = none)) ∨
  (∃ p w x t, s.procs p = some w ∧ v.on p = true ∧ (v.plain = true → v.own s p = some x) ∧ (∀ q, q ≠ p → v.own s q = none) ∧ t.procs = s.procs ∧ Same s t ∧
    r = (runFile M w x).map fun y => (setProc t p y.1, .status y.2))

theorem onProc_eq (M : Machine) (s : System) (c : Circ) (p : BitVec 32) (w : Patch.World) (fail : Int) (x : FileCmd)
    (h1 : c.starts = true) (h2 : c.opens = true) :
    onProc M s c p w fail x = (runFile M w x).map fun y => (setProc s p y.1, .status y.2) := by
  unfold onProc
  rw [if_neg (by simp [h1]), if_neg (by simp [h2])]
  cases runFile M w x with
  | none => rfl
  | some y => rfl

theorem onProc_no (M : Machine) (s : System) (c : Circ) (p : BitVec 32) (w : Patch.World) (fail : Int) (x : FileCmd)
    (h : ¬ (c.starts = true ∧ c.opens = true)) : ∃ o, onProc M s c p w fail x = some (s, o) := by
  unfold onProc
  by_cases h1 : c.starts = false
  · rw [if_pos h1]
    exact ⟨_, rfl⟩
  rw [if_neg h1]
  by_cases h2 : c.opens = false
  · rw [if_pos h2]
    exact ⟨_, rfl⟩
  · exact absurd ⟨by simpa using h1, by simpa using h2⟩ h

theorem own_not_on {s : System} {p : BitVec 32} {v : Ev} (h : v.on p = false) : v.own s p = none := by
  cases v with
  | begins q w => rfl
  | ends q => rfl
  | ulpatch opts c =>
    unfold Ev.own
    dsimp only
    refine if_neg fun hc => ?_
    unfold Ev.on at h
    dsimp only at h
    simp [hc.2.1] at h
  | ulftrace opts c =>
    unfold Ev.own
    dsimp only
    refine if_neg fun hc => ?_
    unfold Ev.on at h
    dsimp only at h
    simp [hc.2.1] at h

theorem shape_ulpatch (M : Machine) (s : System) (opts : List Opt) (c : Circ) :
    Shape M s (.ulpatch opts c) (ulpatch M s opts c) := by
  have cond : ∀ p, ¬ ((∀ o ∈ opts, o.ofPatch = true) ∧ pidOf opts = some p ∧ p ≠ -1 ∧ c.starts = true ∧ c.opens = true) →
      Ev.own s p (.ulpatch opts c) = none := by
    intro p h
    unfold Ev.own
    dsimp only
    exact if_neg h
  unfold ulpatch
  cases hf : opts.foldlM Cli.patchOpt {} with
  | error n =>
    refine .inl ⟨s, _, rfl, rfl, Same.refl s, fun _ p w _ => cond p fun h => ?_⟩
    obtain ⟨g, hg⟩ := (Cli.patch_fold opts {}).2 h.1
    rw [hf] at hg
    cases hg
  | ok g =>
    dsimp only
    obtain ⟨q1, q2, q3⟩ := (Cli.patch_fold opts {}).1 g hf
    have hpid : ∀ p, pidOf opts = some p → g.pid = p := by
      intro p hp
      unfold pidOf at hp
      cases hl : lastPid opts with
      | none => rw [hl] at hp; cases hp
      | some x =>
        rw [hl] at hp q3
        cases x <;> first | (cases hp; done) | skip
        cases hp
        exact q3
    by_cases hcmd : g.cmd = .none
    · rw [if_pos hcmd]
      refine .inl ⟨s, _, rfl, rfl, Same.refl s, fun _ p w _ => ?_⟩
      unfold Ev.own
      dsimp only
      cases hl : lastCmd opts with
      | none => exact ite_self _
      | some x =>
        rw [hl] at q2
        have hx : x.isCmd = true := (List.mem_filter.1 (List.mem_of_getLast? hl)).2
        cases x <;> first | (cases hx; done) | skip
        · have := q2.1
          rw [hcmd] at this
          cases this
        · have : g.cmd = .unpatch := q2
          rw [hcmd] at this
          cases this
    rw [if_neg hcmd]
    by_cases hm1 : g.pid = -1
    · rw [if_pos hm1]
      refine .inl ⟨s, _, rfl, rfl, Same.refl s, fun _ p w _ => cond p fun h => ?_⟩
      exact h.2.2.1 ((hpid p h.2.1).symm.trans hm1)
    rw [if_neg hm1]
    have hpo : pidOf opts = some g.pid := by
      unfold pidOf
      cases hl : lastPid opts with
      | none =>
        rw [hl] at q3
        exact absurd q3 hm1
      | some x =>
        rw [hl] at q3
        have hx : x.isPid = true := (List.mem_filter.1 (List.mem_of_getLast? hl)).2
        cases x <;> first | (cases hx; done) | skip
        exact congrArg some (Eq.symm q3)
    have hon : Ev.on g.pid (.ulpatch opts c) = true := by
      unfold Ev.on
      dsimp only
      rw [hpo]
      simp
    have hoff : ∀ q, q ≠ g.pid → Ev.own s q (.ulpatch opts c) = none := by
      intro q hq
      refine cond q fun h => ?_
      rw [hpo] at h
      exact hq (Option.some.inj h.2.1).symm
    have lift : Ev.own s g.pid (.ulpatch opts c) = none → ∀ p w, s.procs p = some w → Ev.own s p (.ulpatch opts c) = none := by
      intro h p w _
      by_cases hp : p = g.pid
      · subst hp; exact h
      · exact hoff p hp
    cases hw : s.procs g.pid with
    | none =>
      dsimp only
      refine .inl ⟨s, _, rfl, rfl, Same.refl s, fun _ p w hp => hoff p ?_⟩
      rintro rfl
      rw [hw] at hp
      cases hp
    | some w =>
      dsimp only
      by_cases hu : g.cmd = .unpatch
      · rw [if_pos hu]
        have hl : lastCmd opts = some .unpatch := by
          cases hl : lastCmd opts with
          | none =>
            rw [hl] at q2
            exact absurd q2.1 hcmd
          | some x =>
            rw [hl] at q2
            have hx : x.isCmd = true := (List.mem_filter.1 (List.mem_of_getLast? hl)).2
            cases x <;> first | (cases hx; done) | skip
            · have := q2.1
              rw [hu] at this
              cases this
            · rfl
        by_cases hso : c.starts = true ∧ c.opens = true
        · rw [onProc_eq M s c _ _ _ _ hso.1 hso.2]
          refine .inr ⟨g.pid, w, _, s, hw, hon, fun _ => ?_, hoff, rfl, Same.refl s, rfl⟩
          unfold Ev.own
          dsimp only
          rw [if_pos ⟨q1, hpo, hm1, hso⟩, hl]
        · obtain ⟨o, ho⟩ := onProc_no M s c g.pid w (-2) (.unpatch c.rd c.d) hso
          rw [ho]
          exact .inl ⟨s, o, rfl, rfl, Same.refl s, fun _ => lift (cond _ fun h => hso h.2.2.2)⟩
      · rw [if_neg hu]
        have hl : ∃ f, lastCmd opts = some (.patch f) ∧ g.file = some f := by
          cases hl : lastCmd opts with
          | none =>
            rw [hl] at q2
            exact absurd q2.1 hcmd
          | some x =>
            rw [hl] at q2
            have hx : x.isCmd = true := (List.mem_filter.1 (List.mem_of_getLast? hl)).2
            cases x <;> first | (cases hx; done) | skip
            · exact ⟨_, rfl, q2.2⟩
            · exact absurd q2 hu
        obtain ⟨f, hl, hgf⟩ := hl
        rw [hgf]
        obtain ⟨hsame, hprocs⟩ := check_same s c (some f)
        have hno : passes s c f = false → Ev.own s g.pid (.ulpatch opts c) = none := by
          intro h
          unfold Ev.own
          dsimp only
          rw [hl]
          dsimp only
          rw [h, if_neg (c := false = true) (by exact nofun), ite_self]
        cases hc : (check s c (some f)).1 with
        | error x =>
          exact .inl ⟨_, _, rfl, hprocs, hsame, fun _ => lift (hno (by unfold passes; rw [hc]))⟩
        | ok n =>
          dsimp only
          by_cases hn : n ≠ 0
          · rw [if_pos hn]
            exact .inl ⟨_, _, rfl, hprocs, hsame, fun _ => lift (hno (by unfold passes; rw [hc]; simp [hn]))⟩
          rw [if_neg hn]
          have hpass : passes s c f = true := by
            unfold passes
            rw [hc]
            simpa using hn
          have hcont : contents (check s c (some f)).2 (some f) = ((check s c (some f)).2.files f).map fun b => b.take (b.length % 2 ^ 32) := rfl
          rw [hcont]
          have hplain : Ev.plain (.ulpatch opts c) = true → (check s c (some f)).2.files f = s.files f := by
            intro hv
            refine hsame.files f ?_
            rintro rfl
            unfold Ev.plain at hv
            dsimp only at hv
            rw [hl] at hv
            simp at hv
          cases hb : (check s c (some f)).2.files f with
          | none =>
            refine .inl ⟨_, _, rfl, hprocs, hsame, fun hv => lift ?_⟩
            unfold Ev.own
            dsimp only
            rw [hl]
            dsimp only
            rw [← hplain hv, hb]
            simp
          | some b =>
            show Shape M s _ (onProc M (check s c (some f)).2 c g.pid w (-2) _)
            by_cases hso : c.starts = true ∧ c.opens = true
            · rw [onProc_eq M _ c _ _ _ _ hso.1 hso.2]
              refine .inr ⟨g.pid, w, _, _, hw, hon, fun hv => ?_, hoff, hprocs, hsame, rfl⟩
              unfold Ev.own
              dsimp only
              rw [if_pos ⟨q1, hpo, hm1, hso⟩, hl]
              dsimp only
              rw [if_pos hpass, ← hplain hv, hb]
              rfl
            · obtain ⟨o, ho⟩ := onProc_no M (check s c (some f)).2 c g.pid w (-2)
                (.patch c.rd c.hdr c.find c.now (b.take (b.length % 2 ^ 32)) c.e) hso
              rw [ho]
              exact .inl ⟨_, o, rfl, hprocs, hsame, fun _ => lift (cond _ fun h => hso h.2.2.2)⟩

theorem shape_ulftrace (M : Machine) (s : System) (opts : List Opt) (c : Circ) :
    Shape M s (.ulftrace opts c) (ulftrace M s opts c) := by
  have cond : ∀ p, ¬ ((∀ o ∈ opts, ofTrace o = true) ∧ pidOf opts = some p ∧ p ≠ -1 ∧ objOk s c opts = true ∧
      c.starts = true ∧ c.opens = true) → Ev.own s p (.ulftrace opts c) = none := by
    intro p h
    unfold Ev.own
    dsimp only
    exact if_neg h
  unfold ulftrace
  cases hf : opts.foldlM Cli.traceOpt {} with
  | error n =>
    have he : Cli.traceParse (traceEnv s c) s.objPath opts = .error n := by
      unfold Cli.traceParse
      rw [hf]
      rfl
    rw [he]
    refine .inl ⟨s, _, rfl, rfl, Same.refl s, fun _ p w _ => cond p fun h => ?_⟩
    obtain ⟨g, hg⟩ := (trace_fold opts {}).2 h.1
    rw [hf] at hg
    cases hg
  | ok g =>
    obtain ⟨q1, q2, q3, q4⟩ := (trace_fold opts {}).1 g hf
    have hpid : ∀ p, pidOf opts = some p → g.pid = p := by
      intro p hp
      rw [q2, hp]
      rfl
    have q3 : g.func = funcOf opts := by
      rw [q3]
      cases funcOf opts <;> rfl
    have q4 : g.obj = objOf opts := by
      rw [q4]
      cases objOf opts <;> rfl
    have he : Cli.traceParse (traceEnv s c) s.objPath opts = Cli.traceCheck (traceEnv s c) s.objPath g := by
      unfold Cli.traceParse
      rw [hf]
      rfl
    rw [he]
    unfold Cli.traceCheck
    by_cases hm1 : g.pid = -1
    · rw [if_pos hm1]
      refine .inl ⟨s, _, rfl, rfl, Same.refl s, fun _ p w _ => cond p fun h => ?_⟩
      exact h.2.2.1 ((hpid p h.2.1).symm.trans hm1)
    rw [if_neg hm1]
    have hpo : pidOf opts = some g.pid := by
      cases hl : pidOf opts with
      | none =>
        rw [hl] at q2
        exact absurd q2 hm1
      | some p => rw [hpid p hl]
    have hon : Ev.on g.pid (.ulftrace opts c) = true := by
      unfold Ev.on
      dsimp only
      rw [hpo]
      simp
    have hoff : ∀ q, q ≠ g.pid → Ev.own s q (.ulftrace opts c) = none := by
      intro q hq
      refine cond q fun h => ?_
      rw [hpo] at h
      exact hq (Option.some.inj h.2.1).symm
    have lift : Ev.own s g.pid (.ulftrace opts c) = none → ∀ p w, s.procs p = some w → Ev.own s p (.ulftrace opts c) = none := by
      intro h p w _
      by_cases hp : p = g.pid
      · subst hp; exact h
      · exact hoff p hp
    by_cases hfn : g.func = none
    · rw [if_pos hfn]
      refine .inl ⟨s, _, rfl, rfl, Same.refl s, fun _ => lift ?_⟩
      unfold Ev.own
      dsimp only
      rw [← q3, hfn]
      exact ite_self _
    rw [if_neg hfn]
    by_cases hp : (traceEnv s c).pidExists g.pid = false
    · rw [if_pos hp]
      refine .inl ⟨s, _, rfl, rfl, Same.refl s, fun _ p w hw => hoff p ?_⟩
      rintro rfl
      unfold traceEnv at hp
      dsimp only at hp
      rw [hw] at hp
      cases hp
    rw [if_neg hp]
    dsimp only
    have hobj : (¬ (traceEnv s c).exist (Cli.traceObj s.objPath g.obj) = false ∧
        ¬ (traceEnv s c).relocatable (Cli.traceObj s.objPath g.obj) = false) ↔ objOk s c opts = true := by
      rw [q4]
      unfold objOk traceEnv Cli.traceObj
      cases objOf opts with
      | none => simp
      | some o =>
        dsimp only
        by_cases ho : o = s.objPath
        · simp [ho]
        · rw [if_neg ho, if_neg ho, if_neg ho]
          cases s.files o <;> simp
    by_cases ho1 : (traceEnv s c).exist (Cli.traceObj s.objPath g.obj) = false
    · rw [if_pos ho1]
      exact .inl ⟨s, _, rfl, rfl, Same.refl s, fun _ => lift (cond _ fun h => (hobj.2 h.2.2.2.1).1 ho1)⟩
    rw [if_neg ho1]
    by_cases ho2 : (traceEnv s c).relocatable (Cli.traceObj s.objPath g.obj) = false
    · rw [if_pos ho2]
      exact .inl ⟨s, _, rfl, rfl, Same.refl s, fun _ => lift (cond _ fun h => (hobj.2 h.2.2.2.1).2 ho2)⟩
    rw [if_neg ho2]
    dsimp only
    cases hw : s.procs g.pid with
    | none =>
      unfold traceEnv at hp
      dsimp only at hp
      rw [hw] at hp
      exact absurd rfl hp
    | some w =>
      cases hfun : g.func with
      | none => exact absurd hfun hfn
      | some func =>
        dsimp only
        by_cases hso : c.starts = true ∧ c.opens = true
        · rw [onProc_eq M s c _ _ _ _ hso.1 hso.2]
          refine .inr ⟨g.pid, w, _, s, hw, hon, fun _ => ?_, hoff, rfl, Same.refl s, rfl⟩
          unfold Ev.own
          dsimp only
          rw [if_pos ⟨q1, hpo, hm1, hobj.1 ⟨ho1, ho2⟩, hso⟩, ← q3, hfun]
          rfl
        · obtain ⟨o, ho⟩ := onProc_no M s c g.pid w 1 (.trace c.rd c.hdr c.find c.now func s.object c.e c.d) hso
          rw [ho]
          exact .inl ⟨s, o, rfl, rfl, Same.refl s, fun _ => lift (cond _ fun h => hso h.2.2.2.2)⟩

theorem shape (M : Machine) (s : System) {v : Ev} (hv : v.tool = true) : Shape M s v (step M s v) := by
  cases v with
  | ulpatch opts c => exact shape_ulpatch M s opts c
  | ulftrace opts c => exact shape_ulftrace M s opts c
  | begins p w => cases hv
  | ends p => cases hv

/-! ### Histories -/

theorem runFiles_snoc (M : Machine) (x : FileCmd) : ∀ (cs : List FileCmd) (w : Patch.World),
    runFiles M w (cs ++ [x]) = (runFiles M w cs).bind fun y => (runFile M y.1 x).map fun z => (z.1, y.2 ++ [z.2]) := by
  intro cs
  induction cs with
  | nil =>
    intro w
    show runFiles M w [x] = (runFile M w x).map fun z => (z.1, [z.2])
    unfold runFiles
    cases runFile M w x with
    | none => rfl
    | some y => rfl
  | cons c cs ih =>
    intro w
    show runFiles M w (c :: (cs ++ [x])) = (runFiles M w (c :: cs)).bind _
    unfold runFiles
    cases runFile M w c with
    | none => rfl
    | some y =>
      dsimp only
      rw [ih]
      cases runFiles M y.1 cs with
      | none => rfl
      | some z =>
        dsimp only [Option.bind]
        cases runFile M z.1 x with
        | none => rfl
        | some u => rfl

theorem run_snoc (M : Machine) (v : Ev) : ∀ (vs : List Ev) (s : System),
    run M s (vs ++ [v]) = (run M s vs).bind fun y => (step M y.1 v).map fun z => (z.1, y.2 ++ [z.2]) := by
  intro vs
  induction vs with
  | nil =>
    intro s
    show run M s [v] = (step M s v).map fun z => (z.1, [z.2])
    unfold run
    cases step M s v with
    | none => rfl
    | some y => rfl
  | cons c cs ih =>
    intro s
    show run M s (c :: (cs ++ [v])) = (run M s (c :: cs)).bind _
    unfold run
    cases step M s c with
    | none => rfl
    | some y =>
      dsimp only
      rw [ih]
      cases run M y.1 cs with
      | none => rfl
      | some z =>
        dsimp only [Option.bind]
        cases step M z.1 v with
        | none => rfl
        | some u => rfl

theorem run_length (M : Machine) : ∀ (vs : List Ev) (s t : System) (os : List Out), run M s vs = some (t, os) → os.length = vs.length := by
  intro vs
  induction vs with
  | nil => intro s t os h; cases h; rfl
  | cons c cs ih =>
    intro s t os h
    unfold run at h
    cases h1 : step M s c with
    | none => rw [h1] at h; cases h
    | some y =>
      rw [h1] at h
      dsimp only at h
      cases h2 : run M y.1 cs with
      | none => rw [h2] at h; cases h
      | some z =>
        rw [h2] at h
        cases h
        exact congrArg (· + 1) (ih _ _ _ h2)

theorem life_snoc (s : System) (p : BitVec 32) (vs : List Ev) (v : Ev) :
    life s p (vs ++ [v]) = lifeStep s p (life s p vs) v := by
  unfold life
  rw [List.foldl_append]
  rfl

/-- The process is as the commands on it say. -/
def Agree (M : Machine) (l : Option (Patch.World × List FileCmd)) (os : List Out) (q : Option Patch.World) : Prop :=
  match l with
  | none => q = none
  | some (w, cs) => ∃ w' rs, q = some w' ∧ runFiles M w cs = some (w', rs) ∧ os = rs.map Out.status

theorem told_snoc (s : System) (p : BitVec 32) (vs : List (Ev × Out)) (v : Ev) (o : Out) :
    told s p (vs ++ [(v, o)]) =
      match v with
      | .begins q _ => if q = p then [] else told s p vs
      | .ends q => if q = p then [] else told s p vs
      | e => if (e.own s p).isSome then told s p vs ++ [o] else told s p vs := by
  unfold told
  rw [List.foldl_append]
  cases v <;> rfl

/-- One more event. -/
theorem agree_step {M : Machine} {s t t' : System} {vs : List Ev} {os : List Out} {v : Ev} {o : Out}
    (hlen : os.length = vs.length) (hsame : Same s t) (hv : v.plain = true)
    (h : ∀ p, Agree M (life s p vs) (told s p (vs.zip os)) (t.procs p)) (hs : step M t v = some (t', o)) :
    Same s t' ∧ ∀ p, Agree M (life s p (vs ++ [v])) (told s p ((vs ++ [v]).zip (os ++ [o]))) (t'.procs p) := by
  have hz : (vs ++ [v]).zip (os ++ [o]) = vs.zip os ++ [(v, o)] := by
    rw [List.zip_append hlen.symm]
    rfl
  rw [hz]
  have tool : v.tool = true → Same s t' ∧ ∀ p, Agree M (match v.own s p with | none => life s p vs | some x => (life s p vs).map fun y => (y.1, y.2 ++ [x]))
      (if (v.own s p).isSome then told s p (vs.zip os) ++ [o] else told s p (vs.zip os)) (t'.procs p) := by
    intro ht
    have hsh := shape M t ht
    rw [hs] at hsh
    rcases hsh with ⟨u, o', hu, hup, hus, hno⟩ | ⟨p, w, x, u, hw, hon, hx, hq, hup, hus, hr⟩
    · cases hu
      refine ⟨hsame.trans hus, fun p => ?_⟩
      have hp := h p
      rw [hup]
      cases hop : v.own s p with
      | none => exact hp
      | some x =>
        have hpn : t.procs p = none := by
          cases hpw : t.procs p with
          | none => rfl
          | some w =>
            have := hno hv p w hpw
            rw [own_congr hsame p hv, hop] at this
            cases this
        rw [hpn] at hp ⊢
        cases hl : life s p vs with
        | none => rfl
        | some y =>
          rw [hl] at hp
          obtain ⟨w', rs, k, -⟩ := hp
          cases k
    · cases hrf : runFile M w x with
      | none => rw [hrf] at hr; cases hr
      | some y =>
        rw [hrf] at hr
        cases hr
        refine ⟨(hsame.trans hus).proc p y.1, fun q => ?_⟩
        by_cases hqp : q = p
        · subst hqp
          have hx' := hx hv
          rw [own_congr hsame q hv] at hx'
          rw [hx']
          have hpq : (setProc u q y.1).procs q = some y.1 := if_pos rfl
          rw [hpq]
          have hp := h q
          cases hl : life s q vs with
          | none =>
            rw [hl, hw] at hp
            cases hp
          | some z =>
            rw [hl, hw] at hp
            obtain ⟨w', rs, k1, k2, k3⟩ := hp
            cases k1
            refine ⟨y.1, rs ++ [y.2], rfl, ?_, ?_⟩
            · rw [runFiles_snoc, k2]
              dsimp only [Option.bind]
              rw [hrf]
              rfl
            · rw [if_pos (c := (some x).isSome = true) rfl, k3, List.map_append]
              rfl
        · have hn := hq q hqp
          rw [own_congr hsame q hv] at hn
          rw [hn]
          have hpq : (setProc u p y.1).procs q = u.procs q := if_neg hqp
          rw [hpq, hup]
          exact h q
  cases v with
  | ulpatch opts c =>
    obtain ⟨k1, k2⟩ := tool rfl
    refine ⟨k1, fun p => ?_⟩
    rw [life_snoc, told_snoc]
    exact k2 p
  | ulftrace opts c =>
    obtain ⟨k1, k2⟩ := tool rfl
    refine ⟨k1, fun p => ?_⟩
    rw [life_snoc, told_snoc]
    exact k2 p
  | begins q w =>
    cases hs
    refine ⟨hsame.proc q w, fun p => ?_⟩
    rw [life_snoc, told_snoc]
    unfold lifeStep
    dsimp only
    by_cases hq : q = p
    · subst hq
      have hpq : (setProc t q w).procs q = some w := if_pos rfl
      rw [if_pos rfl, if_pos rfl, hpq]
      exact ⟨w, [], rfl, rfl, rfl⟩
    · have hpq : (setProc t q w).procs p = t.procs p := if_neg fun e => hq e.symm
      rw [if_neg hq, if_neg hq, hpq]
      exact h p
  | ends q =>
    cases hs
    refine ⟨⟨hsame.files, hsame.objPath, hsame.object⟩, fun p => ?_⟩
    rw [life_snoc, told_snoc]
    unfold lifeStep
    dsimp only
    by_cases hq : q = p
    · subst hq
      rw [if_pos rfl, if_pos rfl]
      exact if_pos rfl
    · rw [if_neg hq, if_neg hq, if_neg fun e => hq e.symm]
      exact h p

theorem run_agree {M : Machine} {s : System} : ∀ (n : Nat) (vs : List Ev), vs.length = n → (∀ v ∈ vs, v.plain = true) →
    ∀ t os, run M s vs = some (t, os) → Same s t ∧ ∀ p, Agree M (life s p vs) (told s p (vs.zip os)) (t.procs p) := by
  intro n
  induction n with
  | zero =>
    intro vs hn _ t os h
    obtain rfl := List.eq_nil_of_length_eq_zero hn
    cases h
    refine ⟨Same.refl s, fun p => ?_⟩
    show Agree M ((s.procs p).map fun w => (w, [])) [] (s.procs p)
    cases s.procs p with
    | none => rfl
    | some w => exact ⟨w, [], rfl, rfl, rfl⟩
  | succ n ih =>
    intro vs hn hv t os h
    obtain ⟨us, v, rfl⟩ : ∃ us v, vs = us ++ [v] :=
      ⟨vs.dropLast, vs.getLast (by rintro rfl; cases hn), (List.dropLast_concat_getLast _).symm⟩
    have hlu : us.length = n := by
      rw [List.length_append] at hn
      exact Nat.succ.inj hn
    rw [run_snoc] at h
    cases h1 : run M s us with
    | none => rw [h1] at h; cases h
    | some y =>
      rw [h1] at h
      dsimp only [Option.bind] at h
      cases h2 : step M y.1 v with
      | none => rw [h2] at h; cases h
      | some z =>
        rw [h2] at h
        cases h
        obtain ⟨i1, i2⟩ := ih us hlu (fun x hx => hv x (List.mem_append_left _ hx)) y.1 y.2 h1
        exact agree_step (run_length M us s y.1 y.2 h1) i1 (hv v (by simp)) i2 h2

/-- If the commands on every process can be run, all can. -/
theorem run_total {M : Machine} {s : System} : ∀ (n : Nat) (vs : List Ev), vs.length = n → (∀ v ∈ vs, v.plain = true) →
    (∀ us, us <+: vs → ∀ p w cs, life s p us = some (w, cs) → runFiles M w cs ≠ none) → ∃ t os, run M s vs = some (t, os) := by
  intro n
  induction n with
  | zero =>
    intro vs hn _ _
    obtain rfl := List.eq_nil_of_length_eq_zero hn
    exact ⟨s, [], rfl⟩
  | succ n ih =>
    intro vs hn hv hg
    obtain ⟨us, v, rfl⟩ : ∃ us v, vs = us ++ [v] :=
      ⟨vs.dropLast, vs.getLast (by rintro rfl; cases hn), (List.dropLast_concat_getLast _).symm⟩
    have hlu : us.length = n := by
      rw [List.length_append] at hn
      exact Nat.succ.inj hn
    have hvu : ∀ x ∈ us, x.plain = true := fun x hx => hv x (List.mem_append_left _ hx)
    obtain ⟨t, os, hr⟩ := ih us hlu hvu fun ws hws => hg ws (hws.trans (List.prefix_append _ _))
    obtain ⟨hsame, hag⟩ := run_agree n us hlu hvu t os hr
    have hvp : v.plain = true := hv v (by simp)
    rw [run_snoc, hr]
    dsimp only [Option.bind]
    have key : ∃ z, step M t v = some z := by
      by_cases ht : v.tool = true
      · have hl : ∀ p, life s p (us ++ [v]) = match v.own s p with | none => life s p us | some x => (life s p us).map fun y => (y.1, y.2 ++ [x]) := by
          intro p
          rw [life_snoc]
          cases v <;> first | rfl | cases ht
        rcases shape M t ht with ⟨u, o, hu, -⟩ | ⟨p, w, x, u, hw, hon, hx, -, -, -, hr'⟩
        · exact ⟨_, hu⟩
        · have hx' := hx hvp
          rw [own_congr hsame p hvp] at hx'
          have hp := hag p
          cases hlp : life s p us with
          | none =>
            rw [hlp, hw] at hp
            cases hp
          | some z =>
            rw [hlp, hw] at hp
            obtain ⟨w', rs, k1, k2, k3⟩ := hp
            cases k1
            have hne := hg (us ++ [v]) (List.prefix_refl _) p z.1 (z.2 ++ [x]) (by rw [hl, hx', hlp]; rfl)
            rw [runFiles_snoc, k2] at hne
            cases hrf : runFile M w x with
            | none =>
              dsimp only [Option.bind] at hne
              rw [hrf] at hne
              exact absurd rfl hne
            | some y =>
              rw [hrf] at hr'
              exact ⟨_, hr'⟩
      · cases v with
        | ulpatch opts c => exact absurd rfl ht
        | ulftrace opts c => exact absurd rfl ht
        | begins p w => exact ⟨_, rfl⟩
        | ends p => exact ⟨_, rfl⟩
    obtain ⟨z, hz⟩ := key
    rw [hz]
    exact ⟨_, _, rfl⟩

/-! ### One process alone -/

/-- The same end, and the same process `p` and files after it. -/
def Rel (p : BitVec 32) (a b : Option (System × Out)) : Prop :=
  ∀ s o, a = some (s, o) → ∃ t, b = some (t, o) ∧ Same s t ∧ t.procs p = s.procs p

theorem Same.symm {s t : System} (h : Same s t) : Same t s :=
  ⟨fun q hq => (h.files q hq).symm, h.objPath.symm, h.object.symm⟩

theorem Rel.some {p : BitVec 32} {s t : System} (o : Out) (h : Same s t) (hp : t.procs p = s.procs p) :
    Rel p (some (s, o)) (some (t, o)) := by
  intro s' o' he
  cases he
  exact ⟨t, rfl, h, hp⟩

theorem onProc_rel (M : Machine) {s t : System} (c : Circ) (p : BitVec 32) (w : Patch.World) (fail : Int) (x : FileCmd)
    (h : Same s t) (hp : t.procs p = s.procs p) : Rel p (onProc M s c p w fail x) (onProc M t c p w fail x) := by
  unfold onProc
  by_cases h1 : c.starts = false
  · rw [if_pos h1, if_pos h1]
    exact .some _ h hp
  rw [if_neg h1, if_neg h1]
  by_cases h2 : c.opens = false
  · rw [if_pos h2, if_pos h2]
    exact .some _ h hp
  rw [if_neg h2, if_neg h2]
  cases runFile M w x with
  | none => intro s' o' he; cases he
  | some y =>
    refine .some _ ⟨h.files, h.objPath, h.object⟩ ?_
    show (if p = p then _ else _) = if p = p then _ else _
    rw [if_pos rfl, if_pos rfl]

theorem step_rel (M : Machine) {s t : System} {p : BitVec 32} {v : Ev} (h : Same s t) (hp : t.procs p = s.procs p)
    (hv : v.plain = true) (hon : v.on p = true) : Rel p (step M s v) (step M t v) := by
  cases v with
  | begins q w =>
    have : q = p := by simpa [Ev.on] using hon
    subst this
    refine .some _ ⟨h.files, h.objPath, h.object⟩ ?_
    show (if q = q then _ else _) = if q = q then _ else _
    rw [if_pos rfl, if_pos rfl]
  | ends q =>
    have : q = p := by simpa [Ev.on] using hon
    subst this
    refine .some _ ⟨h.files, h.objPath, h.object⟩ ?_
    show (if q = q then _ else _) = if q = q then _ else _
    rw [if_pos rfl, if_pos rfl]
  | ulpatch opts c =>
    show Rel p (ulpatch M s opts c) (ulpatch M t opts c)
    unfold ulpatch
    cases hf : opts.foldlM Cli.patchOpt {} with
    | error n => exact .some _ h hp
    | ok g =>
      dsimp only
      obtain ⟨-, q2, q3⟩ := (Cli.patch_fold opts {}).1 g hf
      have hpid : g.pid = p := by
        have ho : pidOf opts = some p := by simpa [Ev.on] using hon
        unfold pidOf at ho
        cases hl : lastPid opts with
        | none => rw [hl] at ho; cases ho
        | some x =>
          rw [hl] at ho q3
          cases x <;> first | (cases ho; done) | skip
          cases ho
          exact q3
      by_cases hcmd : g.cmd = .none
      · rw [if_pos hcmd, if_pos hcmd]
        exact .some _ h hp
      rw [if_neg hcmd, if_neg hcmd]
      by_cases hm1 : g.pid = -1
      · rw [if_pos hm1, if_pos hm1]
        exact .some _ h hp
      rw [if_neg hm1, if_neg hm1, hpid, hp]
      cases s.procs p with
      | none =>
        dsimp only
        intro s' o' he
        cases he
        exact ⟨t, rfl, h, hp⟩
      | some w =>
        dsimp only
        by_cases hu : g.cmd = .unpatch
        · rw [if_pos hu, if_pos hu]
          exact onProc_rel M c p w _ _ h hp
        rw [if_neg hu, if_neg hu]
        have hl : ∃ f, lastCmd opts = some (.patch f) ∧ g.file = some f := by
          cases hl : lastCmd opts with
          | none =>
            rw [hl] at q2
            exact absurd q2.1 hcmd
          | some x =>
            rw [hl] at q2
            have hx : x.isCmd = true := (List.mem_filter.1 (List.mem_of_getLast? hl)).2
            cases x <;> first | (cases hx; done) | skip
            · exact ⟨_, rfl, q2.2⟩
            · exact absurd q2 hu
        obtain ⟨f, hl, hgf⟩ := hl
        rw [hgf]
        have hne : f ≠ PFile.tempUlp := by
          rintro rfl
          unfold Ev.plain at hv
          dsimp only at hv
          rw [hl] at hv
          simp at hv
        obtain ⟨s1, s2⟩ := check_same s c (some f)
        obtain ⟨t1, t2⟩ := check_same t c (some f)
        have h' : Same (check s c (some f)).2 (check t c (some f)).2 := (s1.symm.trans h).trans t1
        have hp' : (check t c (some f)).2.procs p = (check s c (some f)).2.procs p := by rw [s2, t2]; exact hp
        have hc' : contents (check t c (some f)).2 (some f) = contents (check s c (some f)).2 (some f) := by
          unfold contents
          dsimp only
          rw [h'.files f hne]
        rw [check_congr h c hne, hc']
        cases (check s c (some f)).1 with
        | error x => exact .some _ h' hp'
        | ok n =>
          dsimp only
          by_cases hn : n ≠ 0
          · rw [if_pos hn, if_pos hn]
            exact .some _ h' hp'
          rw [if_neg hn, if_neg hn]
          cases contents (check s c (some f)).2 (some f) with
          | none => exact .some _ h' hp'
          | some b => exact onProc_rel M c p w _ _ h' hp'
  | ulftrace opts c =>
    show Rel p (ulftrace M s opts c) (ulftrace M t opts c)
    have hobj : ∀ g : Cli.TraceCfg, opts.foldlM Cli.traceOpt {} = .ok g →
        g.obj ≠ some PFile.tempUlp ∧ (traceEnv t c).pidExists g.pid = (traceEnv s c).pidExists g.pid ∧ g.pid = p := by
      intro g hg
      obtain ⟨-, q2, q3, q4⟩ := (trace_fold opts {}).1 g hg
      have ho : pidOf opts = some p := by simpa [Ev.on] using hon
      have q2 : g.pid = p := by rw [q2, ho]; rfl
      refine ⟨?_, ?_, q2⟩
      · rw [q4]
        unfold Ev.plain at hv
        dsimp only at hv
        intro hx
        have : objOf opts = some PFile.tempUlp := by
          rw [← hx]
          cases objOf opts <;> rfl
        rw [this] at hv
        simp at hv
      · unfold traceEnv
        dsimp only
        rw [q2, hp]
    have hpar : Cli.traceParse (traceEnv t c) t.objPath opts = Cli.traceParse (traceEnv s c) s.objPath opts := by
      unfold Cli.traceParse
      cases hf : opts.foldlM Cli.traceOpt {} with
      | error n => rfl
      | ok g =>
        obtain ⟨k1, k2, -⟩ := hobj g hf
        show Cli.traceCheck _ _ g = Cli.traceCheck _ _ g
        unfold Cli.traceCheck
        rw [k2, h.objPath]
        have e : ∀ o, Cli.traceObj s.objPath g.obj = o → (o = s.objPath ∨ t.files o = s.files o) := by
          intro o ho
          unfold Cli.traceObj at ho
          cases hg : g.obj with
          | none => rw [hg] at ho; exact .inl ho.symm
          | some x =>
            rw [hg] at ho k1
            right
            refine h.files o ?_
            rintro rfl
            exact k1 (congrArg some ho)
        generalize hob : Cli.traceObj s.objPath g.obj = ob
        have e1 : (traceEnv t c).exist ob = (traceEnv s c).exist ob := by
          unfold traceEnv
          dsimp only
          rw [h.objPath]
          rcases e ob hob with q | q
          · rw [if_pos q, if_pos q]
          · rw [q]
        have e2 : (traceEnv t c).relocatable ob = (traceEnv s c).relocatable ob := by
          unfold traceEnv
          dsimp only
          rw [h.objPath, h.object]
          rcases e ob hob with q | q
          · rw [if_pos q, if_pos q]
          · rw [q]
        dsimp only
        rw [e1, e2]
    unfold ulftrace
    rw [hpar, h.object]
    cases hg : Cli.traceParse (traceEnv s c) s.objPath opts with
    | error n => exact .some _ h hp
    | ok g =>
      dsimp only
      have hpid : g.pid = p := by
        obtain ⟨d, k1, k2⟩ := Cli.bind_ok hg
        obtain ⟨-, -, q⟩ := hobj d k1
        rw [← q]
        unfold Cli.traceCheck at k2
        split at k2
        · cases k2
        split at k2
        · cases k2
        split at k2
        · cases k2
        dsimp only at k2
        split at k2
        · cases k2
        split at k2
        · cases k2
        cases k2
        rfl
      rw [hpid, hp]
      cases s.procs p with
      | none =>
        intro s' o' he
        cases he
        exact ⟨t, rfl, h, hp⟩
      | some w =>
        cases g.func with
        | none =>
          intro s' o' he
          cases he
          exact ⟨t, rfl, h, hp⟩
        | some func => exact onProc_rel M c p w _ _ h hp

/-- An event changes nothing but what it is about, and `temp.ulp`. -/
theorem step_off (M : Machine) {s t : System} {v : Ev} {o : Out} (h : step M s v = some (t, o)) :
    Same s t ∧ ∀ p, v.on p = false → t.procs p = s.procs p := by
  by_cases hv : v.tool = true
  · have hs := shape M s hv
    rw [h] at hs
    rcases hs with ⟨u, o', hu, hup, hus, -⟩ | ⟨p, w, x, u, hw, hon, -, -, hup, hus, hr⟩
    · cases hu
      exact ⟨hus, fun p _ => by rw [hup]⟩
    · cases hrf : runFile M w x with
      | none => rw [hrf] at hr; cases hr
      | some y =>
        rw [hrf] at hr
        cases hr
        refine ⟨hus.proc p y.1, fun q hq => ?_⟩
        have : q ≠ p := by
          rintro rfl
          rw [hon] at hq
          cases hq
        show (if q = p then _ else _) = _
        rw [if_neg this, hup]
  · cases v with
    | ulpatch opts c => exact absurd rfl hv
    | ulftrace opts c => exact absurd rfl hv
    | begins q w =>
      cases h
      refine ⟨(Same.refl s).proc q w, fun p hp => if_neg ?_⟩
      rintro rfl
      simp [Ev.on] at hp
    | ends q =>
      cases h
      refine ⟨⟨fun _ _ => rfl, rfl, rfl⟩, fun p hp => if_neg ?_⟩
      rintro rfl
      simp [Ev.on] at hp

theorem run_off (M : Machine) (p : BitVec 32) : ∀ (vs : List Ev) (s s' t : System) (os : List Out),
    (∀ v ∈ vs, v.plain = true) → Same s s' → s'.procs p = s.procs p → run M s vs = some (t, os) →
    ∃ t', run M s' (vs.filter (·.on p)) = some (t', ((vs.zip os).filter (·.1.on p)).map (·.2)) ∧
      Same t t' ∧ t'.procs p = t.procs p := by
  intro vs
  induction vs with
  | nil =>
    intro s s' t os _ h hp hr
    cases hr
    exact ⟨s', rfl, h, hp⟩
  | cons v vs ih =>
    intro s s' t os hv h hp hr
    unfold run at hr
    cases h1 : step M s v with
    | none => rw [h1] at hr; cases hr
    | some y =>
      rw [h1] at hr
      dsimp only at hr
      cases h2 : run M y.1 vs with
      | none => rw [h2] at hr; cases hr
      | some z =>
        rw [h2] at hr
        cases hr
        have hv' : ∀ x ∈ vs, x.plain = true := fun x hx => hv x (List.mem_cons_of_mem _ hx)
        by_cases hon : v.on p = true
        · obtain ⟨u, k1, k2, k3⟩ := step_rel M h hp (hv v List.mem_cons_self) hon y.1 y.2 h1
          obtain ⟨t', i1, i2, i3⟩ := ih y.1 u z.1 z.2 hv' k2 k3 h2
          refine ⟨t', ?_, i2, i3⟩
          rw [List.filter_cons_of_pos hon, List.zip_cons_cons, List.filter_cons_of_pos (p := fun x : Ev × Out => Ev.on p x.1) (a := (v, y.2)) hon]
          unfold run
          rw [k1]
          dsimp only
          rw [i1]
          rfl
        · have hoff : v.on p = false := by simpa using hon
          obtain ⟨k1, k2⟩ := step_off M h1
          obtain ⟨t', i1, i2, i3⟩ := ih y.1 s' z.1 z.2 hv' (k1.symm.trans h) (hp.trans (k2 p hoff).symm) h2
          refine ⟨t', ?_, i2, i3⟩
          rw [List.filter_cons_of_neg hon, List.zip_cons_cons, List.filter_cons_of_neg (p := fun x : Ev × Out => Ev.on p x.1) (a := (v, y.2)) hon]
          exact i1

end Ulp.Sys
