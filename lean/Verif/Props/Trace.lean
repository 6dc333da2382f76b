/-
C73, C120: what `ulftrace` does to the patches of a process.
-/
import Verif.Props.FileHist
namespace Ulp.LoadBytes
open Load PatchFile

/-! ### C73 -/

/-- `ulftrace` without the function in the process: nothing is done, the status is 1. -/
theorem C73_no_function_partial (M : Machine) (w : Patch.World) (rd : Patch.Mapping → Patch.ReadRes)
    (hr : ∀ m, rd m = .ok) (hready : ∀ m ∈ w.maps, m.ready = true) (hdr : Addr)
    (find : List Byte → Option (BitVec 64)) (now : BitVec 64) (func f : List Byte) (e : Patch.PatchEnv)
    (d : Patch.DeleteEnv) (hf : find func = none) :
    runFile M w (.trace rd hdr find now func f e d) = some (w, 1) := by
  have hopen := Patch.openTask_ok rd w true (fun m _ => hr m) hready
  unfold runFile traceFile
  dsimp only
  rw [hopen]
  dsimp only
  rw [hf]

section
variable {M : Machine} {width : Nat → Nat}
  {value : Nat → BitVec 64 → BitVec 64 → BitVec 64 → Option (Nat × BitVec 64)}
  {R : Addr → Prop} {base : Mem} {n : Nat} {w : Patch.World} {st : List LiveFile}
  {rd : Patch.Mapping → Patch.ReadRes} {hdr : Addr} {find : List Byte → Option (BitVec 64)} {now : BitVec 64}
  {func f : List Byte} {e : Patch.PatchEnv} {d : Patch.DeleteEnv}

theorem FInv.ids (h : FInv width value R base n w st) : ∀ m ∈ w.maps, 1 ≤ m.info.id.toNat ∧ m.info.id.toNat ≤ n := by
  intro m hm
  obtain ⟨v, hv, rfl⟩ := h.of_map hm
  exact h.inv.bound v.layer (List.mem_map_of_mem hv)

/-- An unpatch command whose system calls all succeed. -/
theorem unpatch_smooth (h : FInv width value R base n w st) (hr : ∀ m, rd m = .ok)
    (ha : d.attach = .ok) (hw : d.writeN = some 16) (hu : d.munmap = .done) :
    ∃ w' r, Patch.runCmd w (.unpatch rd d) = some (w', r) ∧ w'.arch = w.arch ∧
      ((st = [] ∧ r = -2 ∧ FInv width value R base n w' []) ∨
        ∃ v rest, st = v :: rest ∧ r = 0 ∧ FInv width value R base n w' rest) := by
  have hg : d.Good := .inr (.inr ⟨16, by decide, hw⟩)
  obtain ⟨w', r, st', hrun, harch, hdo, hinv⟩ := unpatch_file h rd hr d hg
  refine ⟨w', r, hrun, harch, ?_⟩
  have hrun' := hrun
  unfold Patch.runCmd at hrun'
  dsimp only at hrun'
  rw [Patch.openTask_ok rd w true (fun m _ => hr m) h.inv.ready, Option.map_some, Option.some.injEq] at hrun'
  cases hst : st with
  | nil =>
    subst hst
    have hm : w.maps = [] := List.nil_perm.1 h.inv.perm
    rw [deletePatch_none (by dsimp only; rw [hm]; rfl)] at hrun'
    cases hrun'
    refine .inl ⟨rfl, rfl, ?_⟩
    cases hdo with
    | failed => exact hinv
  | cons v rest =>
    subst hst
    have hv : v.mapping ∈ w.maps := h.live (List.mem_cons_self ..)
    have hr0 : r = 0 := by
      unfold Patch.deletePatch at hrun'
      dsimp only at hrun'
      cases hfind : w.maps.find? (fun u => decide (Patch.maxOf w.maps 0 = u.info.id)) with
      | none =>
        rw [List.find?_eq_none] at hfind
        have h1 := Patch.maxOf_ge w.maps 0 _ hv
        have h2 := (h.ids _ hv).1
        rcases Patch.maxOf_mem w.maps 0 with h0 | ⟨m, hm, he⟩
        · rw [h0] at h1
          have : (0 : BitVec 32).toNat = 0 := rfl
          omega
        · exact absurd (by rw [decide_eq_true_eq]; exact he.symm) (hfind m hm)
      | some u =>
        have hu' := List.mem_of_find?_eq_some hfind
        obtain ⟨x, hx, rfl⟩ := h.of_map hu'
        have h16 := h.orig hx
        rw [hfind, ha, hw, hu] at hrun'
        dsimp only at hrun'
        have hwt : (Patch.writeTask (Patch.attach .ok w).1 x.mapping.info.virt x.mapping.info.orig (some 16)).2 = true := by
          unfold Patch.writeTask
          dsimp only
          rw [show x.mapping.info.orig.length = 16 from h16]
          decide
        rw [if_pos hwt] at hrun'
        exact (Prod.mk.inj hrun').2.symm
    subst hr0
    refine .inr ⟨v, rest, rfl, rfl, ?_⟩
    cases hdo with
    | patched hg => obtain ⟨_, _, _, q, _⟩ := hg; cases q
    | unpatched => exact hinv
    | failed hne => exact absurd rfl hne
    | gone hne => exact absurd rfl hne
    | stays hne => exact absurd rfl hne

/-- `init_patch` with a file that `load` refuses leaves the session as it was. -/
theorem initPatch_refused (w : Patch.World) (s : Patch.Session) (e : Patch.PatchEnv) {k : Nat} (h : Stops e k) :
    (Patch.initPatch w s e).2.1 = s := by
  unfold Patch.initPatch
  split
  · rfl
  · cases e.alloc with
    | some n => rfl
    | none =>
      cases e.chown with
      | some n => rfl
      | none =>
        dsimp only
        generalize Patch.createMmap w e = c
        obtain ⟨w', r⟩ := c
        cases r with
        | error r => rfl
        | ok a =>
          dsimp only
          have : (Patch.loadPatch w' s e a).2.1 = s := (h.load w' s a).2.2
          split <;> exact this

/-- `ulftrace` with an object that is refused. -/
theorem trace_refused (hM : Links M width value) (h : FInv width value R base n w st) (hn : n + 1 < 2 ^ 32)
    {y : BitVec 64} (hf : find func = some y) (g : GoodPatch width R w rd find f e)
    (hload : ∀ E : Env, E.find = find → ∃ k, load M E f = some (.error k))
    (ha : d.attach = .ok) (hw : d.writeN = some 16) (hu : d.munmap = .done) :
    ∃ w' r, traceFile M w rd hdr find now func f e d = some (w', r) ∧ w'.arch = w.arch ∧
      ((st = [] ∧ r = -2 ∧ FInv width value R base (n + 1) w' []) ∨
        ∃ v rest, st = v :: rest ∧ r = 0 ∧ FInv width value R base (n + 1) w' rest) := by
  have hopen := Patch.openTask_ok rd w true (fun m _ => g.1 m) h.inv.ready
  obtain ⟨w1, r, st1, hrun, harch, hdo, hmaps, hinv⟩ := patch_file (hdr := hdr) (now := now) hM h hn g
  obtain ⟨k, hk⟩ := hload (sessionEnv { ulps := w.maps, maxId := Patch.maxOf w.maps 0, ftoProc := true }
    hdr (mmapAddr e.mmap) find now) rfl
  have hset := initPatch_setup w { ulps := w.maps, maxId := Patch.maxOf w.maps 0, ftoProc := true }
      _ (stops_refused e f (headersDone (sessionEnv { ulps := w.maps, maxId := Patch.maxOf w.maps 0, ftoProc := true }
        hdr (mmapAddr e.mmap) find now) f) k)
  have hses := initPatch_refused w { ulps := w.maps, maxId := Patch.maxOf w.maps 0, ftoProc := true }
      _ (stops_refused e f (headersDone (sessionEnv { ulps := w.maps, maxId := Patch.maxOf w.maps 0, ftoProc := true }
        hdr (mmapAddr e.mmap) find now) f) k)
  unfold patchFile at hrun
  rw [hopen] at hrun
  dsimp only at hrun
  rw [hk] at hrun
  dsimp only at hrun
  rw [Option.some.injEq, Prod.mk.injEq] at hrun
  have hr : r ≠ 0 := by rw [← hrun.2]; exact hset.1
  have hst : st1 = st := by
    cases hdo with
    | patched => exact absurd rfl hr
    | refused => rfl
  subst hst
  obtain ⟨w2, r2, hrun2, harch2, hcase⟩ := unpatch_smooth hinv g.1 ha hw hu
  refine ⟨w2, r2, ?_, harch2.trans harch, hcase⟩
  rw [← hrun2]
  unfold traceFile
  rw [hopen]
  dsimp only
  rw [hf]
  dsimp only
  rw [hk]
  dsimp only
  unfold Patch.traceSession
  dsimp only
  rw [hses, hrun.1]
  unfold Patch.runCmd
  dsimp only
  rw [Patch.openTask_ok rd w1 true (fun m _ => g.1 m) hinv.inv.ready, Option.map_some, hmaps hr]

/-- `ulftrace` with an object that can be loaded. -/
theorem trace_loaded (hM : Links M width value) (h : FInv width value R base n w st) (hn : n + 1 < 2 ^ 32)
    {y : BitVec 64} (hf : find func = some y) (g : GoodPatch width R w rd find f e)
    (hp : ∃ w1, patchFile M w rd hdr find now f e = some (w1, 0)) :
    ∃ w' v, patchFile M w rd hdr find now f e = some (w', 0) ∧
      traceFile M w rd hdr find now func f e d = some (w', -2) ∧ w'.arch = w.arch ∧
      (FileCmd.patch rd hdr find now f e).Gives v ∧ FInv width value R base (n + 1) w' (v :: st) := by
  obtain ⟨w1, hp⟩ := hp
  have hopen := Patch.openTask_ok rd w true (fun m _ => g.1 m) h.inv.ready
  obtain ⟨w', r, st1, hrun, harch, hdo, -, hinv⟩ := patch_file (hdr := hdr) (now := now) hM h hn g
  rw [hp] at hrun
  cases hrun
  obtain ⟨s1, hu, hid, h0, htr⟩ := traceFile_of_patch (func := func) (d := d) hopen hf hp
  rw [deletePatch_none (by
    rw [hu, h0 rfl]
    exact no_next fun m hm => by have := (h.ids m hm).2; omega)] at htr
  cases hdo with
  | patched hg => exact ⟨w1, _, hp, htr, harch, hg, hinv⟩
  | refused hne => exact absurd rfl hne

end

section
variable (R : Addr → Prop) (w0 : Patch.World) (cs : List FileCmd)
  (rd : Patch.Mapping → Patch.ReadRes) (hdr : Addr) (find : List Byte → Option (BitVec 64)) (now : BitVec 64)
  (func f : List Byte) (e : Patch.PatchEnv) (d : Patch.DeleteEnv)

/-- C73 is violated (x86_64), after any history: if the object of `ulftrace` can be loaded, it is
not taken out again, and the status says that there was no patch. -/
theorem C73_stays_x86 (h0 : w0.maps = []) (hlen : cs.length + 1 < 2 ^ 32) (hg : GoodFiles x86 Psabi.x86Width R w0 cs)
    {y : BitVec 64} (hf : find func = some y)
    (hgood : ∀ w rs, runFiles x86 w0 cs = some (w, rs) → GoodPatch Psabi.x86Width R w rd find f e)
    (hp : ∀ w rs, runFiles x86 w0 cs = some (w, rs) → ∃ w1, patchFile x86 w rd hdr find now f e = some (w1, 0)) :
    ∃ w rs st w' v, runFiles x86 w0 cs = some (w, rs) ∧ AllDo [] cs rs st ∧
      Holds Psabi.x86Width Psabi.x86 R w0.mem w st ∧
      runFile x86 w (.trace rd hdr find now func f e d) = some (w', -2) ∧
      (FileCmd.patch rd hdr find now f e).Gives v ∧ Holds Psabi.x86Width Psabi.x86 R w0.mem w' (v :: st) := by
  obtain ⟨w, rs, st, h1, h2, h3, h4⟩ := files_inv links_x86 cs (FInv.init R w0 h0) (by omega) hg
  obtain ⟨w', v, -, k2, k3, k4, k5⟩ := trace_loaded (d := d) links_x86 h4 (by omega) hf (hgood w rs h1) (hp w rs h1)
  exact ⟨w, rs, st, w', v, h1, h3, h4.holds, k2, k4, k5.holds⟩

/-- C73 is violated (aarch64) in the same way. -/
theorem C73_stays_a64 (junk : Bool) (h0 : w0.maps = []) (hlen : cs.length + 1 < 2 ^ 32)
    (hg : GoodFiles (a64 junk) Psabi.a64Width R w0 cs)
    {y : BitVec 64} (hf : find func = some y)
    (hgood : ∀ w rs, runFiles (a64 junk) w0 cs = some (w, rs) → GoodPatch Psabi.a64Width R w rd find f e)
    (hp : ∀ w rs, runFiles (a64 junk) w0 cs = some (w, rs) →
      ∃ w1, patchFile (a64 junk) w rd hdr find now f e = some (w1, 0)) :
    ∃ w rs st w' v, runFiles (a64 junk) w0 cs = some (w, rs) ∧ AllDo [] cs rs st ∧
      Holds Psabi.a64Width Psabi.a64Data R w0.mem w st ∧
      runFile (a64 junk) w (.trace rd hdr find now func f e d) = some (w', -2) ∧
      (FileCmd.patch rd hdr find now f e).Gives v ∧ Holds Psabi.a64Width Psabi.a64Data R w0.mem w' (v :: st) := by
  obtain ⟨w, rs, st, h1, h2, h3, h4⟩ := files_inv (links_a64 junk) cs (FInv.init R w0 h0) (by omega) hg
  obtain ⟨w', v, -, k2, k3, k4, k5⟩ :=
    trace_loaded (d := d) (links_a64 junk) h4 (by omega) hf (hgood w rs h1) (hp w rs h1)
  exact ⟨w, rs, st, w', v, h1, h3, h4.holds, k2, k4, k5.holds⟩

/-- C73 is violated (x86_64), after any history: if the object of `ulftrace` is refused, the newest
patch of the process is taken out, whosoever it is, and the status is 0.  Only a process
without patches is left as it was. -/
theorem C73_takes_out_x86 (h0 : w0.maps = []) (hlen : cs.length + 1 < 2 ^ 32) (hg : GoodFiles x86 Psabi.x86Width R w0 cs)
    {y : BitVec 64} (hf : find func = some y)
    (hgood : ∀ w rs, runFiles x86 w0 cs = some (w, rs) → GoodPatch Psabi.x86Width R w rd find f e)
    (hload : ∀ E : Env, E.find = find → ∃ k, load x86 E f = some (.error k))
    (ha : d.attach = .ok) (hw : d.writeN = some 16) (hu : d.munmap = .done) :
    ∃ w rs st w' r, runFiles x86 w0 cs = some (w, rs) ∧ AllDo [] cs rs st ∧
      Holds Psabi.x86Width Psabi.x86 R w0.mem w st ∧
      runFile x86 w (.trace rd hdr find now func f e d) = some (w', r) ∧
      ((st = [] ∧ r = -2 ∧ Holds Psabi.x86Width Psabi.x86 R w0.mem w' []) ∨
        ∃ v rest, st = v :: rest ∧ r = 0 ∧ Holds Psabi.x86Width Psabi.x86 R w0.mem w' rest) := by
  obtain ⟨w, rs, st, h1, h2, h3, h4⟩ := files_inv links_x86 cs (FInv.init R w0 h0) (by omega) hg
  obtain ⟨w', r, k1, k2, k3⟩ := trace_refused (hdr := hdr) (now := now) links_x86 h4 (by omega) hf (hgood w rs h1) hload ha hw hu
  refine ⟨w, rs, st, w', r, h1, h3, h4.holds, k1, ?_⟩
  rcases k3 with ⟨e1, e2, e3⟩ | ⟨v, rest, e1, e2, e3⟩
  · exact .inl ⟨e1, e2, e3.holds⟩
  · exact .inr ⟨v, rest, e1, e2, e3.holds⟩

/-- C73 is violated (aarch64) in the same way. -/
theorem C73_takes_out_a64 (junk : Bool) (h0 : w0.maps = []) (hlen : cs.length + 1 < 2 ^ 32)
    (hg : GoodFiles (a64 junk) Psabi.a64Width R w0 cs)
    {y : BitVec 64} (hf : find func = some y)
    (hgood : ∀ w rs, runFiles (a64 junk) w0 cs = some (w, rs) → GoodPatch Psabi.a64Width R w rd find f e)
    (hload : ∀ E : Env, E.find = find → ∃ k, load (a64 junk) E f = some (.error k))
    (ha : d.attach = .ok) (hw : d.writeN = some 16) (hu : d.munmap = .done) :
    ∃ w rs st w' r, runFiles (a64 junk) w0 cs = some (w, rs) ∧ AllDo [] cs rs st ∧
      Holds Psabi.a64Width Psabi.a64Data R w0.mem w st ∧
      runFile (a64 junk) w (.trace rd hdr find now func f e d) = some (w', r) ∧
      ((st = [] ∧ r = -2 ∧ Holds Psabi.a64Width Psabi.a64Data R w0.mem w' []) ∨
        ∃ v rest, st = v :: rest ∧ r = 0 ∧ Holds Psabi.a64Width Psabi.a64Data R w0.mem w' rest) := by
  obtain ⟨w, rs, st, h1, h2, h3, h4⟩ := files_inv (links_a64 junk) cs (FInv.init R w0 h0) (by omega) hg
  obtain ⟨w', r, k1, k2, k3⟩ :=
    trace_refused (hdr := hdr) (now := now) (links_a64 junk) h4 (by omega) hf (hgood w rs h1) hload ha hw hu
  refine ⟨w, rs, st, w', r, h1, h3, h4.holds, k1, ?_⟩
  rcases k3 with ⟨e1, e2, e3⟩ | ⟨v, rest, e1, e2, e3⟩
  · exact .inl ⟨e1, e2, e3.holds⟩
  · exact .inr ⟨v, rest, e1, e2, e3.holds⟩

end

/-! ### C120 -/

theorem refused_of_links {M : Machine} {width : Nat → Nat}
    {value : Nat → BitVec 64 → BitVec 64 → BitVec 64 → Option (Nat × BitVec 64)} (hM : Links M width value)
    {f : List Byte} {p : Parts} (hp : WellMade width f p) {find : List Byte → Option (BitVec 64)}
    (h : find p.dst = none ∨ ∀ s ∈ p.syms, s.name ≠ p.src) :
    ∀ E : Env, E.find = find → ∃ k, load M E f = some (.error k) := by
  rintro E rfl
  obtain ⟨res, h1, h2⟩ := hM f p hp E
  cases res with
  | error k => exact ⟨k, h1⟩
  | ok L =>
    obtain ⟨-, inf, t, k, s, S, -, k2, k3, -⟩ := h2 L rfl
    rcases h with h | h
    · rw [h] at k2
      cases k2
    · exact absurd k3.2.1 (h s (List.mem_of_getElem? k3.1))

/-- C120 is violated: no well-made object with these names is loaded into a process that has no
`_ftrace_mcount`; nor is it into any process if it has no symbol `mcount`.  (It is
`_ftrace_mcount` that the object has, and `mcount` that processes have.) -/
theorem C120_refused_x86 {f : List Byte} {p : Parts} (hp : WellMade Psabi.x86Width f p)
    (hnames : (p.src, p.dst) = tracingNames .x86_64) {find : List Byte → Option (BitVec 64)}
    (h : find (lit "_ftrace_mcount") = none ∨ ∀ s ∈ p.syms, s.name ≠ lit "mcount") :
    ∀ E : Env, E.find = find → ∃ k, load x86 E f = some (.error k) := by
  obtain ⟨e1, e2⟩ := Prod.mk.inj hnames
  refine refused_of_links links_x86 hp ?_
  rw [e1, e2]
  exact h

/-- C120 is violated on aarch64 in the same way. -/
theorem C120_refused_a64 (junk : Bool) {f : List Byte} {p : Parts} (hp : WellMade Psabi.a64Width f p)
    (hnames : (p.src, p.dst) = tracingNames .aarch64) {find : List Byte → Option (BitVec 64)}
    (h : find (lit "_ftrace_mcount") = none ∨ ∀ s ∈ p.syms, s.name ≠ lit "_mcount") :
    ∀ E : Env, E.find = find → ∃ k, load (a64 junk) E f = some (.error k) := by
  obtain ⟨e1, e2⟩ := Prod.mk.inj hnames
  refine refused_of_links (links_a64 junk) hp ?_
  rw [e1, e2]
  exact h

/-- So every `ulftrace` whose system calls succeed, after any history (x86_64): no function is
traced, and the newest patch of the process, if there is one, is taken out. -/
theorem C120_takes_out_x86 (R : Addr → Prop) (w0 : Patch.World) (cs : List FileCmd)
    (rd : Patch.Mapping → Patch.ReadRes) (hdr : Addr) (find : List Byte → Option (BitVec 64)) (now : BitVec 64)
    (func f : List Byte) (e : Patch.PatchEnv) (d : Patch.DeleteEnv)
    (h0 : w0.maps = []) (hlen : cs.length + 1 < 2 ^ 32) (hg : GoodFiles x86 Psabi.x86Width R w0 cs)
    {y : BitVec 64} (hf : find func = some y)
    (hgood : ∀ w rs, runFiles x86 w0 cs = some (w, rs) → GoodPatch Psabi.x86Width R w rd find f e)
    {p : Parts} (hp : WellMade Psabi.x86Width f p) (hnames : (p.src, p.dst) = tracingNames .x86_64)
    (hno : find (lit "_ftrace_mcount") = none)
    (ha : d.attach = .ok) (hw : d.writeN = some 16) (hu : d.munmap = .done) :
    ∃ w rs st w' r, runFiles x86 w0 cs = some (w, rs) ∧ AllDo [] cs rs st ∧
      Holds Psabi.x86Width Psabi.x86 R w0.mem w st ∧
      runFile x86 w (.trace rd hdr find now func f e d) = some (w', r) ∧
      ((st = [] ∧ r = -2 ∧ Holds Psabi.x86Width Psabi.x86 R w0.mem w' []) ∨
        ∃ v rest, st = v :: rest ∧ r = 0 ∧ Holds Psabi.x86Width Psabi.x86 R w0.mem w' rest) :=
  C73_takes_out_x86 R w0 cs rd hdr find now func f e d h0 hlen hg hf hgood
    (C120_refused_x86 hp hnames (.inl hno)) ha hw hu

/-- C120 up to the names (x86_64): if the metadata of the object say that `src` of the object takes
the place of `dst` in the process, and `ulftrace` loads it, then a processor that comes to
`dst` goes on in `src` of the object; and `ulftrace` leaves it like this. -/
theorem C120_x86_partial {f : List Byte} {secs : List Sec} {o : Nat} {strs : Sec} {si : Nat} {st str : Sec}
    {syms : List SymEntry} {rels : Nat → List RelEntry} {src dst : List Byte}
    (l : Laid f secs o strs) (hr : Readable f secs) (hm : Meta f secs src dst)
    (hS : Symbols f secs si st str syms) (hR : Relocs Psabi.x86Width f secs syms.length rels)
    {w w1 : Patch.World} {rd : Patch.Mapping → Patch.ReadRes}
    {hdr a : Addr} {find : List Byte → Option (BitVec 64)} {now : BitVec 64} {e : Patch.PatchEnv}
    (harch : w.arch = .x86_64) (hrec : e.info0.orig.length = 16) (hmap : e.mmap = .created a)
    (hsep : ∀ t, find dst = some t → ∀ k j, k < f.length → j < 16 →
      a + BitVec.ofNat 64 k ≠ t + BitVec.ofNat 64 j)
    (hrd : ∀ m, rd m = .ok) (hready : ∀ m ∈ w.maps, m.ready = true)
    (hids : ∀ m ∈ w.maps, m.info.id.toNat < 2 ^ 32 - 1)
    (h : patchFile x86 w rd hdr find now f e = some (w1, 0))
    {func : List Byte} {y : BitVec 64} (hf : find func = some y) (d : Patch.DeleteEnv) :
    runFile x86 w (.trace rd hdr find now func f e d) = some (w1, -2) ∧
      ∃ t, find dst = some t ∧ ∀ k s S, LastNamed syms src k s → SymAddr secs a find k s S →
        ∀ cpu : X86.Cpu, cpu.rip = t → cpu.mem = w1.mem → X86.step cpu = some { cpu with rip := S } := by
  obtain ⟨g, inf, t, s, _, _, _, h4, _, _, h7⟩ := C58_x86_patched l hr hm hS hR harch hrec hmap hsep h
  refine ⟨?_, t, h4, h7⟩
  have hopen := Patch.openTask_ok rd w true (fun m _ => hrd m) hready
  obtain ⟨s1, hu, hid, h0, htr⟩ := traceFile_of_patch (func := func) (d := d) hopen hf h
  rw [deletePatch_none (by rw [hu, h0 rfl]; exact no_next hids)] at htr
  exact htr

/-- C120 up to the names (aarch64): if the metadata of the object say that `src` of the object takes
the place of `dst` in the process, and `ulftrace` loads it, then a processor that comes to
`dst` goes on in `src` of the object; and `ulftrace` leaves it like this. -/
theorem C120_a64_partial {f : List Byte} {secs : List Sec} {o : Nat} {strs : Sec} {si : Nat} {st str : Sec}
    {syms : List SymEntry} {rels : Nat → List RelEntry} {src dst : List Byte}
    (l : Laid f secs o strs) (hr : Readable f secs) (hm : Meta f secs src dst)
    (hS : Symbols f secs si st str syms) (hR : Relocs Psabi.a64Width f secs syms.length rels)
    (junk : Bool) {w w1 : Patch.World} {rd : Patch.Mapping → Patch.ReadRes}
    {hdr a : Addr} {find : List Byte → Option (BitVec 64)} {now : BitVec 64} {e : Patch.PatchEnv}
    (harch : w.arch = .aarch64) (hrec : e.info0.orig.length = 16) (hmap : e.mmap = .created a)
    (hsep : ∀ t, find dst = some t → ∀ k j, k < f.length → j < 16 →
      a + BitVec.ofNat 64 k ≠ t + BitVec.ofNat 64 j)
    (hrd : ∀ m, rd m = .ok) (hready : ∀ m ∈ w.maps, m.ready = true)
    (hids : ∀ m ∈ w.maps, m.info.id.toNat < 2 ^ 32 - 1)
    (h : patchFile (a64 junk) w rd hdr find now f e = some (w1, 0))
    {func : List Byte} {y : BitVec 64} (hf : find func = some y) (d : Patch.DeleteEnv) :
    runFile (a64 junk) w (.trace rd hdr find now func f e d) = some (w1, -2) ∧
      ∃ t, find dst = some t ∧ ∀ k s S, LastNamed syms src k s → SymAddr secs a find k s S →
        ∀ cpu : A64.Cpu, cpu.pc = t → cpu.mem = w1.mem →
          A64.steps 2 cpu = some { pc := S, x := fun i => if i = 17 then S else cpu.x i, mem := cpu.mem } := by
  obtain ⟨g, inf, t, s, _, _, _, h4, _, _, h7⟩ := C58_a64_patched_partial l hr hm hS hR junk harch hrec hmap hsep h
  refine ⟨?_, t, h4, h7⟩
  have hopen := Patch.openTask_ok rd w true (fun m _ => hrd m) hready
  obtain ⟨s1, hu, hid, h0, htr⟩ := traceFile_of_patch (func := func) (d := d) hopen hf h
  rw [deletePatch_none (by rw [hu, h0 rfl]; exact no_next hids)] at htr
  exact htr

end Ulp.LoadBytes
