/-
C140: what is typed at `ultask` is what happens to the process.
-/
import Verif.Spec.TaskShell
import Verif.Props.Shell
import Verif.Props.TaskMap
namespace Ulp.TaskShell
open Ultask (Kern)
open TaskRun
open Linux (State Touches)
open Getopt (Word Prog)
open Cli (Opt AOpt Kind Act Sub AddrText SizeText argText rights)
open Shell (plain optsOf)
open Load (lit)
open Text (Numeral)

variable {pg : Nat} {k : Kern (Proc State)}

/-- **C140.**  However the options are written, the run does what they say. -/
theorem C140_means {t : Typed} {os : List AOpt} (h : Prog.ultask.Spelled t.posix t.ws os) (arch : Arch) (p : Proc State) :
    t.run k arch p = (t.job (os.map plain)).run k arch p := by
  unfold Typed.run Job.run
  have e : ∀ vs, ultask k arch t.posix t.ws t.e t.c vs t.out p = TaskRun.ultask k arch t.e t.c vs t.out p (os.map plain) := by
    intro vs
    unfold ultask
    rw [Getopt.C132_read _ _ _ _ h, Shell.optsOf_map]
  cases hv : Vma.readTaskVmas (Vma.initVmas t.info) false t.ls with
  | none =>
    have hv' : Vma.readTaskVmas (Vma.initVmas (t.job (os.map plain)).info) false (t.job (os.map plain)).ls = none := hv
    rw [hv']
    rfl
  | some vs =>
    have hv' : Vma.readTaskVmas (Vma.initVmas (t.job (os.map plain)).info) false (t.job (os.map plain)).ls = some vs := hv
    rw [hv', Option.bind_some, Option.bind_some]
    exact e vs

theorem any_words (t : Typed) (arch : Arch) (p : Proc State) :
    ∃ os, t.run k arch p = (t.job (os.map plain)).run k arch p ∧
      (Opt.stop 1 ∉ os.map plain → Prog.ultask.Loose t.posix t.ws os) := by
  obtain ⟨os, e1, e2⟩ := Shell.seen .ultask t.posix t.ws
  refine ⟨os, ?_, Shell.loose _ _ _ _ e1⟩
  unfold Typed.run Job.run ultask
  rw [e2]
  rfl

theorem no_stop {e : Cli.Env} {opts : List Opt} {g : Cli.Cfg} (h : Cli.taskParse e opts = .ok g) (n : Int) : Opt.stop n ∉ opts := by
  intro hm
  obtain ⟨A, B, rfl⟩ := List.append_of_mem hm
  obtain ⟨d, h1, -⟩ := Cli.parse_ok h
  rw [Cli.fold_append] at h1
  obtain ⟨w, -, h1⟩ := Cli.bind_ok h1
  rw [Cli.fold_cons] at h1
  obtain ⟨b, e2, -⟩ := Cli.bind_ok h1
  cases e2

/-- What is asked for is written by the words. -/
theorem asked {t : Typed} {os : List AOpt} (hl : Opt.stop 1 ∉ os.map plain → Prog.ultask.Loose t.posix t.ws os) {a : Act} {x : Kind}
    (ha : a ∈ asks t.e (os.map plain)) (hx : a.change = some x) : t.Asks x := by
  unfold asks at ha
  cases hp : Cli.taskParse t.e (os.map plain) with
  | error n => rw [hp] at ha; exact nomatch ha
  | ok g =>
    rw [hp] at ha
    obtain ⟨o, ho, e⟩ := ((Cli.C69_asked hp).1 x).1 ⟨a, ha, hx⟩
    exact ⟨os, hl (no_stop hp 1), o, ho, e⟩

/-- **C140.**  Whatever words are typed: a page of the process is gone only if there is an `--unmap`
among the options that the words write; a page has other rights only if there is a `--mprotect`, or an `--unmap`; a
page is new only if there is a `--map`, or an `--unmap`; a byte is another only if there is a `--jmp`, or an `--unmap`,
or its page was not mapped; the process is asked for something only if there is one of the four. -/
theorem C140_asked (hk : LawfulP pg k) {arch : Arch} {t : Typed} (ht : (t.job []).Fine) {p : Proc State} {d : Done State}
    (h : t.run k arch p = some d) :
    (∀ n, p.w.space n ≠ none → d.proc.w.space n = none → t.Asks .unmap) ∧
    (∀ n, p.w.space n ≠ none → d.proc.w.space n ≠ p.w.space n → t.Asks .unmap ∨ t.Asks .mprotect) ∧
    (∀ n, p.w.space n = none → d.proc.w.space n ≠ none → t.Asks .unmap ∨ t.Asks .map) ∧
    (∀ a : Addr, p.w.space (a.toNat / pg) ≠ none → d.proc.mem a ≠ p.mem a → t.Asks .unmap ∨ t.Asks .jmp) ∧
    (d.log ≠ [] ∨ d.proc ≠ p → ∃ x, t.Asks x) := by
  obtain ⟨os, e, hl⟩ := any_words (k := k) t arch p
  rw [e] at h
  have hj : (t.job (os.map plain)).Fine := ht
  obtain ⟨h1, h2, h3, -, -⟩ := C130_run_partial hk hj h
  have hun : ∀ n, Unmaps pg (t.job (os.map plain)).c.fs (mapsOf (t.job (os.map plain)).c (t.job (os.map plain)).ls)
      (asks (t.job (os.map plain)).e (t.job (os.map plain)).opts) n → t.Asks .unmap := by
    rintro n ⟨addr, m, hm, -⟩
    exact asked hl hm rfl
  have hri : ∀ n prot, Rights pg (asks (t.job (os.map plain)).e (t.job (os.map plain)).opts) n prot → t.Asks .mprotect := by
    rintro n prot ⟨addr, len, v, hm, -⟩
    exact asked hl hm rfl
  refine ⟨?_, ?_, ?_, ?_, ?_⟩
  · intro n q1 q2
    by_cases hu : Unmaps pg (t.job (os.map plain)).c.fs (mapsOf (t.job (os.map plain)).c (t.job (os.map plain)).ls)
        (asks (t.job (os.map plain)).e (t.job (os.map plain)).opts) n
    · exact hun n hu
    · obtain ⟨q, hq⟩ := Option.ne_none_iff_exists'.1 q1
      rcases h1 n q hu hq with c | ⟨prot, -, c⟩ <;> (rw [q2] at c; cases c)
  · intro n q1 q2
    by_cases hu : Unmaps pg (t.job (os.map plain)).c.fs (mapsOf (t.job (os.map plain)).c (t.job (os.map plain)).ls)
        (asks (t.job (os.map plain)).e (t.job (os.map plain)).opts) n
    · exact .inl (hun n hu)
    · obtain ⟨q, hq⟩ := Option.ne_none_iff_exists'.1 q1
      rcases h1 n q hu hq with c | ⟨prot, r, -⟩
      · exact absurd (c.trans hq.symm) q2
      · exact .inr (hri n prot r)
  · intro n q1 q2
    by_cases hu : Unmaps pg (t.job (os.map plain)).c.fs (mapsOf (t.job (os.map plain)).c (t.job (os.map plain)).ls)
        (asks (t.job (os.map plain)).e (t.job (os.map plain)).opts) n
    · exact .inl (hun n hu)
    · rcases h2 n hu q1 with c | ⟨q, path, addr, ro, nx, -, hm, -⟩
      · exact absurd c q2
      · exact .inr (asked hl hm rfl)
  · intro a q1 q2
    by_cases hu : Unmaps pg (t.job (os.map plain)).c.fs (mapsOf (t.job (os.map plain)).c (t.job (os.map plain)).ls)
        (asks (t.job (os.map plain)).e (t.job (os.map plain)).opts) (a.toNat / pg)
    · exact .inl (hun _ hu)
    · by_cases hj : Jumps (asks (t.job (os.map plain)).e (t.job (os.map plain)).opts) a
      · obtain ⟨src, dst, hm, -⟩ := hj
        exact .inr (asked hl hm rfl)
      · exact absurd (h3 a hu q1 hj) q2
  · intro hc
    by_cases ho : ∀ o ∈ os.map plain, o.change = none
    · obtain ⟨c1, c2⟩ := C130_look h ho
      rcases hc with hc | hc
      · exact absurd c2 hc
      · exact absurd c1 hc
    · cases hp : Cli.taskParse t.e (os.map plain) with
      | error n =>
        exfalso
        unfold Job.run at h
        obtain ⟨vs, -, h⟩ := Option.bind_eq_some_iff.1 h
        unfold TaskRun.ultask at h
        have hp' : Cli.taskParse (t.job (os.map plain)).e (t.job (os.map plain)).opts = .error n := hp
        rw [hp'] at h
        cases h
        rcases hc with hc | hc
        · exact hc rfl
        · exact hc rfl
      | ok g =>
        have : ∃ o ∈ os.map plain, o.change ≠ none := by
          by_cases hh : ∃ o ∈ os.map plain, o.change ≠ none
          · exact hh
          · exact absurd (fun o ho' => Classical.not_not.1 fun hn => hh ⟨o, ho', hn⟩) ho
        obtain ⟨o, ho, hn⟩ := this
        obtain ⟨x, hx⟩ := Option.ne_none_iff_exists'.1 hn
        exact ⟨x, os, hl (no_stop hp 1), o, ho, hx⟩

/-- **C140.**  Whatever words are typed, the run ends, unless it is to dump a `[vdso]` that is not there. -/
theorem C140_ends (hk : LawfulP pg k) (arch : Arch) {t : Typed} (ht : (t.job []).Fine) (hv : t.c.vdso ≠ none) (p : Proc State) :
    ∃ d, t.run k arch p = some d := by
  obtain ⟨os, e, -⟩ := any_words (k := k) t arch p
  rw [e]
  exact C130_ends hk arch (j := t.job (os.map plain)) ht p hv

/-- **C140.**  A command line with `--info`, `-h` or `-V` somewhere among its options does nothing to the process and to
the output file, whatever else it asks for. -/
theorem C140_info {arch : Arch} {t : Typed} {os : List AOpt} (hs : Prog.ultask.Spelled t.posix t.ws os) (hi : .info ∈ os ∨ .own (.stop 0) ∈ os)
    {p : Proc State} {d : Done State} (h : t.run k arch p = some d) : d.proc = p ∧ d.log = [] ∧ d.out = t.out := by
  have hm : Opt.stop 0 ∈ os.map plain := by
    rcases hi with hi | hi
    · exact List.mem_map.2 ⟨_, hi, rfl⟩
    · exact List.mem_map.2 ⟨_, hi, rfl⟩
  rw [C140_means hs] at h
  unfold Job.run at h
  obtain ⟨vs, -, h⟩ := Option.bind_eq_some_iff.1 h
  unfold TaskRun.ultask at h
  cases hp : Cli.taskParse (t.job (os.map plain)).e (t.job (os.map plain)).opts with
  | error n =>
    rw [hp] at h
    cases h
    exact ⟨rfl, rfl, rfl⟩
  | ok g => exact absurd hm (no_stop hp 0)

/-! ### The place of `-p` -/

def setPid (v : BitVec 32) (c : Cli.Cfg) : Cli.Cfg := { c with pid := v }

theorem opt_setPid (page : BitVec 64) (v : BitVec 32) (c : Cli.Cfg) (o : Opt) (ho : o.isPid = false) :
    Cli.taskOpt page (setPid v c) o = (Cli.taskOpt page c o).map (setPid v) := by
  cases o with
  | pid a => cases ho
  | dump a =>
    refine Cli.bind_dry (setPid v) (setPid v) (Cli.fold_dry (setPid v) ?_ _ c) ?_
    · intro c p
      unfold Cli.dumpSub
      repeat' split
      all_goals rfl
    · intro c
      cases c
      unfold Cli.dumpCheck
      simp only [apply_ite (Except.map (setPid v))]
      rfl
  | jmp a =>
    refine Cli.bind_dry (setPid v) (setPid v) (Cli.fold_dry (setPid v) ?_ _ c) ?_
    · intro c p
      unfold Cli.jmpSub
      repeat' split
      all_goals rfl
    · intro c
      cases c
      unfold Cli.jmpCheck
      rw [apply_ite (Except.map (setPid v))]
      rfl
  | map a =>
    refine Cli.bind_dry (setPid v) (setPid v) (Cli.fold_dry (setPid v) ?_ _ c) ?_
    · intro c p
      unfold Cli.mapSub
      repeat' split
      all_goals rfl
    · intro c
      cases c
      unfold Cli.mapCheck
      simp only [apply_ite (Except.map (setPid v))]
      rfl
  | mprotect a =>
    refine Cli.bind_dry (fun x => (setPid v x.1, x.2)) (setPid v)
      (Cli.fold_dry (fun x => (setPid v x.1, x.2)) ?_ _ ({ c with mprotProt := 0 }, false)) ?_
    · intro c p
      unfold Cli.mprotSub
      repeat' split
      all_goals rfl
    · rintro ⟨c, k⟩
      cases c
      unfold Cli.mprotCheck
      simp only [apply_ite (Except.map (setPid v))]
      rfl
  | _ => rfl

theorem fold_setPid (page : BitVec 64) (v : BitVec 32) : ∀ (l : List Opt) (c : Cli.Cfg), (∀ o ∈ l, o.isPid = false) →
    l.foldlM (Cli.taskOpt page) (setPid v c) = (l.foldlM (Cli.taskOpt page) c).map (setPid v)
  | [], c, _ => rfl
  | o :: l, c, h => by
    rw [List.foldlM_cons, List.foldlM_cons, opt_setPid page v c o (h o (by simp))]
    cases hg : Cli.taskOpt page c o with
    | error n => rfl
    | ok d => exact fold_setPid page v l d fun x hx => h x (by simp [hx])

theorem pid_first (page : BitVec 64) (P : Word) (A B : List Opt) (c : Cli.Cfg) (hA : ∀ o ∈ A, o.isPid = false) :
    (A ++ .pid P :: B).foldlM (Cli.taskOpt page) c = (.pid P :: (A ++ B)).foldlM (Cli.taskOpt page) c := by
  rw [List.foldlM_cons]
  show _ = (A ++ B).foldlM (Cli.taskOpt page) (setPid (Cli.atoi P) c)
  rw [List.foldlM_append, List.foldlM_append, fold_setPid page _ A c hA]
  cases A.foldlM (Cli.taskOpt page) c <;> rfl

theorem no_other (page : BitVec 64) : ∀ (l : List Opt) (c : Cli.Cfg),
    l.foldlM (Cli.taskOpt page) c = (l.filter (· ≠ .other)).foldlM (Cli.taskOpt page) c
  | [], _ => rfl
  | o :: l, c => by
    by_cases ho : o = .other
    · subst ho
      rw [List.filter_cons_of_neg (by simp), List.foldlM_cons]
      exact no_other page l c
    · rw [List.filter_cons_of_pos (by simpa using ho), List.foldlM_cons, List.foldlM_cons]
      cases Cli.taskOpt page c o with
      | error n => rfl
      | ok d => exact no_other page l d

/-- The run of a command line that says so. -/
theorem says {t : Typed} {P : Word} {l : List Opt} (h : t.Says P l) (hl : ∀ o ∈ l, o.isPid = false) (arch : Arch) (p : Proc State) :
    ∃ opts, t.run k arch p = (t.job opts).run k arch p ∧ Cli.taskParse t.e opts = Cli.taskParse t.e (.pid P :: l) := by
  obtain ⟨os, A, B, h1, rfl, h2⟩ := h
  refine ⟨os.map plain, C140_means h1 arch p, ?_⟩
  unfold Cli.taskParse
  rw [no_other, h2, pid_first _ _ _ _ _ fun o ho => hl o (by simp [ho])]

theorem asks_of {e : Cli.Env} {opts : List Opt} {g : Cli.Cfg} {as : List Act} (h : Cli.taskParse e opts = .ok g) (ha : Cli.acts g = as) :
    asks e opts = as := by
  unfold asks
  rw [h]
  exact ha

theorem no_unmap {fs : Ultask.Fs} {maps : List Area} {as : List Act} {n : Nat} (h : ∀ a ∈ as, a.change ≠ some .unmap) :
    ¬ Unmaps pg fs maps as n := by
  rintro ⟨addr, m, hm, -⟩
  exact h _ hm rfl

theorem pid_ok {P : Word} {v : Nat} (hP : Numeral 10 P v) (hv : v < 2 ^ 31) : Cli.atoi P ≠ -1 := by
  rw [Cli.atoi_numeral hP hv]
  intro h
  have := congrArg BitVec.toNat h
  rw [BitVec.toNat_ofNat, Nat.mod_eq_of_lt (by omega)] at this
  have e : (-1 : BitVec 32).toNat = 4294967295 := by decide
  omega

theorem pid_there {e : Cli.Env} {P : Word} {v : Nat} (hP : Numeral 10 P v) (hv : v < 2 ^ 31) (he : e.pidExists (BitVec.ofNat 32 v) = true) :
    e.pidExists (Cli.atoi P) = true := by
  rw [Cli.atoi_numeral hP hv]
  exact he

/-- **C140.**  `ultask -p PID --jmp from=F,to=T`, however it is written, for a process that is there: a thread that
comes to `F` goes on at `T`; all other bytes and the mappings are as before. -/
theorem C140_jump (hk : LawfulP pg k) {arch : Arch} {t : Typed} (ht : (t.job []).Fine) (ha : (t.job []).Apart)
    (hs : t.c.starts = true) (ho : t.c.opens = true) {p : Proc State} {d : Done State} (h : t.run k arch p = some d)
    {P F T : Word} {f u : BitVec 64} {ps : List Sub} (hsays : t.Says P [.jmp (argText ps)])
    {pid : Nat} (hP : Numeral 10 P pid) (hlt : pid < 2 ^ 31) (he : t.e.pidExists (BitVec.ofNat 32 pid) = true) (hF : AddrText F f) (hT : AddrText T u) (f0 : f ≠ 0) (u0 : u ≠ 0)
    (hps : ∀ p ∈ ps, p = (lit "from", some F) ∨ p = (lit "to", some T)) (hf : (lit "from", some F) ∈ ps) (hu : (lit "to", some T) ∈ ps)
    (h1 : In (t.job []) f) (h2 : In (t.job []) u) (hr : t.c.rd = some 16) (hw : t.c.wr = some 16)
    (hpg : ∀ i, i < 16 → p.w.space ((f + BitVec.ofNat 64 i).toNat / pg) ≠ none) :
    d.proc.mem.read f 16 = jmpEntry arch u ∧
    (arch = .x86_64 → ∀ s : X86.Cpu, s.rip = f → s.mem = d.proc.mem → X86.step s = some { s with rip := u }) ∧
    (arch = .aarch64 → ∀ s : A64.Cpu, s.pc = f → s.mem = d.proc.mem →
      A64.steps 2 s = some { pc := u, x := fun i => if i = 17 then u else s.x i, mem := s.mem }) ∧
    (∀ a : Addr, p.w.space (a.toNat / pg) ≠ none → ¬ (a - f).toNat < 16 → d.proc.mem a = p.mem a) ∧
    ∀ n, d.proc.w.space n = p.w.space n := by
  obtain ⟨opts, e1, e2⟩ := says (k := k) hsays (by simp [Opt.isPid]) arch p
  rw [e1] at h
  obtain ⟨g, c1, c2⟩ := Cli.C69_jmp_accepted (pid_ok hP hlt) (pid_there hP hlt he) hF hT f0 u0 hps hf hu
  have hask : asks (t.job opts).e (t.job opts).opts = [.jmp f u] := asks_of (e2.trans c1) c2
  have hun : ∀ n, ¬ Unmaps pg (t.job opts).c.fs (mapsOf (t.job opts).c (t.job opts).ls) (asks (t.job opts).e (t.job opts).opts) n :=
    fun n => no_unmap (by rw [hask]; simp [Act.change])
  have hj : (t.job opts).Fine := ht
  obtain ⟨r1, r2, r3⟩ := C131_jump hk hj ha hs ho h (by rw [hask]; simp) h1 h2 hr hw fun i hi => ⟨hpg i hi, hun _⟩
  obtain ⟨b1, b2, b3, -, -⟩ := C130_run_partial hk hj h
  refine ⟨r1, r2, r3, fun a q1 q2 => b3 a (hun _) q1 ?_, fun n => ?_⟩
  · rintro ⟨src, dst, hm, hlt⟩
    rw [hask] at hm
    obtain ⟨rfl, rfl⟩ := Act.jmp.inj (List.mem_singleton.1 hm)
    exact q2 hlt
  · cases hq : p.w.space n with
    | none =>
      rcases b2 n (hun n) hq with c | ⟨q, path, addr, ro, nx, -, hm, -⟩
      · exact c
      · rw [hask] at hm
        exact nomatch List.mem_singleton.1 hm
    | some q =>
      rcases b1 n q (hun n) hq with c | ⟨prot, ⟨addr, len, v, hm, -⟩, -⟩
      · exact c
      · rw [hask] at hm
        exact nomatch List.mem_singleton.1 hm

/-- **C140.**  `ultask -p PID --mprotect addr=X,len=Y,...`, however it is written, that ends with status 0: every page
of the region has the rights that are named, and no other; all bytes are as before, and so are the pages elsewhere. -/
theorem C140_mprotect (hk : LawfulP pg k) (hke : Errs k) {arch : Arch} {t : Typed} (ht : (t.job []).Fine)
    {p : Proc State} {d : Done State} (h : t.run k arch p = some d) (hst : d.status = 0)
    {P X Y : Word} {x y : BitVec 64} {ps : List Sub} (hsays : t.Says P [.mprotect (argText ps)])
    {pid : Nat} (hP : Numeral 10 P pid) (hlt : pid < 2 ^ 31) (he : t.e.pidExists (BitVec.ofNat 32 pid) = true) (hX : AddrText X x) (hY : AddrText Y y) (x0 : x ≠ 0) (y0 : y ≠ 0)
    (xp : x % t.e.page = 0) (yp : y % t.e.page = 0)
    (hps : ∀ p ∈ ps, p = (lit "addr", some X) ∨ p = (lit "len", some Y) ∨ p = (lit "none", none) ∨
      p = (lit "read", none) ∨ p = (lit "write", none) ∨ p = (lit "exec", none))
    (hx : (lit "addr", some X) ∈ ps) (hy : (lit "len", some Y) ∈ ps)
    (hn : (lit "none", none) ∈ ps → (lit "read", none) ∉ ps ∧ (lit "write", none) ∉ ps ∧ (lit "exec", none) ∉ ps) :
    (∀ n, Touches pg x.toNat y.toNat n → ∃ q, d.proc.w.space n = some q ∧
      q.prot = (rights (decide ((lit "read", none) ∈ ps)) (decide ((lit "write", none) ∈ ps)) (decide ((lit "exec", none) ∈ ps))).setWidth 32) ∧
    (∀ n, ¬ Touches pg x.toNat y.toNat n → d.proc.w.space n = p.w.space n) ∧
    ∀ a : Addr, p.w.space (a.toNat / pg) ≠ none → d.proc.mem a = p.mem a := by
  obtain ⟨opts, e1, e2⟩ := says (k := k) hsays (by simp [Opt.isPid]) arch p
  rw [e1] at h
  obtain ⟨g, c1, c2⟩ := Cli.C69_mprotect_accepted (pid_ok hP hlt) (pid_there hP hlt he) hX hY x0 y0 xp yp hps hx hy hn
  have hask : asks (t.job opts).e (t.job opts).opts = [.mprotect x y _] := asks_of (e2.trans c1) c2
  have hun : ∀ n, ¬ Unmaps pg (t.job opts).c.fs (mapsOf (t.job opts).c (t.job opts).ls) (asks (t.job opts).e (t.job opts).opts) n :=
    fun n => no_unmap (by rw [hask]; simp [Act.change])
  have hj : (t.job opts).Fine := ht
  obtain ⟨b1, b2, b3, -, -⟩ := C130_run_partial hk hj h
  refine ⟨fun n hn => C130_protected hk hke hj h hst (by rw [hask]; simp) hn (hun n), fun n hn => ?_, fun a q1 => b3 a (hun _) q1 ?_⟩
  · cases hq : p.w.space n with
    | none =>
      rcases b2 n (hun n) hq with c | ⟨q, path, addr, ro, nx, -, hm, -⟩
      · exact c
      · rw [hask] at hm
        exact nomatch List.mem_singleton.1 hm
    | some q =>
      rcases b1 n q (hun n) hq with c | ⟨prot, ⟨addr, len, v, hm, ht, -⟩, -⟩
      · exact c
      · rw [hask] at hm
        obtain ⟨rfl, rfl, -⟩ := Act.mprotect.inj (List.mem_singleton.1 hm)
        exact absurd ht hn
  · rintro ⟨src, dst, hm, -⟩
    rw [hask] at hm
    exact nomatch List.mem_singleton.1 hm

theorem unmap_accepted {e : Cli.Env} {P S : List Byte} {v : BitVec 64} (hp : Cli.atoi P ≠ -1) (he : e.pidExists (Cli.atoi P) = true)
    (hS : AddrText S v) : ∃ c, Cli.taskParse e [.pid P, .unmap S] = .ok c ∧ Cli.acts c = [.unmap v] := by
  have hp' : ¬ Cli.atoi P = 4294967295#32 := hp
  refine ⟨{ pid := Cli.atoi P, unmapIt := true, unmapAddr := v, rdonly := false }, ?_, ?_⟩
  · rw [← hS.value, Cli.taskParse, Cli.fold_cons]
    show Cli.taskCheck e _ = _
    simp [Cli.taskCheck, hp', he]
    rfl
  · simp [Cli.acts, Cli.idle, Cli.one]

/-- **C140**, partial.  `ultask -p PID --unmap ADDR`, however it is written: nothing is mapped from the beginning of
the mapping that the address is in to its end, or to where a file of its name would end; everything outside is as
before.  Missing: what is missing from C130 and C131. -/
theorem C140_unmap_partial (hk : LawfulP pg k) (hg : Grants pg k) {arch : Arch} {t : Typed} (ht : (t.job []).Fine)
    (ha : (t.job []).Apart) (hs : t.c.starts = true) (ho : t.c.opens = true) {p : Proc State} (hst : p.w.stopped = false)
    {d : Done State} (h : t.run k arch p = some d) {P S : Word} {v : BitVec 64} (hsays : t.Says P [.unmap S])
    {pid : Nat} (hP : Numeral 10 P pid) (hlt : pid < 2 ^ 31) (he : t.e.pidExists (BitVec.ofNat 32 pid) = true) (hS : AddrText S v)
    {x : Nat × Vma.Line} (hx : x ∈ t.ls) (h1 : x.2.start ≤ v) (h2 : v < x.2.stop) (hal : x.2.start.toNat % pg = 0)
    (hlen : 0 < taken t.c.fs (areaOfLine x.2)) :
    (∀ n, Touches pg x.2.start.toNat (taken t.c.fs (areaOfLine x.2)) n → d.proc.w.space n = none) ∧
    (∀ n, (∀ m ∈ mapsOf t.c t.ls, m.lo ≤ v → v < m.hi → ¬ Touches pg m.lo.toNat (taken t.c.fs m) n) →
      d.proc.w.space n = p.w.space n ∧ ∀ a : Addr, a.toNat / pg = n → p.w.space n ≠ none → d.proc.mem a = p.mem a) := by
  obtain ⟨opts, e1, e2⟩ := says (k := k) hsays (by simp [Opt.isPid]) arch p
  rw [e1] at h
  obtain ⟨g, c1, c2⟩ := unmap_accepted (pid_ok hP hlt) (pid_there hP hlt he) hS
  have hask : asks (t.job opts).e (t.job opts).opts = [.unmap v] := asks_of (e2.trans c1) c2
  have hj : (t.job opts).Fine := ht
  obtain ⟨b1, b2, b3, -, -⟩ := C130_run_partial hk hj h
  refine ⟨fun n hn => C131_unmapped_partial hk hg hj ha hs ho hst h (by rw [hask]; simp) (.inl (by rw [hask]; simp [Act.change]))
    hx h1 h2 hal hlen hn, fun n hn => ?_⟩
  have hun : ¬ Unmaps pg (t.job opts).c.fs (mapsOf (t.job opts).c (t.job opts).ls) (asks (t.job opts).e (t.job opts).opts) n := by
    rintro ⟨addr, m, hm, hmm, l1, l2, l3⟩
    rw [hask] at hm
    cases Act.unmap.inj (List.mem_singleton.1 hm)
    exact hn m hmm l1 l2 l3
  constructor
  · cases hq : p.w.space n with
    | none =>
      rcases b2 n hun hq with c | ⟨q, path, addr, ro, nx, -, hm, -⟩
      · exact c
      · rw [hask] at hm
        exact nomatch List.mem_singleton.1 hm
    | some q =>
      rcases b1 n q hun hq with c | ⟨prot, ⟨addr, len, v, hm, -⟩, -⟩
      · exact c
      · rw [hask] at hm
        exact nomatch List.mem_singleton.1 hm
  · rintro a rfl q1
    refine b3 a hun q1 ?_
    rintro ⟨src, dst, hm, -⟩
    rw [hask] at hm
    exact nomatch List.mem_singleton.1 hm

/-- **C140**, partial.  `ultask -p PID --dump addr=X,size=Y -o O`, however it is written, `O` being a new file and the
transfers being complete: the process is as before, and the file holds exactly its bytes, if the address is in a
mapping.  Missing: see C68 and C131. -/
theorem C140_dump_partial (hk : LawfulP pg k) {arch : Arch} {t : Typed} (ht : (t.job []).Fine) (ha : (t.job []).Apart)
    (hs : t.c.starts = true) (ho : t.c.opens = true) {p : Proc State} {d : Done State} (h : t.run k arch p = some d) (hout : t.out = none)
    {P X Y O : Word} {x y : BitVec 64} {ps : List Sub} (hsays : t.Says P [.dump (argText ps), .output O])
    {pid : Nat} (hP : Numeral 10 P pid) (hlt : pid < 2 ^ 31) (he : t.e.pidExists (BitVec.ofNat 32 pid) = true) (hX : AddrText X x) (hY : SizeText Y y) (x0 : x ≠ 0) (y0 : y ≠ 0)
    (hO : t.e.exist O = false) (hps : ∀ p ∈ ps, p = (lit "addr", some X) ∨ p = (lit "size", some Y))
    (hx : (lit "addr", some X) ∈ ps) (hy : (lit "size", some Y) ∈ ps) (hin : In (t.job []) x)
    (hw : Whole (t.c.dump (.dumpMem O x y)) y.toNat) (hpg : ∀ i, i < y.toNat → p.w.space ((x + BitVec.ofNat 64 i).toNat / pg) ≠ none) :
    d.proc = p ∧ d.out = some (p.mem.read x y.toNat) := by
  have hsays' := hsays
  obtain ⟨opts, e1, e2⟩ := says (k := k) hsays (by simp [Opt.isPid]) arch p
  obtain ⟨os, A, B, q1, q2, q3⟩ := hsays'
  have h' := h
  rw [C140_means q1] at h'
  rw [e1] at h
  obtain ⟨g, c1, c2, -⟩ := Cli.C69_dump_accepted (pid_ok hP hlt) (pid_there hP hlt he) hX hY x0 y0 hO hps hx hy
  have hask : asks (t.job opts).e (t.job opts).opts = [.dumpMem O x y] := asks_of (e2.trans c1) c2
  have hj : (t.job opts).Fine := ht
  constructor
  · refine (C130_look h' fun o ho => ?_).1
    by_cases hoth : o = .other
    · rw [hoth]
      rfl
    · have hm : o ∈ A ++ .pid P :: B := by
        rw [← q3]
        exact List.mem_filter.2 ⟨ho, by simpa using hoth⟩
      rcases List.mem_append.1 hm with hm | hm
      · have : o ∈ [Opt.dump (argText ps), .output O] := by rw [q2]; simp [hm]
        rcases List.mem_cons.1 this with rfl | this
        · rfl
        · rw [List.mem_singleton.1 this]
          rfl
      · rcases List.mem_cons.1 hm with rfl | hm
        · rfl
        · have : o ∈ [Opt.dump (argText ps), .output O] := by rw [q2]; simp [hm]
          rcases List.mem_cons.1 this with rfl | this
          · rfl
          · rw [List.mem_singleton.1 this]
            rfl
  · rcases C131_dump_partial hk hj hs ho h hout (a := .dumpMem O x y) (by rw [hask]; simp) (by exact nofun)
      (by rw [hask]; exact List.length_filter_le _ _)
      (by
        rintro lo n ⟨rfl, rfl⟩
        refine ⟨hw, fun i hi => ⟨hpg i hi, no_unmap (by rw [hask]; simp [Act.change])⟩⟩) with ⟨lo, n, ⟨rfl, rfl⟩, hh⟩ | ⟨-, hh⟩
    · exact hh
    · exact absurd hin (hh ha)

theorem map_accepted {e : Cli.Env} {P F X G : List Byte} {x : BitVec 64} (hp : Cli.atoi P ≠ -1) (he : e.pidExists (Cli.atoi P) = true)
    (hX : AddrText X x) (h0 : x ≠ 0) (hF : 44 ∉ F) {ps : List Sub}
    (hG : F.head? = some 47 ∧ G = F ∨ F.head? ≠ some 47 ∧ G = e.cwd ++ [47] ++ F ∧ G.length < 4096)
    (hps : ∀ p ∈ ps, p = (lit "file", some F) ∨ p = (lit "ro", none) ∨ p = (lit "noexec", none) ∨ p = (lit "addr", some X))
    (hf : (lit "file", some F) ∈ ps) (g1 : e.exist G = true) (g2 : e.regular G = true) (g3 : e.size G ≠ 0) :
    ∃ c, Cli.taskParse e [.pid P, .map (argText ps)] = .ok c ∧ Cli.acts c =
      [.map G (if (lit "addr", some X) ∈ ps then x else 0) (decide ((lit "ro", none) ∈ ps)) (decide ((lit "noexec", none) ∈ ps))] := by
  have hpl : ∀ p ∈ ps, Cli.Plain p := by
    intro p hp
    rcases hps p hp with rfl | rfl | rfl | rfl
    · exact Cli.plain_lit (by decide) (by rintro x ⟨⟩; exact hF)
    · exact Cli.plain_lit (by decide) (by rintro x ⟨⟩)
    · exact Cli.plain_lit (by decide) (by rintro x ⟨⟩)
    · exact Cli.plain_lit (by decide) (by rintro x ⟨⟩; exact hX.plain)
  have hr : Cli.realMap e F = G := by
    unfold Cli.realMap
    rcases hG with ⟨g1, g2⟩ | ⟨g1, g2, g3⟩
    · rw [if_pos g1, g2]
    · rw [if_neg g1, ← g2, List.take_of_length_le (by omega)]
  have hp' : ¬ Cli.atoi P = 4294967295#32 := hp
  have g3' : ¬ e.size G = 0#32 := g3
  refine ⟨{ pid := Cli.atoi P, mapFile := some G, mapAddr := (if (lit "addr", some X) ∈ ps then x else 0), mapRo := decide ((lit "ro", none) ∈ ps), mapNoexec := decide ((lit "noexec", none) ∈ ps), rdonly := false }, ?_, ?_⟩
  · have : Cli.taskOpt e.page { pid := Cli.atoi P } (.map (argText ps)) =
        .ok { pid := Cli.atoi P, mapFile := some F, mapAddr := (if (lit "addr", some X) ∈ ps then x else 0), mapRo := decide ((lit "ro", none) ∈ ps), mapNoexec := decide ((lit "noexec", none) ∈ ps), rdonly := false } := by
      rw [Cli.taskOpt, Cli.C69_subopts ps hpl, Cli.fold_map hX h0 ps hps, if_pos hf]
      show Cli.mapCheck _ = _
      rw [Cli.mapCheck, if_neg (by simp)]
      simp
    rw [Cli.taskParse, Cli.fold_cons]
    show (List.foldlM (Cli.taskOpt e.page) { pid := Cli.atoi P } [.map (argText ps)]).bind (Cli.taskCheck e) = _
    rw [Cli.fold_cons, this]
    show Cli.taskCheck e _ = _
    simp [Cli.taskCheck, hp', he, hr, g1, g2, g3']
    rfl
  · simp [Cli.acts, Cli.idle, Cli.one]

/-- **C140**, partial.  `ultask -p PID --map file=F[,ro][,noexec][,addr=X]`, however it is written, for a regular file with
something in it: the whole file is mapped where nothing was mapped before, with the rights asked for, and at the
address asked for if there is room; no byte or right of what was mapped before changes.  Missing: what is missing from C131. -/
theorem C140_map_partial (hk : LawfulP pg k) (hg : Grants pg k) (hgm : GrantsMap pg k) {arch : Arch} {t : Typed}
    (ht : (t.job []).Fine) (hs : t.c.starts = true) (ho : t.c.opens = true) {p : Proc State} (hst : p.w.stopped = false)
    (hstd : 0#32 ∈ p.w.fds ∧ 1#32 ∈ p.w.fds ∧ 2#32 ∈ p.w.fds) (hfd : ∃ n, n < 1024 ∧ BitVec.ofNat 32 n ∉ p.w.fds)
    {d : Done State} (h : t.run k arch p = some d) {P F X G : Word} {x : BitVec 64} {ps : List Sub} (hsays : t.Says P [.map (argText ps)])
    {pid : Nat} (hP : Numeral 10 P pid) (hlt : pid < 2 ^ 31) (he : t.e.pidExists (BitVec.ofNat 32 pid) = true)
    (hX : AddrText X x) (h0 : x ≠ 0) (hF : 44 ∉ F)
    (hG : F.head? = some 47 ∧ G = F ∨ F.head? ≠ some 47 ∧ G = t.e.cwd ++ [47] ++ F ∧ G.length < 4096)
    (hps : ∀ p ∈ ps, p = (lit "file", some F) ∨ p = (lit "ro", none) ∨ p = (lit "noexec", none) ∨ p = (lit "addr", some X))
    (hf : (lit "file", some F) ∈ ps) (g1 : t.e.exist G = true) (g2 : t.e.regular G = true) (g3 : t.e.size G ≠ 0)
    {size : Nat} (hsz : t.c.fs.size G = some size) (hpos : 0 < size) (hlt2 : size < 2 ^ 31) (hroom : Room pg p.w size)
    (haddr : x.toNat < 2 ^ 63)
    (hfree : (lit "addr", some X) ∈ ps → ¬ In (t.job []) x ∧ ¬ In (t.job []) (x + BitVec.ofNat 64 size)) :
    (∃ a, a % pg = 0 ∧ Linux.Free pg p.w a size ∧
      ((lit "addr", some X) ∈ ps → x.toNat % pg = 0 → Linux.Free pg p.w x.toNat size → a = x.toNat) ∧
      ∀ n, Touches pg a size n → ∃ q, d.proc.w.space n = some q ∧
        q.prot = mapRights (decide ((lit "ro", none) ∈ ps)) (decide ((lit "noexec", none) ∈ ps))) ∧
    (∀ n, p.w.space n ≠ none → d.proc.w.space n = p.w.space n) ∧
    ∀ a : Addr, p.w.space (a.toNat / pg) ≠ none → d.proc.mem a = p.mem a := by
  obtain ⟨opts, e1, e2⟩ := says (k := k) hsays (by simp [Opt.isPid]) arch p
  rw [e1] at h
  obtain ⟨g, c1, c2⟩ := map_accepted (pid_ok hP hlt) (pid_there hP hlt he) hX h0 hF hG hps hf g1 g2 g3
  have hask : asks (t.job opts).e (t.job opts).opts = [.map G (if (lit "addr", some X) ∈ ps then x else 0)
    (decide ((lit "ro", none) ∈ ps)) (decide ((lit "noexec", none) ∈ ps))] := asks_of (e2.trans c1) c2
  have hun : ∀ n, ¬ Unmaps pg (t.job opts).c.fs (mapsOf (t.job opts).c (t.job opts).ls) (asks (t.job opts).e (t.job opts).opts) n :=
    fun n => no_unmap (by rw [hask]; simp [Act.change])
  have hj : (t.job opts).Fine := ht
  obtain ⟨b1, b2, b3, -, -⟩ := C130_run_partial hk hj h
  refine ⟨?_, fun n hn => ?_, fun a q1 => b3 a (hun _) q1 ?_⟩
  · obtain ⟨a, m1, m2, m3, m4⟩ := C131_mapped_partial hk hg hgm hj hs ho hst hstd hfd h
      (path := G) (addr := if (lit "addr", some X) ∈ ps then x else 0) (ro := decide ((lit "ro", none) ∈ ps))
      (nx := decide ((lit "noexec", none) ∈ ps)) (by rw [hask]; simp) hsz hpos hlt2 hroom
      (by split
          · exact haddr
          · decide)
      (by
        intro hne
        by_cases hc : (lit "addr", some X) ∈ ps
        · rw [if_pos hc]
          exact hfree hc
        · rw [if_neg hc] at hne
          exact absurd rfl hne)
    refine ⟨a, m1, m2, fun hc q1 q2 => ?_, fun n hn => m4 n hn (hun n)⟩
    rw [if_pos hc] at m3
    exact m3 h0 q1 q2
  · obtain ⟨q, hq⟩ := Option.ne_none_iff_exists'.1 hn
    rw [hq]
    rcases b1 n q (hun n) hq with c | ⟨prot, ⟨addr, len, v, hm, -⟩, -⟩
    · exact c
    · rw [hask] at hm
      exact nomatch List.mem_singleton.1 hm
  · rintro ⟨src, dst, hm, -⟩
    rw [hask] at hm
    exact nomatch List.mem_singleton.1 hm

/-! ### Examples -/

/-- The circumstances of C130, with these words. -/
def exTyped (posix : Bool) (ws : List Word) : Typed := ⟨posix, ws, Cli.exEnv, exCirc, exLines, fun _ => ⟨0, 0, [], 0⟩, none⟩

/-- `ultask --jm from=0x11010,to=0x10000 x -vv --pid=42` -/
theorem jmp_spelled : Prog.ultask.Spelled false [lit "--jm", lit "from=0x11010,to=0x10000", lit "x", lit "-vv", lit "--pid=42"]
    [.own (.jmp (lit "from=0x11010,to=0x10000")), .verbose 1, .own (.pid (lit "42"))] := by
  refine .opts (xs := [lit "--jm", lit "from=0x11010,to=0x10000"]) (os := [.own (.jmp (lit "from=0x11010,to=0x10000"))])
    (.nameArg (f := fun a => .own (.jmp a)) (n := lit "jm") _ (Getopt.mem_doc 2 rfl) (.inr ⟨⟨lit "jmp", List.mem_singleton.mpr rfl, by decide⟩, by decide +kernel⟩) rfl) ?_
  refine .word rfl (.inr (by decide)) ?_
  refine .opts (xs := [lit "-vv"]) (os := [.verbose 1]) (.verbose (cs := []) (lit "v") .nil (by unfold Getopt.OnlyVs; decide)) ?_
  exact .opts (xs := [lit "--pid=42"]) (os := [.own (.pid (lit "42"))])
    (.nameEq (f := fun a => .own (.pid a)) (n := lit "pid") (lit "42") (Getopt.mem_doc 0 rfl) (.inl (List.mem_singleton.mpr rfl)) rfl) .done

def jmpTyped : Typed := exTyped false [lit "--jm", lit "from=0x11010,to=0x10000", lit "x", lit "-vv", lit "--pid=42"]

theorem exTyped_fine (posix : Bool) (ws : List Word) : ((exTyped posix ws).job []).Fine := exJob_fine []

theorem exTyped_apart (posix : Bool) (ws : List Word) : ((exTyped posix ws).job []).Apart := exJob_apart []

theorem jmp_says : jmpTyped.Says (lit "42") [.jmp (argText [(lit "from", some (lit "0x11010")), (lit "to", some (lit "0x10000"))])] :=
  ⟨_, [_], [], jmp_spelled, rfl, by decide +kernel⟩

theorem text_42 : Numeral 10 (lit "42") 42 := .snoc (s := lit "4") false (.one (d := 4) false (by decide)) (d := 2) (by decide)

theorem text_11010 : AddrText (lit "0x11010") 0x11010 :=
  .hex (s := lit "11010") (.snoc (s := lit "1101") false (.snoc (s := lit "110") false (.snoc (s := lit "11") false
    (.snoc (s := lit "1") false (.one (d := 1) false (by decide)) (d := 1) (by decide)) (d := 0) (by decide)) (d := 1) (by decide)) (d := 0) (by decide)) (by decide)

theorem text_10000 : AddrText (lit "0x10000") 0x10000 :=
  .hex (s := lit "10000") (.snoc (s := lit "1000") false (.snoc (s := lit "100") false (.snoc (s := lit "10") false
    (.snoc (s := lit "1") false (.one (d := 1) false (by decide)) (d := 0) (by decide)) (d := 0) (by decide)) (d := 0) (by decide)) (d := 0) (by decide)) (by decide)

/-- C140_jump: the command line above. -/
example : ∃ d, jmpTyped.run exKern .x86_64 exProc = some d ∧ d.proc.mem.read 0x11010 16 = jmpEntry .x86_64 0x10000 ∧
    d.proc.mem 0x11020 = 0x90 := by
  obtain ⟨d, e⟩ := C140_ends exKern_lawful .x86_64 (exTyped_fine false _) (t := jmpTyped) (by exact nofun) exProc
  have hpg : ∀ i, i < 16 → exProc.w.space (((0x11010 : BitVec 64) + BitVec.ofNat 64 i).toNat / 4096) ≠ none := by
    intro i hi
    have : ((0x11010 : BitVec 64) + BitVec.ofNat 64 i).toNat / 4096 = 0x11 := by
      rw [BitVec.toNat_add, BitVec.toNat_ofNat, show ((0x11010 : BitVec 64)).toNat = 0x11010 from rfl]
      omega
    rw [this]
    exact nofun
  obtain ⟨r1, -, -, r4, -⟩ := C140_jump exKern_lawful (t := jmpTyped) (exTyped_fine false _) (exTyped_apart false _) rfl rfl e jmp_says
    text_42 (by decide) rfl text_11010 text_10000 (by decide) (by decide) (by simp) (by simp) (by simp)
    ⟨(2, ⟨0x11000, 0x12000, []⟩), by simp [jmpTyped, exTyped, Typed.job, exLines], by decide, by decide⟩
    ⟨(1, ⟨0x10000, 0x11000, lit "f"⟩), by simp [jmpTyped, exTyped, Typed.job, exLines], by decide, by decide⟩ rfl rfl hpg
  exact ⟨d, e, r1, r4 0x11020 (by exact nofun) (by decide)⟩

/-- C140_unmap_partial: `ultask --unmap=0x10000 -p 42`, with the mapping of C130. -/
theorem unmap_spelled : Prog.ultask.Spelled true [lit "--unmap=0x10000", lit "-p", lit "42"]
    [.own (.unmap (lit "0x10000")), .own (.pid (lit "42"))] := by
  refine .opts (xs := [lit "--unmap=0x10000"]) (os := [.own (.unmap (lit "0x10000"))])
    (.nameEq (f := fun a => .own (.unmap a)) (n := lit "unmap") (lit "0x10000") (Getopt.mem_doc 4 rfl) (.inl (List.mem_singleton.mpr rfl)) rfl) ?_
  exact .opts (xs := [lit "-p", lit "42"]) (os := [.own (.pid (lit "42"))])
    (.letterSep (f := fun a => .own (.pid a)) (cs := []) (os := []) (c := 112) (lit "42") .nil (Getopt.mem_doc 0 rfl) rfl rfl) .done

example : ∃ d, (exTyped true [lit "--unmap=0x10000", lit "-p", lit "42"]).run exKern .x86_64 exProc = some d ∧
    d.proc.w.space 0x10 = none ∧ exProc.w.space 0x10 ≠ none := by
  obtain ⟨d, e⟩ := C140_ends exKern_lawful .x86_64 (exTyped_fine true _)
    (t := exTyped true [lit "--unmap=0x10000", lit "-p", lit "42"]) (by exact nofun) exProc
  have := C140_unmap_partial exKern_lawful exKern_grants (exTyped_fine true _) (exTyped_apart true _) rfl rfl rfl e
    (P := lit "42") (S := lit "0x10000") ⟨_, [_], [], unmap_spelled, rfl, by decide +kernel⟩ text_42 (by decide) rfl text_10000
    (x := (1, ⟨0x10000, 0x11000, lit "f"⟩)) (by simp [exTyped, exLines]) (by decide) (by decide) (by decide) (by decide)
  exact ⟨d, e, this.1 0x10 (by decide), by exact nofun⟩

/-- `ultask -p42 --mprotect addr=0x10000,len=0x1000,read` -/
theorem prot_spelled : Prog.ultask.Spelled false [lit "-p42", lit "--mprotect", lit "addr=0x10000,len=0x1000,read"]
    [.own (.pid (lit "42")), .own (.mprotect (lit "addr=0x10000,len=0x1000,read"))] := by
  refine .opts (xs := [lit "-p42"]) (os := [.own (.pid (lit "42"))])
    (.letterArg (f := fun a => .own (.pid a)) (cs := []) (c := 112) (lit "42") .nil (Getopt.mem_doc 0 rfl) rfl rfl (by decide)) ?_
  exact .opts (xs := [lit "--mprotect", lit "addr=0x10000,len=0x1000,read"]) (os := [.own (.mprotect (lit "addr=0x10000,len=0x1000,read"))])
    (.nameArg (f := fun a => .own (.mprotect a)) (n := lit "mprotect") _ (Getopt.mem_doc 5 rfl) (.inl (List.mem_singleton.mpr rfl)) rfl) .done

def protTyped : Typed := exTyped false [lit "-p42", lit "--mprotect", lit "addr=0x10000,len=0x1000,read"]

theorem text_1000 : AddrText (lit "0x1000") 0x1000 :=
  .hex (s := lit "1000") (.snoc (s := lit "100") false (.snoc (s := lit "10") false
    (.snoc (s := lit "1") false (.one (d := 1) false (by decide)) (d := 0) (by decide)) (d := 0) (by decide)) (d := 0) (by decide)) (by decide)

theorem prot_run : ∃ d, protTyped.run exKern .x86_64 exProc = some d ∧ d.status = 0 := by
  have e : protTyped.run exKern .x86_64 exProc =
      (exJob [.pid (lit "42"), .mprotect (lit "addr=0x10000,len=0x1000,read")]).run exKern .x86_64 exProc :=
    C140_means (t := protTyped) prot_spelled .x86_64 exProc
  rw [e]
  obtain ⟨vs, ev, f1, f2, _⟩ := ex_vs
  obtain ⟨g, hp, ha⟩ : ∃ g, Cli.taskParse Cli.exEnv [.pid (lit "42"), .mprotect (lit "addr=0x10000,len=0x1000,read")] = .ok g ∧
      Cli.acts g = [.mprotect 0x10000 0x1000 1] :=
    ⟨{ pid := 42, mprotAddr := 0x10000, mprotLen := 0x1000, mprotProt := 1, rdonly := false }, by decide +kernel, by decide +kernel⟩
  unfold Job.run
  have ev' : Vma.readTaskVmas (Vma.initVmas (exJob [.pid (lit "42"), .mprotect (lit "addr=0x10000,len=0x1000,read")]).info) false
      (exJob [.pid (lit "42"), .mprotect (lit "addr=0x10000,len=0x1000,read")]).ls = some vs := ev
  rw [ev', Option.bind_some]
  unfold TaskRun.ultask
  have hp' : Cli.taskParse (exJob [.pid (lit "42"), .mprotect (lit "addr=0x10000,len=0x1000,read")]).e
      (exJob [.pid (lit "42"), .mprotect (lit "addr=0x10000,len=0x1000,read")]).opts = .ok g := hp
  rw [hp']
  dsimp only
  rw [if_neg (show ¬ (exJob [.pid (lit "42"), .mprotect (lit "addr=0x10000,len=0x1000,read")]).c.starts = false by exact nofun),
    if_neg (show ¬ (exJob [.pid (lit "42"), .mprotect (lit "addr=0x10000,len=0x1000,read")]).c.opens = false by exact nofun), ha]
  simp only [doActs, act]
  unfold Ultask.mprotectRegion
  rw [if_neg (by decide), f1 0x10000 (by decide) (by decide), Option.bind_some, if_neg (by decide),
    f2 (0x10000 + 0x1000) (by decide) (by decide), Option.bind_some, if_neg (by decide)]
  dsimp only [Ultask.Run.ask]
  have k1 : exKern.ask exProc .attach = ({ exProc with w := { exProc.w with stopped := true } }, 0) := rfl
  rw [k1]
  dsimp only
  rw [if_neg (show ¬ Ultask.int 0 ≠ 0 by decide)]
  have k2 : exKern.ask { exProc with w := { exProc.w with stopped := true } } (.mprotect 0x10000 0x1000 ((1 : BitVec 64).setWidth 32)) =
      ({ exProc with w := ({ exProc.w with stopped := true } : State).change 4096 0x10000 0x1000 fun _ q => q.map fun q => { q with prot := 1 } }, 0) := by
    simp only [exKern]
    rw [if_pos (by decide +kernel)]
    rfl
  rw [k2]
  exact ⟨_, rfl, rfl⟩

/-- C140_mprotect -/
example : ∃ d q, protTyped.run exKern .x86_64 exProc = some d ∧ d.proc.w.space 0x10 = some q ∧ q.prot = 1 ∧
    d.proc.w.space 0x11 = some ⟨7, 0x11⟩ := by
  obtain ⟨d, e, hst⟩ := prot_run
  have := C140_mprotect exKern_lawful exKern_errs (t := protTyped) (exTyped_fine false _) e hst (P := lit "42")
    (ps := [(lit "addr", some (lit "0x10000")), (lit "len", some (lit "0x1000")), (lit "read", none)])
    ⟨_, [], [_], prot_spelled, rfl, by decide +kernel⟩ text_42 (by decide) rfl text_10000 text_1000 (by decide) (by decide)
    (by decide) (by decide) (by simp) (by simp) (by simp) (by decide +kernel)
  obtain ⟨q, q1, q2⟩ := this.1 0x10 (by decide)
  exact ⟨d, q, e, q1, q2.trans (by decide +kernel), this.2.1 0x11 (by decide)⟩

/-- `ultask --dump=addr=0x11010,size=8 -p42 -onew` -/
theorem dump_spelled : Prog.ultask.Spelled false [lit "--dump=addr=0x11010,size=8", lit "-p42", lit "-onew"]
    [.own (.dump (lit "addr=0x11010,size=8")), .own (.pid (lit "42")), .own (.output (lit "new"))] := by
  refine .opts (xs := [lit "--dump=addr=0x11010,size=8"]) (os := [.own (.dump (lit "addr=0x11010,size=8"))])
    (.nameEq (f := fun a => .own (.dump a)) (n := lit "dump") (lit "addr=0x11010,size=8") (Getopt.mem_doc 1 rfl) (.inl (List.mem_singleton.mpr rfl)) rfl) ?_
  refine .opts (xs := [lit "-p42"]) (os := [.own (.pid (lit "42"))])
    (.letterArg (f := fun a => .own (.pid a)) (cs := []) (c := 112) (lit "42") .nil (Getopt.mem_doc 0 rfl) rfl rfl (by decide)) ?_
  exact .opts (xs := [lit "-onew"]) (os := [.own (.output (lit "new"))])
    (.letterArg (f := fun a => .own (.output a)) (cs := []) (c := 111) (lit "new") .nil (Getopt.mem_doc 12 rfl) rfl rfl (by decide)) .done

def dumpTyped : Typed :=
  { exTyped false [lit "--dump=addr=0x11010,size=8", lit "-p42", lit "-onew"] with
    c := { exCirc with dump := fun _ => ⟨none, 5, 0, List.replicate 8 0, some 8, some 8⟩ } }

/-- C140_dump_partial -/
example : ∃ d, dumpTyped.run exKern .x86_64 exProc = some d ∧ d.out = some (exProc.mem.read 0x11010 8) := by
  obtain ⟨d, e⟩ := C140_ends exKern_lawful .x86_64 (t := dumpTyped) (exJob_fine []) (by exact nofun) exProc
  have hpg : ∀ i, i < 8 → exProc.w.space (((0x11010 : BitVec 64) + BitVec.ofNat 64 i).toNat / 4096) ≠ none := by
    intro i hi
    have : ((0x11010 : BitVec 64) + BitVec.ofNat 64 i).toNat / 4096 = 0x11 := by
      rw [BitVec.toNat_add, BitVec.toNat_ofNat, show ((0x11010 : BitVec 64)).toNat = 0x11010 from rfl]
      omega
    rw [this]
    exact nofun
  exact ⟨d, e, (C140_dump_partial exKern_lawful (t := dumpTyped) (exJob_fine []) (exJob_apart []) rfl rfl e rfl (P := lit "42")
    (O := lit "new") (ps := [(lit "addr", some (lit "0x11010")), (lit "size", some (lit "8"))])
    ⟨_, [_], [_], dump_spelled, rfl, by decide +kernel⟩ text_42 (by decide) rfl text_11010
    (SizeText.dec (s := lit "8") (sf := []) (v := 8) (k := 1) (.one (d := 8) false (by decide)) .none (by decide)) (by decide) (by decide)
    rfl (by simp) (by simp) (by simp) ⟨(2, ⟨0x11000, 0x12000, []⟩), by simp [dumpTyped, exTyped, Typed.job, exLines], by decide, by decide⟩
    ⟨by decide, by decide, by decide, rfl, rfl⟩ hpg).2⟩

/-- `ultask --map file=f,addr=0x20000,ro --pi 42` -/
theorem map_spelled : Prog.ultask.Spelled false [lit "--map", lit "file=f,addr=0x20000,ro", lit "--pi", lit "42"]
    [.own (.map (lit "file=f,addr=0x20000,ro")), .own (.pid (lit "42"))] := by
  refine .opts (xs := [lit "--map", lit "file=f,addr=0x20000,ro"]) (os := [.own (.map (lit "file=f,addr=0x20000,ro"))])
    (.nameArg (f := fun a => .own (.map a)) (n := lit "map") _ (Getopt.mem_doc 3 rfl) (.inl (List.mem_singleton.mpr rfl)) rfl) ?_
  exact .opts (xs := [lit "--pi", lit "42"]) (os := [.own (.pid (lit "42"))])
    (.nameArg (f := fun a => .own (.pid a)) (n := lit "pi") _ (Getopt.mem_doc 0 rfl)
      (.inr ⟨⟨lit "pid", List.mem_singleton.mpr rfl, by decide⟩, by decide +kernel⟩) rfl) .done

def mapTyped : Typed := { exTyped false [lit "--map", lit "file=f,addr=0x20000,ro", lit "--pi", lit "42"] with e := mapEnv, c := mapCirc }

theorem text_20000 : AddrText (lit "0x20000") 0x20000 :=
  .hex (s := lit "20000") (.snoc (s := lit "2000") false (.snoc (s := lit "200") false (.snoc (s := lit "20") false
    (.snoc (s := lit "2") false (.one (d := 2) false (by decide)) (d := 0) (by decide)) (d := 0) (by decide)) (d := 0) (by decide)) (d := 0) (by decide)) (by decide)

/-- C140_map_partial -/
example : ∃ d, mapTyped.run mapKern .x86_64 exProc = some d ∧ exProc.w.space 0x21 = none ∧
    ∃ q, d.proc.w.space 0x21 = some q ∧ q.prot = 5 := by
  obtain ⟨d, e⟩ := C140_ends mapKern_lawful .x86_64 (t := mapTyped) (exJob_fine []) (by exact nofun) exProc
  refine ⟨d, e, by decide, ?_⟩
  have hsp : ∀ n, 0x20 ≤ n → exProc.w.space n = none := by
    intro n hn
    simp only [exProc]
    rw [if_neg (by omega)]
  have hfr : Linux.Free 4096 exProc.w 0x20000 0x2000 := fun n hn => hsp n hn.1
  have hno : ∀ a : BitVec 64, 0x12000 ≤ a → ¬ In (mapTyped.job []) a := by
    rintro a ha ⟨x, hx, h1, h2⟩
    have hx : x = (1, ⟨0x10000, 0x11000, lit "f"⟩) ∨ x = (2, ⟨0x11000, 0x12000, []⟩) := by
      simpa [mapTyped, exTyped, Typed.job, exLines] using hx
    rcases hx with rfl | rfl <;> (rw [BitVec.lt_def] at h2; rw [BitVec.le_def] at ha; simp at h2 ha; omega)
  obtain ⟨⟨a, -, -, m3, m4⟩, -, -⟩ := C140_map_partial mapKern_lawful mapKern_grants mapKern_maps (t := mapTyped) (exJob_fine []) rfl rfl rfl
    (by decide) ⟨3, by decide, by decide⟩ e (P := lit "42") (F := lit "f") (G := lit "/d/f")
    (ps := [(lit "file", some (lit "f")), (lit "addr", some (lit "0x20000")), (lit "ro", none)])
    ⟨_, [_], [], map_spelled, rfl, by decide +kernel⟩ text_42 (by decide) rfl text_20000 (by decide) (by decide)
    (.inr ⟨by decide, rfl, by decide⟩) (by simp) (by simp) rfl rfl (by decide) (size := 0x2000) rfl (by decide) (by decide)
    ⟨0x20000, by decide, by decide, by decide, hfr⟩ (by decide) (fun _ => ⟨hno _ (by decide), hno _ (by decide)⟩)
  have ha := m3 (by simp) (by decide) hfr
  obtain ⟨q, q1, q2⟩ := m4 0x21 (by rw [ha]; decide)
  exact ⟨q, q1, q2.trans (by decide +kernel)⟩

/-- C140_info: `ultask --unmap=0x10000 -p 42 -h`. -/
theorem help_spelled : Prog.ultask.Spelled true [lit "--unmap=0x10000", lit "-p", lit "42", lit "-h"]
    [.own (.unmap (lit "0x10000")), .own (.pid (lit "42")), .own (.stop 0)] := by
  refine .opts (xs := [lit "--unmap=0x10000"]) (os := [.own (.unmap (lit "0x10000"))])
    (.nameEq (f := fun a => .own (.unmap a)) (n := lit "unmap") (lit "0x10000") (Getopt.mem_doc 4 rfl) (.inl (List.mem_singleton.mpr rfl)) rfl) ?_
  refine .opts (xs := [lit "-p", lit "42"]) (os := [.own (.pid (lit "42"))])
    (.letterSep (f := fun a => .own (.pid a)) (cs := []) (os := []) (c := 112) (lit "42") .nil (Getopt.mem_doc 0 rfl) rfl rfl) ?_
  exact .opts (xs := [lit "-h"]) (os := [.own (.stop 0)]) (.flags (cs := lit "h") (by decide) (.cons (Getopt.mem_doc 18 rfl) rfl rfl .nil)) .done

example : ∃ d, (exTyped true [lit "--unmap=0x10000", lit "-p", lit "42", lit "-h"]).run exKern .x86_64 exProc = some d ∧ d.proc = exProc := by
  obtain ⟨d, e⟩ := C140_ends exKern_lawful .x86_64 (exTyped_fine true _)
    (t := exTyped true [lit "--unmap=0x10000", lit "-p", lit "42", lit "-h"]) (by exact nofun) exProc
  exact ⟨d, e, (C140_info help_spelled (.inr (by simp)) e).1⟩

end Ulp.TaskShell
