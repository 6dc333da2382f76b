/-
C131: what `ultask` is asked to do to a process is done, if nothing fails.
-/
import Verif.Proof.TaskStay
import Verif.Props.TaskRun
import Verif.Props.JmpTable
namespace Ulp.TaskRun
open Ulp.Linux
open Ulp.Ultask
open Ulp.Vma
open Ulp.Cli (Act Opt)
open Ulp.Load (lit)

variable {pg : Nat} {k : Kern (Proc State)}

/-- **C131** (`--unmap ADDR`), partial: for every process that is not traced and every kernel that
does what it can.  After the run, no page is mapped from the beginning of the mapping that the
address is in to its end, or to where a file of its name would end, also if a `--map` on the same
command line has just mapped something there.  Missing: the file of that `--map` cannot be opened
in the process, which then stays traced (`C131_traced`). -/
theorem C131_unmapped_partial (hk : LawfulP pg k) (hg : Grants pg k) {arch : Arch} {j : Job} (hj : j.Fine) (ha : j.Apart)
    (hs : j.c.starts = true) (ho : j.c.opens = true) {p : Proc State} (hp : p.w.stopped = false) {d : Done State}
    (h : j.run k arch p = some d) {addr : BitVec 64} (hin : .unmap addr ∈ asks j.e j.opts)
    (hm : (∀ a ∈ asks j.e j.opts, a.change ≠ some .map) ∨
      (GrantsMap pg k ∧ 0#32 ∈ p.w.fds ∧ ∃ n, n < 1024 ∧ BitVec.ofNat 32 n ∉ p.w.fds))
    {x : Nat × Line} (hx : x ∈ j.ls) (h1 : x.2.start ≤ addr)
    (h2 : addr < x.2.stop) (hal : x.2.start.toNat % pg = 0) (hlen : 0 < taken j.c.fs (areaOfLine x.2)) {n : Nat}
    (hn : Touches pg x.2.start.toNat (taken j.c.fs (areaOfLine x.2)) n) : d.proc.w.space n = none := by
  obtain ⟨vs, g, s, ev, eg, es, rfl⟩ := ran h hs ho (List.ne_nil_of_mem hin)
  rw [eg] at hin hm
  obtain ⟨A, B, eAB, hA, hB⟩ := acts_unmap hin
  have hone := acts_one g
  rw [eAB] at es hm hone
  rw [List.filter_append, List.length_append] at hone
  obtain ⟨s1, s2, e1, e2, e3⟩ := doActs_mid es
  have hst := acts_stopped hk hg e1 hA (by omega) hp (hm.imp (fun q a ha => q a (by simp [ha])) id)
  obtain ⟨_, _, _, b4⟩ := acts_keep hk B e3 (fun a ha => by rcases hB a ha with q | q <;> rw [q] <;> exact nofun)
  obtain ⟨f1, f2, f3⟩ := stay_found hk hj ha ev (by omega) e1 hx h1 h2
  unfold act at e2
  dsimp only at e2
  have hsz : (if j.c.fs.exist (s1.vs.info x.1).name then (fsize j.c.fs (s1.vs.info x.1).name).signExtend 64
      else (s1.vs.info x.1).stop - (s1.vs.info x.1).start).toNat = taken j.c.fs (areaOfLine x.2) := by
    rw [← f3]
    unfold taken areaOf
    dsimp only
    by_cases c : j.c.fs.exist (s1.vs.info x.1).name = true
    · rw [if_pos c, if_pos c]
    · rw [if_neg c, if_neg c]
  have hlo : (s1.vs.info x.1).start = x.2.start := congrArg Area.lo f3
  rw [munmap_found k j.c.fs f2 f1 s1.run (hg.1 _ hst) rfl] at e2
  rw [Option.map_some] at e2
  cases e2
  have hfree : s.run.w.w.space n = none := by
    rw [b4 hB]
    dsimp only
    generalize hq : (if j.c.fs.exist (s1.vs.info x.1).name then (fsize j.c.fs (s1.vs.info x.1).name).signExtend 64
      else (s1.vs.info x.1).stop - (s1.vs.info x.1).start) = size at hsz ⊢
    generalize (k.ask s1.run.w .attach).1 = p1
    have hdt := (hk (k.ask p1 (.munmap (s1.vs.info x.1).start size)).1 .detach).1
    simp only [Answers] at hdt
    rw [hdt]
    dsimp only
    have hmu := (hk p1 (.munmap (s1.vs.info x.1).start size)).1
    simp only [Answers] at hmu
    rcases hmu with ⟨_, _, _, e⟩ | ⟨e, _⟩
    · rw [e, hlo, hsz]
      simp only [State.change]
      rw [if_pos hn]
    · exact absurd (hg.2 p1 _ size (by rw [hlo]; exact hal) (by rw [hsz]; exact hlen)) e
  dsimp only
  split
  · exact hfree
  · have := (hk s.run.w .detach).1
    simp only [Answers] at this
    rw [this]
    exact hfree

/-- **C131** (`--jmp`): if both addresses are in mappings, the 16 bytes are read and
written, the page is there and `--unmap` does not take it, then after the run a thread that comes
to the first address goes on at the second, whatever the other options did. -/
theorem C131_jump (hk : LawfulP pg k) {arch : Arch} {j : Job} (hj : j.Fine) (ha : j.Apart) (hs : j.c.starts = true)
    (ho : j.c.opens = true) {p : Proc State} {d : Done State} (h : j.run k arch p = some d) {src dst : BitVec 64}
    (hin : .jmp src dst ∈ asks j.e j.opts) (h1 : In j src) (h2 : In j dst)
    (hr : j.c.rd = some 16) (hw : j.c.wr = some 16)
    (hpg : ∀ i, i < 16 → p.w.space ((src + BitVec.ofNat 64 i).toNat / pg) ≠ none ∧
      ¬ Unmaps pg j.c.fs (mapsOf j.c j.ls) (asks j.e j.opts) ((src + BitVec.ofNat 64 i).toNat / pg)) :
    d.proc.mem.read src 16 = jmpEntry arch dst ∧
    (arch = .x86_64 → ∀ s : X86.Cpu, s.rip = src → s.mem = d.proc.mem → X86.step s = some { s with rip := dst }) ∧
    (arch = .aarch64 → ∀ s : A64.Cpu, s.pc = src → s.mem = d.proc.mem →
      A64.steps 2 s = some { pc := dst, x := fun i => if i = 17 then dst else s.x i, mem := s.mem }) := by
  obtain ⟨vs, g, s, ev, eg, es, rfl⟩ := ran h hs ho (List.ne_nil_of_mem hin)
  have hfr := job_held hk hj h
  obtain ⟨vs', ev', u, hf, hfresh⟩ := fine_read hj
  rw [ev] at ev'
  cases ev'
  rw [eg] at hin hpg
  have h0 : Held pg j.c (mapsOf j.c j.ls) (Cli.acts g) (Cli.acts g) p ⟨⟨p, []⟩, vs, j.out, 0⟩ :=
    ⟨⟨u, hf, fun _ => hfresh⟩, .refl _, by simp⟩
  have hh := held_acts hk (fun ls hls x hx => lines_in hls hx) (Cli.acts g) h0 (fun _ q => q) (acts_one g) es
  obtain ⟨n0, n1, A, B, eAB, hB⟩ := acts_jmp hin
  have hone := acts_one g
  rw [eAB] at es hone
  rw [List.filter_append, List.length_append] at hone
  obtain ⟨s1, s2, e1, e2, e3⟩ := doActs_mid es
  have hrun := look_acts B hB e3
  obtain ⟨x, hx, x1, x2⟩ := h1
  obtain ⟨y, hy, y1, y2⟩ := h2
  obtain ⟨f1, f2, _⟩ := stay_found hk hj ha ev (by omega) e1 hx x1 x2
  obtain ⟨g1, g2, _⟩ := stay_found hk hj ha ev (by omega) e1 hy y1 y2
  unfold act at e2
  dsimp only at e2
  have hj : runJmp arch s1.vs s1.run.w.mem src dst j.c.rd j.c.wr = some (s1.run.w.mem.write src (jmpEntry arch dst), 0) := by
    unfold runJmp
    rw [if_neg (fun q => q.elim n0 n1), f1, Option.bind_some, g1, Option.map_some, if_neg (fun q => q.elim f2 g2), hr, hw]
    have el : (jmpEntry arch dst).take 16 = jmpEntry arch dst := List.take_of_length_le (by rw [jmpEntry_length]; decide)
    simp only [memcpyFromTask, memcpyToTask, el, jmpEntrySize]
    rw [if_neg (by decide), if_neg (by decide)]
  rw [hj, Option.map_some] at e2
  cases e2
  have hmem : s.run.w.mem = s1.run.w.mem.write src (jmpEntry arch dst) := by rw [hrun]
  have hb : ∀ i, i < 16 → (if s.run.log = [] then s.run.w else (k.ask s.run.w .detach).1).mem (src + BitVec.ofNat 64 i) =
      s1.run.w.mem.write src (jmpEntry arch dst) (src + BitVec.ofNat 64 i) := by
    intro i hi
    split
    · rw [hmem]
    · have hd := hk s.run.w .detach
      rw [← hmem]
      have hmap : s.run.w.w.space ((src + BitVec.ofNat 64 i).toNat / pg) ≠ none := by
        obtain ⟨q1, q2⟩ := hpg i hi
        cases e : p.w.space ((src + BitVec.ofNat 64 i).toNat / pg) with
        | none => exact absurd e q1
        | some q =>
          obtain ⟨q', hq⟩ := (hh.frame.same _ q q2 e).some
          rw [hq]
          exact nofun
      apply hd.2 _ hmap
      have := hd.1
      simp only [Answers] at this
      rw [this]
      exact hmap
  have hread : (if s.run.log = [] then s.run.w else (k.ask s.run.w .detach).1).mem.read src 16 = jmpEntry arch dst := by
    have el := Mem.read_write_self s1.run.w.mem src (jmpEntry arch dst) (by rw [jmpEntry_length]; decide)
    rw [jmpEntry_length] at el
    rw [← el]
    unfold Mem.read
    apply List.map_congr_left
    intro i hi
    exact hb i (List.mem_range.1 hi)
  have hinst : (if s.run.log = [] then s.run.w else (k.ask s.run.w .detach).1).mem =
      installEntry (if s.run.log = [] then s.run.w else (k.ask s.run.w .detach).1).mem arch src dst := by
    unfold installEntry
    rw [← hread, Mem.write_read_self]
  refine ⟨hread, ?_, ?_⟩
  · rintro rfl c hc hcm
    exact C01_x86_redirect _ src dst c hc (hcm.trans hinst)
  · rintro rfl c hc hcm
    exact C02_a64_redirect _ src dst c hc (hcm.trans hinst)

/-- The dump of a region whose transfers are complete, into a new file. -/
theorem dumpAddr_whole {vs : Vmas} {m : Mem} {addr size : BitVec 64} {e : DumpEnv} (hw : Whole e size.toNat) (hf : e.file = none)
    {y : Option (List Byte) × Int} (h : dumpAddr vs m addr size e = some y) :
    ∃ v, findVma vs addr = some v ∧ ((v = 0 ∧ y.1 = none) ∨ (v ≠ 0 ∧ y.1 = some (m.read addr size.toNat))) := by
  obtain ⟨h1, h2, h3, h4, h5⟩ := hw
  unfold dumpAddr at h
  cases ev : findVma vs addr with
  | none => rw [ev] at h; cases h
  | some v =>
    rw [ev, Option.map_some] at h
    have h := Option.some.inj h
    refine ⟨v, rfl, ?_⟩
    by_cases v0 : v = 0
    · rw [if_pos v0] at h; exact Or.inl ⟨v0, by rw [← h]; exact hf⟩
    · rw [if_neg v0, if_neg (by omega), h4, h5, hf] at h
      refine Or.inr ⟨v0, ?_⟩
      have hb : overwrite none (memcpyFromTask m addr e.uninit (some size.toNat)).1 size.toNat = m.read addr size.toNat := by
        simp only [overwrite, memcpyFromTask]
        rw [List.drop_eq_nil_of_le (by omega), List.append_nil, List.append_nil, List.take_of_length_le (by simp)]
      dsimp only at h
      rw [hb] at h
      split at h <;> rw [← h]

/-- **C131** (`--dump`), partial: a run that makes one dump, into a file that does not exist yet,
with complete transfers.  After it the file holds exactly the bytes that the process had before
the run where the option names them, even if `--jmp` changes them in the same run; or there is no
file, and that only if the address is in no mapping.  Missing: see C68 for transfers that are cut short and files that exist. -/
theorem C131_dump_partial (hk : LawfulP pg k) {arch : Arch} {j : Job} (hj : j.Fine) (hs : j.c.starts = true)
    (ho : j.c.opens = true) {p : Proc State} {d : Done State} (h : j.run k arch p = some d) (hout : j.out = none) {a : Act}
    (hin : a ∈ asks j.e j.opts) (hdump : a.file ≠ none) (hone : ((asks j.e j.opts).filter fun b => b.file.isSome).length ≤ 1)
    (hw : ∀ lo n, Names j.c (mapsOf j.c j.ls) lo n a → Whole (j.c.dump a) n ∧
      ∀ i, i < n → p.w.space ((lo + BitVec.ofNat 64 i).toNat / pg) ≠ none ∧
        ¬ Unmaps pg j.c.fs (mapsOf j.c j.ls) (asks j.e j.opts) ((lo + BitVec.ofNat 64 i).toNat / pg)) :
    (∃ lo n, Names j.c (mapsOf j.c j.ls) lo n a ∧ d.out = some (p.mem.read lo n)) ∨
      (d.out = none ∧ (j.Apart → ¬ Seen j a)) := by
  obtain ⟨vs, g, s, ev, eg, es, rfl⟩ := ran h hs ho (List.ne_nil_of_mem hin)
  obtain ⟨vs', ev', u, hf, hfresh⟩ := fine_read hj
  rw [ev] at ev'
  cases ev'
  rw [eg] at hin hone hw
  obtain ⟨l1, l2, e12⟩ := List.append_of_mem hin
  have hmap1 := acts_one g
  obtain ⟨A, B, eAB, hA, hB⟩ := acts_dumps g
  rw [e12] at es hone hmap1
  have hsome : a.file.isSome = true := by
    cases e : a.file with
    | none => exact absurd e hdump
    | some f => rfl
  rw [List.filter_append, List.filter_cons, if_pos hsome, List.length_append, List.length_cons] at hone
  have hno : ∀ l : List Act, (l.filter fun b => b.file.isSome).length = 0 → ∀ b ∈ l, b.file = none := by
    intro l hl b hb
    cases e : b.file with
    | none => rfl
    | some f =>
      have : b ∈ l.filter fun b => b.file.isSome := List.mem_filter.2 ⟨hb, by rw [e]; rfl⟩
      rw [List.length_eq_zero_iff.1 hl] at this
      cases this
  have n1 := hno l1 (by omega)
  have n2 := hno l2 (by omega)
  have hj1 : ∀ b ∈ l1, b.change ≠ some .jmp := by
    intro b hb
    rw [e12] at eAB
    rcases List.append_eq_append_iff.1 eAB with ⟨C, rfl, _⟩ | ⟨C, rfl, e⟩
    · exact hA b (by simp [hb])
    · cases C with
      | nil =>
        rw [List.append_nil] at hb
        exact hA b hb
      | cons c C =>
        exfalso
        have : a ∈ B := by rw [e]; simp
        exact hdump (hB a this)
  obtain ⟨s1, s2, e1, e2, e3⟩ := doActs_mid es
  have o1 := acts_out l1 e1 n1
  have o3 := acts_out l2 e3 n2
  dsimp only at o1 ⊢
  rw [o3]
  rw [hout] at o1
  have h0 : Held pg j.c (mapsOf j.c j.ls) l1 l1 p ⟨⟨p, []⟩, vs, j.out, 0⟩ := ⟨⟨u, hf, fun _ => hfresh⟩, .refl _, by simp⟩
  have hh := held_acts hk (fun ls hls x hx => lines_in hls hx) l1 h0 (fun _ q => q) (by
    rw [List.filter_append, List.length_append] at hmap1; omega) e1
  obtain ⟨u1, hf1, _⟩ := hh.known
  have hmem : ∀ lo n, Names j.c (mapsOf j.c j.ls) lo n a → s1.run.w.mem.read lo n = p.mem.read lo n := by
    intro lo n hN
    unfold Mem.read
    apply List.map_congr_left
    intro i hi
    obtain ⟨q1, q2⟩ := (hw lo n hN).2 i (List.mem_range.1 hi)
    apply hh.frame.mem _ _ q1
    · rintro ⟨src, dst, hsd, _⟩
      exact hj1 _ hsd rfl
    · rintro ⟨addr, m, ha, hm⟩
      exact q2 ⟨addr, m, by rw [e12]; simp [ha], hm⟩
  have hseen : j.Apart → ∀ addr, In j addr →
      ∃ v, findVma s1.vs addr = some v ∧ v ≠ 0 ∧ ∃ w, findVma s1.vs (s1.vs.info v).start = some w ∧ w ≠ 0 := by
    intro hap addr ⟨x, hx, x1, x2⟩
    have hone1 : (l1.filter isMap).length ≤ 1 := by rw [List.filter_append, List.length_append] at hmap1; omega
    obtain ⟨f1, f2, f3⟩ := stay_found hk hj hap ev hone1 e1 hx x1 x2
    have hlo : (s1.vs.info x.1).start = x.2.start := congrArg Area.lo f3
    have hlt : x.2.start < x.2.stop := hj.2 x (by unfold linesOf; simp [hx])
    refine ⟨_, f1, f2, x.1, ?_, f2⟩
    rw [hlo]
    exact (stay_found hk hj hap ev hone1 e1 hx (BitVec.le_refl _) hlt).1
  have hvma : ∀ addr (e : DumpEnv), e.file = none → (∀ m ∈ mapsOf j.c j.ls, m.lo ≤ addr → addr < m.hi →
      Names j.c (mapsOf j.c j.ls) m.lo (m.hi - m.lo).toNat a ∧ Whole e (m.hi - m.lo).toNat) → ∀ y,
      dumpVma s1.vs s1.run.w.mem addr e = some y →
      (∃ lo n, Names j.c (mapsOf j.c j.ls) lo n a ∧ y.1 = some (p.mem.read lo n)) ∨
      (y.1 = none ∧ (j.Apart → ¬ In j addr)) := by
    intro addr e he hN y hy
    obtain ⟨v, ev, hv⟩ := hf1.find addr
    unfold dumpVma at hy
    rw [ev, Option.bind_some] at hy
    by_cases v0 : v = 0
    · rw [if_pos v0] at hy
      cases hy
      refine Or.inr ⟨he, fun q1 q3 => ?_⟩
      obtain ⟨w, ew, w0, _⟩ := hseen q1 addr q3
      rw [ev] at ew
      cases ew
      exact w0 v0
    · rw [if_neg v0] at hy
      dsimp only at hy
      obtain ⟨m1, m2, m3⟩ := hv v0
      obtain ⟨c1, c2⟩ := hN _ m1 m2 m3
      obtain ⟨z, ez, q | q⟩ := dumpAddr_whole c2 he hy
      · refine Or.inr ⟨q.2, fun q1 q3 => ?_⟩
        obtain ⟨w, ew, _, t, et, t0⟩ := hseen q1 addr q3
        rw [ev] at ew
        cases ew
        rw [ez] at et
        cases et
        exact t0 q.1
      · exact Or.inl ⟨_, _, c1, by rw [q.2, ← hmem _ _ c1]; rfl⟩
  cases a with
  | dumpMem file addr size =>
    obtain ⟨y, ey, rfl⟩ := withOut_eq e2
    dsimp only
    have hN : Names j.c (mapsOf j.c j.ls) addr size.toNat (.dumpMem file addr size) := ⟨rfl, rfl⟩
    obtain ⟨z, ez, q | q⟩ := dumpAddr_whole (e := { j.c.dump (.dumpMem file addr size) with file := s1.out }) (hw _ _ hN).1 o1 ey
    · refine Or.inr ⟨q.2, fun q1 q3 => ?_⟩
      obtain ⟨w, ew, w0, _⟩ := hseen q1 addr q3
      rw [ez] at ew
      cases ew
      exact w0 q.1
    · exact Or.inl ⟨_, _, hN, by rw [q.2, hmem _ _ hN]⟩
  | dumpVma file addr =>
    obtain ⟨y, ey, rfl⟩ := withOut_eq e2
    exact hvma addr { j.c.dump (.dumpVma file addr) with file := s1.out } o1
      (fun m hm m1 m2 => ⟨⟨m, hm, m1, m2, rfl, rfl⟩, (hw _ _ ⟨m, hm, m1, m2, rfl, rfl⟩).1⟩) y ey
  | dumpVdso file =>
    unfold act at e2
    dsimp only at e2
    cases hv : j.c.vdso with
    | none => rw [hv] at e2; cases e2
    | some v =>
      rw [hv] at e2
      obtain ⟨y, ey, rfl⟩ := withOut_eq e2
      have hN : ∀ m ∈ mapsOf j.c j.ls, m.lo ≤ v + 1 → v + 1 < m.hi →
          Names j.c (mapsOf j.c j.ls) m.lo (m.hi - m.lo).toNat (.dumpVdso file) :=
        fun m hm m1 m2 => ⟨v, hv, m, hm, m1, m2, rfl, rfl⟩
      rcases hvma (v + 1) { j.c.dump (.dumpVdso file) with file := s1.out } o1
        (fun m hm m1 m2 => ⟨hN m hm m1 m2, (hw _ _ (hN m hm m1 m2)).1⟩) y ey with q | ⟨q, q'⟩
      · exact Or.inl q
      · refine Or.inr ⟨q, fun q1 ⟨v', e', hi⟩ => ?_⟩
        rw [hv] at e'
        cases e'
        exact q' q1 hi
  | _ => exact absurd rfl hdump

/-! ## Examples -/

theorem exKern_grants : Grants 4096 exKern := by
  constructor
  · intro p hp
    simp only [exKern]
    rw [if_neg (by rw [hp]; exact nofun)]
    exact (by decide : int 0 = 0)
  · intro p a l h1 h2
    simp only [exKern]
    rw [if_pos ⟨h1, h2⟩]
    exact (by decide : int 0 = 0)

theorem exJob_apart (opts : List Opt) : (exJob opts).Apart := by
  unfold Job.Apart
  show exLines.Pairwise _
  unfold exLines
  decide

/-- C131_unmapped_partial: the mapping of `unmapF`. -/
example : ∃ d, (exJob unmapF).run exKern .x86_64 exProc = some d ∧ d.proc.w.space 0x10 = none ∧ exProc.w.space 0x10 ≠ none := by
  obtain ⟨d, e⟩ := C130_ends exKern_lawful .x86_64 (exJob_fine unmapF) exProc (by exact nofun)
  have hask : asks (exJob unmapF).e (exJob unmapF).opts = [.unmap 0x10000] := by decide +kernel
  refine ⟨d, e, ?_, by exact nofun⟩
  exact C131_unmapped_partial exKern_lawful exKern_grants (exJob_fine _) (exJob_apart _) rfl rfl rfl e (addr := 0x10000)
    (by rw [hask]; simp) (Or.inl (by rw [hask]; simp [Cli.Act.change])) (x := (1, ⟨0x10000, 0x11000, lit "f"⟩)) (by simp [exJob, exLines])
    (by decide) (by decide) (by decide) (by decide) (by decide)

/-- C131_jump: the jump of `protJmp`, behind an `--mprotect`. -/
example : ∃ d, (exJob protJmp).run exKern .aarch64 exProc = some d ∧ d.proc.mem.read 0x11010 16 = jmpEntry .aarch64 0x10000 := by
  obtain ⟨d, e⟩ := C130_ends exKern_lawful .aarch64 (exJob_fine protJmp) exProc (by exact nofun)
  refine ⟨d, e, ?_⟩
  have hask : asks (exJob protJmp).e (exJob protJmp).opts = _ := protJmp_asks
  refine (C131_jump exKern_lawful (exJob_fine _) (exJob_apart _) rfl rfl e (src := 0x11010) (dst := 0x10000)
    (by rw [hask]; simp) ⟨(2, ⟨0x11000, 0x12000, []⟩), by simp [exJob, exLines], by decide, by decide⟩
    ⟨(1, ⟨0x10000, 0x11000, lit "f"⟩), by simp [exJob, exLines], by decide, by decide⟩ rfl rfl ?_).1
  intro i hi
  constructor
  · have : ((0x11010 : BitVec 64) + BitVec.ofNat 64 i).toNat / 4096 = 0x11 := by
      rw [BitVec.toNat_add, BitVec.toNat_ofNat, show ((0x11010 : BitVec 64)).toNat = 0x11010 from rfl]
      omega
    rw [this]
    exact nofun
  · rintro ⟨addr, m, hin, _⟩
    rw [hask] at hin
    simp at hin

def dumpJmp : List Opt := [.pid (lit "42"), .dump (lit "addr=0x11010,size=16"), .output (lit "o"), .jmp (lit "from=0x11010,to=0x10000")]

theorem dumpJmp_asks : asks Cli.exEnv dumpJmp = [.dumpMem (lit "o") 0x11010 16, .jmp 0x11010 0x10000] := by decide +kernel

/-- The dump is complete. -/
def dumpJob : Job := { exJob dumpJmp with c := { exCirc with dump := fun _ => ⟨none, 5, 0, List.replicate 16 0, some 16, some 16⟩ } }

/-- C131_dump_partial: the bytes of before the jump. -/
example : ∃ d, dumpJob.run exKern .x86_64 exProc = some d ∧ d.out = some (exProc.mem.read 0x11010 16) := by
  have hfine : dumpJob.Fine := exJob_fine dumpJmp
  obtain ⟨d, e⟩ := C130_ends exKern_lawful .x86_64 hfine exProc (by exact nofun)
  refine ⟨d, e, ?_⟩
  have hask : asks dumpJob.e dumpJob.opts = _ := dumpJmp_asks
  have hw : ∀ lo n, Names dumpJob.c (mapsOf dumpJob.c dumpJob.ls) lo n (.dumpMem (lit "o") 0x11010 16) →
      Whole (dumpJob.c.dump (.dumpMem (lit "o") 0x11010 16)) n ∧ ∀ i, i < n →
        exProc.w.space ((lo + BitVec.ofNat 64 i).toNat / 4096) ≠ none ∧
        ¬ Unmaps 4096 dumpJob.c.fs (mapsOf dumpJob.c dumpJob.ls) (asks dumpJob.e dumpJob.opts) ((lo + BitVec.ofNat 64 i).toNat / 4096) := by
    rintro lo n ⟨rfl, rfl⟩
    refine ⟨⟨by decide, by decide, by decide, rfl, rfl⟩, ?_⟩
    intro i hi
    have hi : i < 16 := hi
    constructor
    · have : ((0x11010 : BitVec 64) + BitVec.ofNat 64 i).toNat / 4096 = 0x11 := by
        rw [BitVec.toNat_add, BitVec.toNat_ofNat, show ((0x11010 : BitVec 64)).toNat = 0x11010 from rfl]
        omega
      rw [this]
      exact nofun
    · rintro ⟨addr, m, hin, _⟩
      rw [hask] at hin
      simp at hin
  rcases C131_dump_partial exKern_lawful hfine rfl rfl e rfl (a := .dumpMem (lit "o") 0x11010 16) (by rw [hask]; simp) (by exact nofun)
    (by rw [hask]; decide) hw with ⟨lo, n, ⟨rfl, rfl⟩, h⟩ | ⟨_, h⟩
  · exact h
  · exact absurd ⟨(2, ⟨0x11000, 0x12000, []⟩), by simp [dumpJob, exJob, exLines], by decide, by decide⟩
      (h (exJob_apart dumpJmp))

/-- A file that can be mapped, and a mapping to unmap. -/
def mapUnmap : List Opt := [.pid (lit "42"), .map (lit "file=f"), .unmap (lit "0x10000")]

def mapEnv : Cli.Env := { Cli.exEnv with exist := fun f => f = lit "/d/f", regular := fun _ => true, size := fun _ => 10, cwd := lit "/d" }

def mapJob : Job := { exJob mapUnmap with e := mapEnv }

/-- A process in which no file can be opened. -/
def fullProc : Proc State := ⟨⟨exProc.w.space, 0, [0, 1, 2, 3], false⟩, exProc.mem⟩

/-- **C131**, what is missing: the file of `--map` cannot be opened in the process.  The tool goes
on without detaching, so it cannot attach again for the `--unmap` of the same command line: the
mapping stays (src/ultask.c:630-637). -/
theorem C131_traced : LawfulP 4096 exKern ∧ Grants 4096 exKern ∧ mapJob.Fine ∧ mapJob.Apart ∧ fullProc.w.stopped = false ∧
    asks mapJob.e mapJob.opts = [.map (lit "/d/f") 0 false false, .unmap 0x10000] ∧
    ∃ d, mapJob.run exKern .x86_64 fullProc = some d ∧ d.proc.w.space 0x10 ≠ none := by
  refine ⟨exKern_lawful, exKern_grants, exJob_fine mapUnmap, exJob_apart mapUnmap, rfl, by decide +kernel, ?_⟩
  obtain ⟨vs, ev, f1, _⟩ := ex_vs
  have hp : ∃ g, Cli.taskParse mapEnv mapUnmap = .ok g ∧ Cli.acts g = [.map (lit "/d/f") 0 false false, .unmap 0x10000] :=
    ⟨{ pid := 42, mapFile := some (lit "/d/f"), unmapIt := true, unmapAddr := 0x10000, rdonly := false }, by decide +kernel,
      by decide +kernel⟩
  obtain ⟨g, hp, ha⟩ := hp
  unfold Job.run
  have ev' : readTaskVmas (initVmas mapJob.info) false mapJob.ls = some vs := ev
  rw [ev', Option.bind_some]
  unfold ultask
  have hp' : Cli.taskParse mapJob.e mapJob.opts = .ok g := hp
  rw [hp']
  dsimp only
  rw [if_neg (show ¬ mapJob.c.starts = false by exact nofun), if_neg (show ¬ mapJob.c.opens = false by exact nofun), ha]
  have k1 : exKern.ask fullProc .attach = ({ fullProc with w := { fullProc.w with stopped := true } }, 0) := rfl
  have k2 : exKern.ask { fullProc with w := { fullProc.w with stopped := true } } (.open (lit "/d/f") 2) =
    ({ fullProc with w := { fullProc.w with stopped := true } }, -13) := rfl
  have k3 : exKern.ask { fullProc with w := { fullProc.w with stopped := true } } .attach =
    ({ fullProc with w := { fullProc.w with stopped := true } }, -1) := rfl
  have e1 : mmapFile exKern mapJob.c.fs vs (lit "/d/f") 0 false false ⟨fullProc, []⟩ =
      some (⟨{ fullProc with w := { fullProc.w with stopped := true } }, [.attach, .open (lit "/d/f") 2]⟩, -1) := by
    unfold mmapFile mapInUse
    dsimp only [Run.ask]
    rw [if_pos rfl, Option.map_some, if_neg (by decide), k1]
    dsimp only
    rw [if_neg (show ¬ int 0 ≠ 0 by decide), k2]
    dsimp only
    rw [if_pos (by decide)]
    rfl
  have e2 : munmapVma exKern mapJob.c.fs vs 0x10000
      ⟨{ fullProc with w := { fullProc.w with stopped := true } }, [] ++ [.attach, .open (lit "/d/f") 2]⟩ =
      some (⟨{ fullProc with w := { fullProc.w with stopped := true } }, [.attach, .open (lit "/d/f") 2, .attach]⟩, -1) := by
    unfold munmapVma
    dsimp only [Run.ask]
    rw [f1 0x10000 (by decide) (by decide), Option.bind_some, if_neg (by decide), k3]
    dsimp only
    rw [if_pos (show int (-1) ≠ 0 by decide)]
    rfl
  simp only [doActs, act]
  rw [e1, Option.bind_some, if_neg (by decide), Option.bind_some, e2]
  exact ⟨_, rfl, by exact nofun⟩

end Ulp.TaskRun
