/-
C131: `--map` maps the file, if nothing fails.
-/
import Verif.Proof.TaskMap
import Verif.Props.TaskDo
namespace Ulp.TaskRun
open Ulp.Linux
open Ulp.Ultask
open Ulp.Vma
open Ulp.Cli (Act Opt)
open Ulp.Load (lit)
open Ulp.Ptrace (shouldSkipRemoteFd)

variable {pg : Nat} {k : Kern (Proc State)}

/-- The parts of a run with `--map`, if nothing fails. -/
theorem map_ran (hk : LawfulP pg k) (hg : Grants pg k) (hgm : GrantsMap pg k) {arch : Arch} {j : Job} (hj : j.Fine)
    (hs : j.c.starts = true) (ho : j.c.opens = true) {p : Proc State} (hp : p.w.stopped = false)
    (hstd : 0#32 ∈ p.w.fds ∧ 1#32 ∈ p.w.fds ∧ 2#32 ∈ p.w.fds) (hfd : ∃ n, n < 1024 ∧ BitVec.ofNat 32 n ∉ p.w.fds)
    {d : Done State} (h : j.run k arch p = some d) {path : List Byte} {addr : BitVec 64} {ro nx : Bool}
    (hin : .map path addr ro nx ∈ asks j.e j.opts) {size : Nat} (hsz : j.c.fs.size path = some size) (h0 : 0 < size)
    (hlt : size < 2 ^ 31) (hroom : Room pg p.w size) (haddr : addr.toNat < 2 ^ 63)
    (hfree : addr ≠ 0 → ¬ In j addr ∧ ¬ In j (addr + BitVec.ofNat 64 size)) :
    ∃ vs g s A B s1 s2 u a, ∃ obj : Nat → Nat, readTaskVmas (initVmas j.info) false j.ls = some vs ∧ asks j.e j.opts = Cli.acts g ∧
      Cli.acts g = A ++ .map path addr ro nx :: B ∧
      d = ⟨if s.run.log = [] then s.run.w else (k.ask s.run.w .detach).1, s.run.log, s.out, s.ret⟩ ∧
      (∀ a ∈ A, a.file = none) ∧ (∀ a ∈ B, a.change ≠ some .mprotect ∧ a.change ≠ some .map) ∧
      doActs k arch j.c ⟨⟨p, []⟩, vs, j.out, 0⟩ A = some s1 ∧ s1.vs = vs ∧ reread vs j.c.lines = some s2.vs ∧ s2.out = s1.out ∧
      From s2.vs u (mapsOf j.c j.ls) ∧ doActs k arch j.c s2 B = some s ∧
      a % pg = 0 ∧ Free pg p.w a size ∧ (addr ≠ 0 → addr.toNat % pg = 0 → Free pg p.w addr.toNat size → a = addr.toNat) ∧
      ∀ n, Touches pg a size n → s2.run.w.w.space n = some ⟨mapProt ro nx, obj n⟩ := by
  obtain ⟨vs, g, s, ev, eg, es, rfl⟩ := ran h hs ho (List.ne_nil_of_mem hin)
  obtain ⟨vs', ev', u, hf, hfresh⟩ := fine_read hj
  rw [ev] at ev'
  cases ev'
  rw [eg] at hin
  obtain ⟨A, B, eAB, hA, hB, hAf⟩ := mem_acts_map hin
  have hone := acts_one g
  rw [eAB] at es hone
  have hAm : ∀ a ∈ A, a.change ≠ some .map := fun a ha => by rcases hA a ha with q | q <;> rw [q] <;> exact nofun
  rw [show A ++ Act.map path addr ro nx :: B = (A ++ [Act.map path addr ro nx]) ++ B by simp] at hone
  obtain ⟨s1, s2, e1, e2, e3⟩ := doActs_mid es
  -- before
  obtain ⟨k1, k2, _, _⟩ := acts_keep hk A e1 hAm
  have hst := k2 hp
  have hfds : s1.run.w.w.fds = p.w.fds := acts_fds hk A e1 hA
  dsimp only at k1
  have h0A : Held pg j.c (mapsOf j.c j.ls) A A p ⟨⟨p, []⟩, vs, j.out, 0⟩ := ⟨⟨u, hf, fun _ => hfresh⟩, .refl _, by simp⟩
  have hnoA : ∀ n, ¬ Unmaps pg j.c.fs (mapsOf j.c j.ls) A n := by
    rintro n ⟨x, m, hx, _⟩
    rcases hA _ hx with q | q <;> cases q
  have hfA := (held_acts hk (fun ls hls x hx => lines_in hls hx) A h0A (fun _ q => q) (by
    rw [List.filter_append, List.length_append, List.filter_append, List.length_append] at hone; omega) e1).frame
  have hnone : ∀ n, p.w.space n = none ↔ s1.run.w.w.space n = none := by
    intro n
    constructor
    · intro q
      rcases hfA.new n (hnoA n) q with q | ⟨_, _, _, _, _, _, hx, _⟩
      · exact q
      · exact absurd rfl (hAm _ hx)
    · intro q
      cases e : p.w.space n with
      | none => rfl
      | some y =>
        obtain ⟨z, hz⟩ := (hfA.same n y (hnoA n) e).some
        rw [q] at hz
        cases hz
  have hFree : ∀ a l, Free pg p.w a l ↔ Free pg s1.run.w.w a l := fun a l =>
    ⟨fun q n hn => (hnone n).1 (q n hn), fun q n hn => (hnone n).2 (q n hn)⟩
  -- the file
  have hlen : ((fsize j.c.fs path).signExtend 64).toNat = size := fsize_small hsz hlt
  have hlen' : (fsize j.c.fs path).signExtend 64 = BitVec.ofNat 64 size := by
    apply BitVec.eq_of_toNat_eq
    rw [hlen, BitVec.toNat_ofNat]
    omega
  have huse : mapInUse s1.vs addr (BitVec.ofNat 64 size) = some false := by
    unfold mapInUse
    by_cases a0 : addr = 0
    · rw [if_pos a0]
    · obtain ⟨q1, q2⟩ := hfree a0
      rw [if_neg a0, k1, from_lines hj ev q1, Option.bind_some, if_neg (by simp), from_lines hj ev q2]
      rfl
  -- the requests
  have hat : int (k.ask s1.run.w .attach).2 = 0 := hg.1 _ hst
  have wat : (k.ask s1.run.w .attach).1.w = { s1.run.w.w with stopped := true } := by
    have := (hk s1.run.w .attach).1
    simp only [Answers] at this
    rcases this with ⟨_, _, e⟩ | ⟨e, _⟩
    · exact e
    · exact absurd hat e
  generalize ep1 : (k.ask s1.run.w .attach).1 = p1 at wat
  have hop : 0 ≤ int (k.ask p1 (.open path 2)).2 := hgm.1 p1 path (by rw [wat]; dsimp only; rw [hfds]; exact hfd)
  obtain ⟨wop, hnew⟩ : (k.ask p1 (.open path 2)).1.w = { p1.w with fds := (k.ask p1 (.open path 2)).2.setWidth 32 :: p1.w.fds } ∧
      (k.ask p1 (.open path 2)).2.setWidth 32 ∉ p1.w.fds := by
    have := (hk p1 (.open path 2)).1
    simp only [Answers] at this
    rcases this with ⟨_, q, e⟩ | ⟨e, _⟩
    · exact ⟨e, q⟩
    · omega
  generalize ep2 : k.ask p1 (.open path 2) = y at hop wop hnew
  obtain ⟨p2, v⟩ := y
  dsimp only at hop wop hnew
  rw [wat] at hnew
  dsimp only at hnew
  rw [hfds] at hnew
  generalize efd : v.setWidth 32 = fd at wop hnew
  have hfd0 : fd ≠ 0#32 := fun e => hnew (e ▸ hstd.1)
  have hskip : shouldSkipRemoteFd fd = false := by
    unfold shouldSkipRemoteFd
    have h1 : fd ≠ 1#32 := fun e => hnew (e ▸ hstd.2.1)
    have h2 : fd ≠ 2#32 := fun e => hnew (e ▸ hstd.2.2)
    rw [beq_false_of_ne hfd0, beq_false_of_ne h1, beq_false_of_ne h2]
    rfl
  have hfdpos : 0 < fd.toInt := by
    have : int v = fd.toInt := by rw [← efd]; rfl
    rw [this] at hop
    have : fd.toInt ≠ 0 := fun e => hfd0 (BitVec.eq_of_toInt_eq (by rw [e]; rfl))
    omega
  have hnn : 0 ≤ (BitVec.ofNat 64 size).toInt := by
    rw [← hlen', BitVec.toInt_eq_toNat_of_lt (by rw [hlen]; omega), hlen]
    omega
  have hft : int (k.ask p2 (.ftruncate fd (BitVec.ofNat 64 size))).2 = 0 := hgm.2.1 p2 fd _ hnn
  have eft : (k.ask p2 (.ftruncate fd (BitVec.ofNat 64 size))).1.w.space = p2.w.space := by
    have := (hk p2 (.ftruncate fd (BitVec.ofNat 64 size))).1
    simp only [Answers] at this
    rcases this with ⟨_, _, e⟩ | e <;> rw [e]
  have e2o := e2
  unfold act at e2
  dsimp only at e2
  rw [map_path k j.c.fs ro nx s1.run.w hlen' huse hat (by rw [ep1]; exact ep2) efd hfdpos hskip hft, Option.bind_some] at e2
  dsimp only at e2
  rw [if_pos (by simp)] at e2
  generalize ep3 : (k.ask p2 (.ftruncate fd (BitVec.ofNat 64 size))).1 = p3 at e2 eft
  have hsp3 : p3.w.space = s1.run.w.w.space := by rw [eft, wop, wat]
  have hFree3 : ∀ a l, Free pg p.w a l ↔ Free pg p3.w a l := by
    intro a l
    rw [hFree]
    unfold Free
    rw [hsp3]
  have hsz64 : (BitVec.ofNat 64 size).toNat = size := by rw [← hlen', hlen]
  have hgr := hgm.2.2 p3 addr (BitVec.ofNat 64 size) (mapProt ro nx) fd haddr (by rw [hsz64]; exact h0) (by
    rw [hsz64]
    obtain ⟨a, a1, a2, a3, a4⟩ := hroom
    exact ⟨a, a1, a2, a3, (hFree3 _ _).1 a4⟩)
  have hm := (hk p3 (.mmap addr (BitVec.ofNat 64 size) (mapProt ro nx) 2 fd 0)).1
  simp only [Answers] at hm
  generalize k.ask p3 (.mmap addr (BitVec.ofNat 64 size) (mapProt ro nx) 2 fd 0) = z at e2 hgr hm
  obtain ⟨p4, w⟩ := z
  dsimp only at e2 hgr hm
  rcases hm with ⟨_, _, _, m3, m4, m5, obj, m6⟩ | ⟨q | q, _⟩
  rotate_left
  · exact absurd q hgr.1
  · exact absurd q hgr.2
  rw [hsz64] at m4 m5 m6
  have wcl : ∀ p, (k.ask p (.close fd)).1.w.space = p.w.space := by
    intro p
    have := (hk p (.close fd)).1
    simp only [Answers] at this
    rw [this]
  have wde : ∀ p, (k.ask p .detach).1.w.space = p.w.space := by
    intro p
    have := (hk p .detach).1
    simp only [Answers] at this
    rw [this]
  cases er : reread s1.vs j.c.lines with
  | none => rw [er] at e2; cases e2
  | some vs2 =>
    rw [er] at e2
    have hs2 := Option.some.inj e2
    have e2' : doActs k arch j.c ⟨⟨p, []⟩, vs, j.out, 0⟩ (A ++ [Act.map path addr ro nx]) = some s2 := by
      rw [doActs_append, e1, Option.bind_some]
      unfold doActs
      rw [e2o, Option.bind_some]
      rfl
    have h0M : Held pg j.c (mapsOf j.c j.ls) (A ++ [Act.map path addr ro nx]) (A ++ [Act.map path addr ro nx]) p
        ⟨⟨p, []⟩, vs, j.out, 0⟩ := ⟨⟨u, hf, fun _ => hfresh⟩, .refl _, by simp⟩
    obtain ⟨u2, hf2, _⟩ := (held_acts hk (fun ls hls x hx => lines_in hls hx) _ h0M (fun _ q => q) (by
      rw [List.filter_append, List.length_append] at hone; omega) e2').known
    refine ⟨vs, g, s, A, B, s1, s2, u2, w.toNat, obj, ev, eg, eAB, rfl, hAf, hB, e1, k1, ?_, ?_, hf2, e3, m3, (hFree3 _ _).2 m4,
      fun q1 q2 q3 => m5 (fun e => q1 (BitVec.eq_of_toNat_eq (by rw [e]; rfl))) q2 ((hFree3 _ _).1 q3), ?_⟩
    · rw [← hs2, ← k1]; exact er
    · rw [← hs2]
    · intro n hn
      rw [← hs2]
      dsimp only
      rw [wde, wcl, m6]
      simp only [State.change]
      rw [if_pos hn]

/-- **C131** (`--map`), partial: for every process that is not traced, with its standard
descriptors open and another one free, every file of less than 2 GiB and every kernel that does
what it can.  After the run the whole file is mapped where nothing was mapped before, with the
rights asked for; at the address asked for, if it is the beginning of a page and there is room;
only pages that `--unmap` takes in the same run may be missing.  Missing: an address just below a
mapping is refused (`C65_refused`), so that neither the address nor the one behind the file may be
in a mapping; an empty file cannot be mapped, and this is not reported (`C65_silent`). -/
theorem C131_mapped_partial (hk : LawfulP pg k) (hg : Grants pg k) (hgm : GrantsMap pg k) {arch : Arch} {j : Job} (hj : j.Fine)
    (hs : j.c.starts = true) (ho : j.c.opens = true) {p : Proc State} (hp : p.w.stopped = false)
    (hstd : 0#32 ∈ p.w.fds ∧ 1#32 ∈ p.w.fds ∧ 2#32 ∈ p.w.fds) (hfd : ∃ n, n < 1024 ∧ BitVec.ofNat 32 n ∉ p.w.fds)
    {d : Done State} (h : j.run k arch p = some d) {path : List Byte} {addr : BitVec 64} {ro nx : Bool}
    (hin : .map path addr ro nx ∈ asks j.e j.opts) {size : Nat} (hsz : j.c.fs.size path = some size) (h0 : 0 < size)
    (hlt : size < 2 ^ 31) (hroom : Room pg p.w size) (haddr : addr.toNat < 2 ^ 63)
    (hfree : addr ≠ 0 → ¬ In j addr ∧ ¬ In j (addr + BitVec.ofNat 64 size)) :
    ∃ a, a % pg = 0 ∧ Free pg p.w a size ∧ (addr ≠ 0 → addr.toNat % pg = 0 → Free pg p.w addr.toNat size → a = addr.toNat) ∧
      ∀ n, Touches pg a size n → ¬ Unmaps pg j.c.fs (mapsOf j.c j.ls) (asks j.e j.opts) n →
        ∃ q, d.proc.w.space n = some q ∧ q.prot = mapRights ro nx := by
  obtain ⟨vs, g, s, A, B, s1, s2, u, a, obj, ev, eg, eAB, rfl, hA, hB, e1, k1, er, _, hf2, e3, m3, m4, m5, m6⟩ :=
    map_ran hk hg hgm hj hs ho hp hstd hfd h hin hsz h0 hlt hroom haddr hfree
  refine ⟨a, m3, m4, m5, ?_⟩
  intro n hn hu
  rw [eg, eAB] at hu
  have hs := tail_acts hk B hf2 e3 hB (n := n) (by
    rintro ⟨x, m, hx, y⟩
    exact hu ⟨x, m, by simp [hx], y⟩) (m6 n hn)
  refine ⟨⟨mapProt ro nx, obj n⟩, ?_, mapProt_eq ro nx⟩
  dsimp only
  split
  · exact hs
  · have := (hk s.run.w .detach).1
    simp only [Answers] at this
    rw [this]
    exact hs

/-- **C131** (`--map` and `--dump vma=ADDR` on one command line): the address is in a line that
`/proc/PID/maps` has after the file was mapped and that has nothing in common with the lines
before.  If it is dumped into a new file with complete transfers, and the mapping is still there
after the run, and there is no `--jmp`, the file holds exactly the bytes of the mapping.  So a
mapping can be dumped in the run that makes it. -/
theorem C131_dump_new (hk : LawfulP pg k) (hg : Grants pg k) (hgm : GrantsMap pg k) {arch : Arch} {j : Job} (hj : j.Fine)
    (hs : j.c.starts = true) (ho : j.c.opens = true) {p : Proc State} (hp : p.w.stopped = false)
    (hstd : 0#32 ∈ p.w.fds ∧ 1#32 ∈ p.w.fds ∧ 2#32 ∈ p.w.fds) (hfd : ∃ n, n < 1024 ∧ BitVec.ofNat 32 n ∉ p.w.fds)
    {d : Done State} (h : j.run k arch p = some d) {path : List Byte} {addr : BitVec 64} {ro nx : Bool}
    (hin : .map path addr ro nx ∈ asks j.e j.opts) {size : Nat} (hsz : j.c.fs.size path = some size) (h0 : 0 < size)
    (hlt : size < 2 ^ 31) (hroom : Room pg p.w size) (haddr : addr.toNat < 2 ^ 63)
    (hfree : addr ≠ 0 → ¬ In j addr ∧ ¬ In j (addr + BitVec.ofNat 64 size))
    {ls : List (Nat × Line)} (hls : j.c.lines = some ls) {y : Nat × Line} (hy : y ∈ ls)
    (hold : ∀ x ∈ j.ls, x.2.stop ≤ y.2.start ∨ y.2.stop ≤ x.2.start)
    (hnew : ∀ z ∈ ls, z ≠ y → z.2.stop ≤ y.2.start ∨ y.2.stop ≤ z.2.start)
    {file : List Byte} {a : BitVec 64} (ha1 : y.2.start ≤ a) (ha2 : a < y.2.stop) (hdump : .dumpVma file a ∈ asks j.e j.opts)
    (hone : ((asks j.e j.opts).filter fun b => b.file.isSome).length ≤ 1) (hout : j.out = none)
    (hjmp : ∀ b ∈ asks j.e j.opts, b.change ≠ some .jmp) (hw : Whole (j.c.dump (.dumpVma file a)) (y.2.stop - y.2.start).toNat)
    (hpg : ∀ i, i < (y.2.stop - y.2.start).toNat → d.proc.w.space ((y.2.start + BitVec.ofNat 64 i).toNat / pg) ≠ none) :
    d.out = some (d.proc.mem.read y.2.start (y.2.stop - y.2.start).toNat) := by
  obtain ⟨vs, g, s, A, B, s1, s2, u, b, obj, ev, eg, eAB, rfl, hA, hB, e1, k1, er, eo, hf2, e3, _, _, _, _⟩ :=
    map_ran hk hg hgm hj hs ho hp hstd hfd h hin hsz h0 hlt hroom haddr hfree
  rw [eg] at hdump hone hjmp
  obtain ⟨X, Y, eXY, hX, hY⟩ := acts_late g
  rw [eAB] at hdump hone hjmp
  have hB' : Act.dumpVma file a ∈ B := by
    rcases List.mem_append.1 hdump with q | q
    · cases hA _ q
    · rcases List.mem_cons.1 q with q | q
      · cases q
      · exact q
  obtain ⟨B1, B2, rfl⟩ := List.append_of_mem hB'
  have hno : ∀ l : List Act, (l.filter fun b => b.file.isSome).length = 0 → ∀ b ∈ l, b.file = none := by
    intro l hl b hb
    cases e : b.file with
    | none => rfl
    | some f =>
      have : b ∈ l.filter fun b => b.file.isSome := List.mem_filter.2 ⟨hb, by rw [e]; rfl⟩
      rw [List.length_eq_zero_iff.1 hl] at this
      cases this
  rw [List.filter_append, List.filter_cons, if_neg (by exact nofun), List.filter_append, List.filter_cons,
    if_pos (show (Act.dumpVma file a).file.isSome = true from rfl),
    List.length_append, List.length_append, List.length_cons] at hone
  have n1 := hno B1 (by omega)
  have n2 := hno B2 (by omega)
  have hB2 : ∀ b ∈ B2, b.change = none := by
    have hl : ∀ b ∈ B2, b.change = none ∨ b.change = some .jmp := by
      rw [eAB, show A ++ Act.map path addr ro nx :: (B1 ++ Act.dumpVma file a :: B2) =
        (A ++ Act.map path addr ro nx :: B1) ++ Act.dumpVma file a :: B2 by simp] at eXY
      rcases List.append_eq_append_iff.1 eXY with ⟨C, e1, e2⟩ | ⟨C, e1, e2⟩
      · cases C with
        | nil =>
          rw [List.nil_append] at e2
          exact fun b hb => hY b (by rw [← e2]; simp [hb])
        | cons c C =>
          rw [List.cons_append] at e2
          have := hX c (by rw [e1]; simp)
          rw [← (List.cons.inj e2).1] at this
          cases this
      · exact fun b hb => hY b (by rw [e2]; simp [hb])
    intro b hb
    rcases hl b hb with q | q
    · exact q
    · exact absurd q (hjmp b (by simp [hb]))
  obtain ⟨s3, s4, e4, e5, e6⟩ := doActs_mid e3
  have o2 : s3.out = none := by
    rw [acts_out B1 e4 n1, eo, acts_out A e1 hA]
    exact hout
  have v3 : s3.vs = s2.vs := (acts_keep hk B1 e4 (fun b hb => (hB b (by simp [hb])).2)).1
  obtain ⟨hfr, hfresh⟩ := first_read hj ev
  obtain ⟨f1, f2⟩ := hfresh ls hls
  rw [hls] at er
  have er : readLines true vs ls 0 = some s2.vs := er
  have hold' : ∀ m ∈ j.ls.map (fun x => areaOfLine x.2), m.hi ≤ y.2.start ∨ y.2.stop ≤ m.lo := by
    intro m hm
    obtain ⟨x, hx, rfl⟩ := List.mem_map.1 hm
    exact hold x hx
  have hylt := (f2 y hy).2.2
  obtain ⟨⟨_, g1⟩, g2⟩ := new_stay ls hfr f1 f2 hy hold' hnew ha1 ha2 er
  obtain ⟨⟨_, g3⟩, _⟩ := new_stay ls hfr f1 f2 hy hold' hnew (BitVec.le_refl _) hylt er
  have i1 : (s2.vs.info y.1).start = y.2.start := congrArg Area.lo g2
  have i2 : (s2.vs.info y.1).stop = y.2.stop := congrArg Area.hi g2
  have hy0 : y.1 ≠ 0 := (f2 y hy).1
  obtain ⟨z, ez, rfl⟩ := withOut_eq e5
  have hz : z.1 = some (s3.run.w.mem.read y.2.start (y.2.stop - y.2.start).toNat) := by
    rw [v3] at ez
    unfold dumpVma at ez
    rw [g1.find, Option.bind_some, if_neg hy0] at ez
    dsimp only at ez
    rw [i1, i2] at ez
    obtain ⟨t, et, q | q⟩ := dumpAddr_whole (e := { j.c.dump (.dumpVma file a) with file := s3.out }) hw o2 ez
    · rw [g3.find] at et
      cases et
      exact absurd q.1 hy0
    · exact q.2
  have hrun := look_acts B2 hB2 e6
  dsimp only at hrun
  have ho : s.out = z.1 := acts_out B2 e6 n2
  dsimp only
  rw [ho, hz]
  congr 1
  unfold Mem.read
  apply List.map_congr_left
  intro i hi
  have hpi := hpg i (List.mem_range.1 hi)
  dsimp only at hpi
  split at hpi
  · rename_i hl
    rw [if_pos hl, hrun]
  · rename_i hl
    rw [if_neg hl]
    have hd := (hk s.run.w .detach).1
    simp only [Answers] at hd
    rw [hd] at hpi
    rw [(hk s.run.w .detach).2 _ hpi (by rw [hd]; exact hpi), hrun]

/-! ## Example -/

open Classical in
/-- A kernel that opens the first free descriptor and maps files: at the address asked for if it
can, else at any place with room. -/
noncomputable def mapKern : Kern (Proc State) where
  ask p q :=
    match q with
    | .open _ _ =>
      match (List.range 1024).find? fun n => BitVec.ofNat 32 n ∉ p.w.fds with
      | none => (p, -24)
      | some n => ({ p with w := { p.w with fds := BitVec.ofNat 32 n :: p.w.fds } }, BitVec.ofNat 64 n)
    | .mmap hint len prot _ _ _ =>
      if 0 < len.toNat ∧ hint.toNat < 2 ^ 63 then
        if hint ≠ 0 ∧ hint.toNat % 4096 = 0 ∧ Free 4096 p.w hint.toNat len.toNat then
          ({ p with w := p.w.change 4096 hint.toNat len.toNat fun n _ => some ⟨prot, n⟩ }, hint)
        else if h : Room 4096 p.w len.toNat then
          ({ p with w := p.w.change 4096 h.choose len.toNat fun n _ => some ⟨prot, n⟩ }, BitVec.ofNat 64 h.choose)
        else (p, -12)
      else (p, -22)
    | q => exKern.ask p q

theorem not_err {v : BitVec 64} (h : v.toNat < 2 ^ 63) : ¬ IsErr v := by
  rintro ⟨_, h2⟩
  rw [BitVec.toInt_eq_toNat_of_lt (by omega)] at h2
  omega

theorem mapKern_lawful : LawfulP 4096 mapKern := by
  intro p q
  cases q with
  | «open» path flags =>
    simp only [mapKern]
    cases e : (List.range 1024).find? fun n => BitVec.ofNat 32 n ∉ p.w.fds with
    | none =>
      refine ⟨?_, fun _ _ _ => rfl⟩
      simp only [Answers]
      exact Or.inr ⟨by decide, trivial⟩
    | some n =>
      refine ⟨?_, fun _ _ _ => rfl⟩
      have h1 : BitVec.ofNat 32 n ∉ p.w.fds := by simpa using List.find?_some e
      have h2 : n < 1024 := by simpa using List.mem_of_find?_eq_some e
      have h3 : (BitVec.ofNat 64 n).setWidth 32 = BitVec.ofNat 32 n := by
        apply BitVec.eq_of_toNat_eq
        simp only [BitVec.toNat_setWidth, BitVec.toNat_ofNat]
        omega
      simp only [Answers]
      refine Or.inl ⟨?_, by rw [h3]; exact h1, by rw [h3]⟩
      unfold int
      rw [h3, BitVec.toInt_eq_toNat_of_lt (by rw [BitVec.toNat_ofNat]; omega)]
      omega
  | mmap hint len prot fl fd off =>
    simp only [mapKern]
    by_cases h0 : 0 < len.toNat ∧ hint.toNat < 2 ^ 63
    · rw [if_pos h0]
      by_cases h1 : hint ≠ 0 ∧ hint.toNat % 4096 = 0 ∧ Free 4096 p.w hint.toNat len.toNat
      · rw [if_pos h1]
        obtain ⟨h2, h3, h4⟩ := h1
        refine ⟨?_, fun _ _ _ => rfl⟩
        simp only [Answers]
        refine Or.inl ⟨not_err h0.2, h0.1, ?_, h3, h4, fun _ _ _ => rfl, _, rfl⟩
        have : hint.toNat ≠ 0 := fun e => h2 (BitVec.eq_of_toNat_eq e)
        omega
      · rw [if_neg h1]
        by_cases h2 : Room 4096 p.w len.toNat
        · rw [dif_pos h2]
          obtain ⟨a1, a2, a3, a4⟩ := h2.choose_spec
          refine ⟨?_, fun _ _ _ => rfl⟩
          have ea : (BitVec.ofNat 64 h2.choose).toNat = h2.choose := by rw [BitVec.toNat_ofNat]; omega
          simp only [Answers]
          refine Or.inl ⟨not_err (by rw [ea]; exact a2), h0.1, by rw [ea]; exact a1, by rw [ea]; exact a3, by rw [ea]; exact a4,
            fun b1 b2 b3 => absurd ⟨fun e => b1 (by rw [e]; rfl), b2, b3⟩ h1, fun n => n, by rw [ea]⟩
        · rw [dif_neg h2]
          refine ⟨?_, fun _ _ _ => rfl⟩
          simp only [Answers]
          exact Or.inr ⟨Or.inl (by unfold IsErr; decide), trivial⟩
    · rw [if_neg h0]
      refine ⟨?_, fun _ _ _ => rfl⟩
      simp only [Answers]
      exact Or.inr ⟨Or.inl (by unfold IsErr; decide), trivial⟩
  | attach => exact exKern_lawful p .attach
  | detach => exact exKern_lawful p .detach
  | ftruncate a b => exact exKern_lawful p (.ftruncate a b)
  | mprotect a b c => exact exKern_lawful p (.mprotect a b c)
  | munmap a b => exact exKern_lawful p (.munmap a b)
  | close a => exact exKern_lawful p (.close a)

theorem mapKern_grants : Grants 4096 mapKern := ⟨fun p hp => exKern_grants.1 p hp, fun p a l h1 h2 => exKern_grants.2 p a l h1 h2⟩

theorem mapKern_maps : GrantsMap 4096 mapKern := by
  refine ⟨?_, ?_, ?_⟩
  · rintro p path ⟨n, h1, h2⟩
    simp only [mapKern]
    cases h : (List.range 1024).find? fun n => BitVec.ofNat 32 n ∉ p.w.fds with
    | none =>
      have := List.find?_eq_none.1 h n (List.mem_range.2 h1)
      exact absurd (decide_eq_true h2) this
    | some m =>
      have h4 : m < 1024 := List.mem_range.1 (List.mem_of_find?_eq_some h)
      dsimp only
      unfold int
      have h3 : (BitVec.ofNat 64 m).setWidth 32 = BitVec.ofNat 32 m := by
        apply BitVec.eq_of_toNat_eq
        simp only [BitVec.toNat_setWidth, BitVec.toNat_ofNat]
        omega
      rw [h3, BitVec.toInt_eq_toNat_of_lt (by rw [BitVec.toNat_ofNat]; omega)]
      omega
  · intro p fd len h
    simp only [mapKern, exKern]
    rw [if_pos h]
    exact (by decide : int 0 = 0)
  · intro p hint len prot fd h1 h2 h3
    simp only [mapKern]
    rw [if_pos ⟨h2, h1⟩]
    by_cases h4 : hint ≠ 0 ∧ hint.toNat % 4096 = 0 ∧ Free 4096 p.w hint.toNat len.toNat
    · rw [if_pos h4]
      exact ⟨not_err h1, h4.1⟩
    · rw [if_neg h4, dif_pos h3]
      obtain ⟨a1, a2, _, _⟩ := h3.choose_spec
      have ea : (BitVec.ofNat 64 h3.choose).toNat = h3.choose := by rw [BitVec.toNat_ofNat]; omega
      refine ⟨not_err (by rw [ea]; exact a2), fun e => ?_⟩
      dsimp only at e
      have := congrArg BitVec.toNat e
      rw [ea] at this
      have h0 : (0 : BitVec 64).toNat = 0 := rfl
      omega

/-- A file of two pages, mapped at 0x20000 for reading and executing, and a mapping to unmap. -/
def mapIt : List Opt := [.pid (lit "42"), .map (lit "file=f,addr=0x20000,ro"), .unmap (lit "0x10000")]

def mapCirc : Circ := { exCirc with fs := ⟨fun n => decide (n = lit "/d/f"), fun n => if n = lit "/d/f" then some 0x2000 else none⟩ }

def mapsJob : Job := { exJob mapIt with e := mapEnv, c := mapCirc }

theorem mapIt_asks : asks mapsJob.e mapsJob.opts = [.map (lit "/d/f") 0x20000 true false, .unmap 0x10000] := by decide +kernel

/-- C131_mapped_partial: both pages are there. -/
example : ∃ d, mapsJob.run mapKern .x86_64 exProc = some d ∧ exProc.w.space 0x21 = none ∧
    ∃ q, d.proc.w.space 0x21 = some q ∧ q.prot = 5 := by
  have hfine : mapsJob.Fine := exJob_fine mapIt
  obtain ⟨d, e⟩ := C130_ends mapKern_lawful .x86_64 hfine exProc (by exact nofun)
  refine ⟨d, e, by decide, ?_⟩
  have hsp : ∀ n, 0x20 ≤ n → exProc.w.space n = none := by
    intro n hn
    simp only [exProc]
    rw [if_neg (by omega)]
  have hfr : Free 4096 exProc.w 0x20000 0x2000 := fun n hn => hsp n hn.1
  obtain ⟨a, _, _, a3, a4⟩ := C131_mapped_partial mapKern_lawful mapKern_grants mapKern_maps hfine rfl rfl rfl
    (by decide) ⟨3, by decide, by decide⟩ e (path := lit "/d/f") (addr := 0x20000) (ro := true) (nx := false)
    (by rw [mapIt_asks]; simp) (size := 0x2000) rfl (by decide) (by decide) ⟨0x20000, by decide, by decide, by decide, hfr⟩ (by decide)
    (fun _ => ⟨by
      rintro ⟨x, hx, h1, h2⟩
      have hx : x ∈ exLines := hx
      simp only [exLines, List.mem_cons, List.not_mem_nil, or_false] at hx
      rcases hx with rfl | rfl <;> exact absurd h2 (by decide), by
      rintro ⟨x, hx, h1, h2⟩
      have hx : x ∈ exLines := hx
      simp only [exLines, List.mem_cons, List.not_mem_nil, or_false] at hx
      rcases hx with rfl | rfl <;> exact absurd h2 (by decide)⟩)
  have ea := a3 (by decide) (by decide) hfr
  rw [ea] at a4
  refine a4 0x21 (by decide) ?_
  rintro ⟨x, m, hx, hm, h1, h2, ht⟩
  rw [mapIt_asks] at hx
  simp only [List.mem_cons, List.not_mem_nil, or_false, reduceCtorEq, false_or, Act.unmap.injEq] at hx
  subst hx
  have hm : m ∈ exLines.map fun x => areaOfLine x.2 := hm
  simp only [exLines, List.map_cons, List.map_nil, List.mem_cons, List.not_mem_nil, or_false] at hm
  rcases hm with rfl | rfl
  · exact absurd ht (by decide)
  · exact absurd h1 (by decide)

/-- C131_unmapped_partial, behind a `--map`. -/
example : ∃ d, mapsJob.run mapKern .x86_64 exProc = some d ∧ exProc.w.space 0x10 ≠ none ∧ d.proc.w.space 0x10 = none := by
  have hfine : mapsJob.Fine := exJob_fine mapIt
  obtain ⟨d, e⟩ := C130_ends mapKern_lawful .x86_64 hfine exProc (by exact nofun)
  refine ⟨d, e, by decide, ?_⟩
  exact C131_unmapped_partial mapKern_lawful mapKern_grants hfine (exJob_apart mapIt) rfl rfl rfl e (addr := 0x10000)
    (by rw [mapIt_asks]; simp) (Or.inr ⟨mapKern_maps, by decide, 3, by decide, by decide⟩)
    (x := (1, ⟨0x10000, 0x11000, lit "f"⟩)) (by simp [mapsJob, exJob, exLines])
    (by decide) (by decide) (by decide) (by decide) (by decide)

/-- A file of two pages is mapped at 0x20000, and the mapping dumped. -/
def mapDump : List Opt := [.pid (lit "42"), .map (lit "file=f,addr=0x20000,ro"), .dump (lit "vma,addr=0x21000"), .output (lit "o")]

def mapDumpCirc : Circ := { mapCirc with lines := some [(3, ⟨0x10000, 0x11000, lit "f"⟩), (4, ⟨0x11000, 0x12000, []⟩), (5, ⟨0x20000, 0x22000, lit "/d/f"⟩)], dump := fun _ => ⟨none, 5, 0, List.replicate 0x2000 0, some 0x2000, some 0x2000⟩ }

def mapDumpJob : Job := { exJob mapDump with e := mapEnv, c := mapDumpCirc }

theorem mapDump_asks : asks mapDumpJob.e mapDumpJob.opts = [.map (lit "/d/f") 0x20000 true false, .dumpVma (lit "o") 0x21000] := by
  decide +kernel

/-- C131_dump_new: the two pages. -/
example : ∃ d, mapDumpJob.run mapKern .x86_64 exProc = some d ∧ d.out = some (d.proc.mem.read 0x20000 0x2000) := by
  have hfine : mapDumpJob.Fine := by
    unfold Job.Fine
    exact ⟨by decide, by decide⟩
  obtain ⟨d, e⟩ := C130_ends mapKern_lawful .x86_64 hfine exProc (by exact nofun)
  refine ⟨d, e, ?_⟩
  have hsp : ∀ n, 0x20 ≤ n → exProc.w.space n = none := by
    intro n hn
    simp only [exProc]
    rw [if_neg (by omega)]
  have hfr : Free 4096 exProc.w 0x20000 0x2000 := fun n hn => hsp n hn.1
  have hno : ∀ a : BitVec 64, 0x12000 ≤ a → ¬ In mapDumpJob a := by
    rintro a ha ⟨x, hx, h1, h2⟩
    have hx : x ∈ exLines := hx
    rw [BitVec.le_def] at ha
    simp only [exLines, List.mem_cons, List.not_mem_nil, or_false] at hx
    rcases hx with rfl | rfl
    all_goals
      rw [BitVec.lt_def] at h2
      dsimp only at h2
      rw [show (0x12000 : BitVec 64).toNat = 0x12000 from rfl] at ha
      first
        | rw [show (0x11000 : BitVec 64).toNat = 0x11000 from rfl] at h2
        | rw [show (0x12000 : BitVec 64).toNat = 0x12000 from rfl] at h2
      omega
  have hin : Act.map (lit "/d/f") 0x20000 true false ∈ asks mapDumpJob.e mapDumpJob.opts := by rw [mapDump_asks]; simp
  have hf : (0x20000 : BitVec 64) ≠ 0 → ¬ In mapDumpJob 0x20000 ∧ ¬ In mapDumpJob (0x20000 + BitVec.ofNat 64 0x2000) :=
    fun _ => ⟨hno _ (by decide), hno _ (by decide)⟩
  have hroom : Room 4096 exProc.w 0x2000 := ⟨0x20000, by decide, by decide, by decide, hfr⟩
  obtain ⟨a, _, _, a3, a4⟩ := C131_mapped_partial mapKern_lawful mapKern_grants mapKern_maps hfine rfl rfl rfl
    (by decide) ⟨3, by decide, by decide⟩ e hin (size := 0x2000) rfl (by decide) (by decide) hroom (by decide) hf
  have ea := a3 (by decide) (by decide) hfr
  rw [ea] at a4
  have hlen : ((0x22000 : BitVec 64) - 0x20000).toNat = 0x2000 := by decide
  have := C131_dump_new mapKern_lawful mapKern_grants mapKern_maps hfine rfl rfl rfl
    (by decide) ⟨3, by decide, by decide⟩ e hin (size := 0x2000) rfl (by decide) (by decide) hroom (by decide) hf
    (ls := [(3, ⟨0x10000, 0x11000, lit "f"⟩), (4, ⟨0x11000, 0x12000, []⟩), (5, ⟨0x20000, 0x22000, lit "/d/f"⟩)]) rfl
    (y := (5, ⟨0x20000, 0x22000, lit "/d/f"⟩)) (by simp) (by
      intro x hx
      have hx : x ∈ exLines := hx
      simp only [exLines, List.mem_cons, List.not_mem_nil, or_false] at hx
      rcases hx with rfl | rfl <;> decide) (by
      intro z hz hne
      simp only [List.mem_cons, List.not_mem_nil, or_false] at hz
      rcases hz with rfl | rfl | rfl
      · decide
      · decide
      · exact absurd rfl hne) (file := lit "o") (a := 0x21000) (by decide) (by decide) (by rw [mapDump_asks]; simp)
    (by rw [mapDump_asks]; decide) rfl (by rw [mapDump_asks]; simp [Cli.Act.change])
    (by
      dsimp only
      rw [hlen]
      exact ⟨by decide, by decide, List.length_replicate, rfl, rfl⟩) (by
      intro i hi
      dsimp only at hi ⊢
      rw [hlen] at hi
      obtain ⟨q, hq, _⟩ := a4 (((0x20000 : BitVec 64) + BitVec.ofNat 64 i).toNat / 4096) (by
        rw [BitVec.toNat_add, BitVec.toNat_ofNat, show ((0x20000 : BitVec 64)).toNat = 0x20000 from rfl]
        unfold Touches
        omega) (by
        rintro ⟨x, m, hx, _⟩
        rw [mapDump_asks] at hx
        simp at hx)
      rw [hq]
      exact nofun)
  dsimp only at this
  rw [hlen] at this
  exact this

end Ulp.TaskRun
