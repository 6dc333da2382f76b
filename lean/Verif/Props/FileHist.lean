/-
C119: any history of commands on patch files.
-/
import Verif.Proof.FileHist
namespace Ulp.LoadBytes
open Load PatchFile

/-- C119, x86_64, up to the assumptions in `GoodFile`.  For every history of commands on patch
files, from a process without patches: no command crashes; the list of live patches is the
one that the results tell; every live patch is whole in memory, linked at its address; and
the code is the original code with the redirects of the live patches.

Missing, as in `C04_histories_partial`: partial transfers, failing clean-up and unreadable live
patches, where the program violates it. -/
theorem C119_x86_partial (R : Addr → Prop) (w0 : Patch.World) (cs : List FileCmd) (h0 : w0.maps = [])
    (hlen : cs.length < 2 ^ 32) (hg : GoodFiles x86 Psabi.x86Width R w0 cs) :
    ∃ w rs st, runFiles x86 w0 cs = some (w, rs) ∧ w.arch = w0.arch ∧ AllDo [] cs rs st ∧
      Holds Psabi.x86Width Psabi.x86 R w0.mem w st := by
  obtain ⟨w, rs, st, h1, h2, h3, h4⟩ := files_inv links_x86 cs (FInv.init R w0 h0) (by omega) hg
  exact ⟨w, rs, st, h1, h2, h3, h4.holds⟩

/-- C119, aarch64.  As on x86_64; for the values of relocations see `C57_a64_linked_partial`. -/
theorem C119_a64_partial (junk : Bool) (R : Addr → Prop) (w0 : Patch.World) (cs : List FileCmd) (h0 : w0.maps = [])
    (hlen : cs.length < 2 ^ 32) (hg : GoodFiles (a64 junk) Psabi.a64Width R w0 cs) :
    ∃ w rs st, runFiles (a64 junk) w0 cs = some (w, rs) ∧ w.arch = w0.arch ∧ AllDo [] cs rs st ∧
      Holds Psabi.a64Width Psabi.a64Data R w0.mem w st := by
  obtain ⟨w, rs, st, h1, h2, h3, h4⟩ := files_inv (links_a64 junk) cs (FInv.init R w0 h0) (by omega) hg
  exact ⟨w, rs, st, h1, h2, h3, h4.holds⟩

section
variable {width : Nat → Nat}
  {value : Nat → BitVec 64 → BitVec 64 → BitVec 64 → Option (Nat × BitVec 64)}
  {R : Addr → Prop} {base : Mem} {w : Patch.World} {st : List LiveFile}

theorem overlay_out (l : List Overlay) : ∀ (m : Mem) (x : Addr),
    (∀ o ∈ l, o.bytes.length ≤ (x - o.addr).toNat) → overlayAll m l x = m x := by
  induction l with
  | nil => intro m x _; rfl
  | cons o l ih =>
    intro m x h
    change overlayAll (m.write o.addr o.bytes) l x = m x
    rw [ih _ _ fun o' ho' => h o' (List.mem_cons_of_mem _ ho')]
    exact Mem.write_out _ _ _ _ (h o (List.mem_cons_self ..))

theorem apart_out {u v : Addr} (h : ∀ i j, i < 16 → j < 16 → u + BitVec.ofNat 64 i ≠ v + BitVec.ofNat 64 j)
    {j : Nat} (hj : j < 16) : 16 ≤ (v + BitVec.ofNat 64 j - u).toNat := by
  apply Nat.le_of_not_lt
  intro hlt
  apply h _ j hlt hj
  rw [← addr_eq_add_sub]

/-- The entry of the newest patch at a function is there. -/
theorem Holds.entry (h : Holds width value R base w st) {newer older : List LiveFile} {v : LiveFile}
    (hst : st = newer ++ v :: older) (hact : v.active = true)
    (hnew : ∀ u ∈ newer, u.active = true → ∀ i j, i < 16 → j < 16 →
      u.target + BitVec.ofNat 64 i ≠ v.target + BitVec.ofNat 64 j) :
    w.mem.read v.target 16 = jmpEntry w.arch v.entry := by
  have hv : v ∈ st := by rw [hst]; simp
  rw [h.code.read _ _ (h.text v hv)]
  apply List.ext_getElem?
  intro j
  rw [Mem.read_getElem?]
  by_cases hj : j < 16
  · rw [if_pos hj, hst, List.reverse_append, List.reverse_cons, List.append_assoc, List.filter_append,
      List.filter_append, List.map_append, List.map_append]
    rw [show overlayAll base _ = overlayAll (overlayAll (overlayAll base
        ((older.reverse.filter LiveFile.active).map (LiveFile.redirect w.arch)))
        (([v].filter LiveFile.active).map (LiveFile.redirect w.arch)))
        ((newer.reverse.filter LiveFile.active).map (LiveFile.redirect w.arch)) by
      unfold overlayAll; rw [List.foldl_append, List.foldl_append]]
    rw [overlay_out]
    · rw [List.filter_cons, hact, if_pos rfl]
      change some ((overlayAll base _).write v.target (jmpEntry w.arch v.entry) (v.target + BitVec.ofNat 64 j)) = _
      rw [Mem.write_in _ _ _ j (by rw [jmpEntry_length]; exact hj) (by omega),
        List.getElem?_eq_getElem (by rw [jmpEntry_length]; exact hj)]
    · intro o ho
      rw [List.mem_map] at ho
      obtain ⟨u, hu, rfl⟩ := ho
      rw [List.mem_filter, List.mem_reverse] at hu
      change (jmpEntry w.arch u.entry).length ≤ _
      rw [jmpEntry_length]
      exact apart_out (hnew u hu.1 hu.2) hj
  · rw [if_neg hj, List.getElem?_eq_none (by rw [jmpEntry_length]; omega)]

/-- C119, x86_64.  A processor that reaches a function goes on in the function of the newest
live patch for it (unless a newer one for another function overlaps the first 16 bytes). -/
theorem C119_x86_runs (h : Holds width value R base w st) (harch : w.arch = .x86_64)
    {newer older : List LiveFile} {v : LiveFile} (hst : st = newer ++ v :: older) (hact : v.active = true)
    (hnew : ∀ u ∈ newer, u.active = true → ∀ i j, i < 16 → j < 16 →
      u.target + BitVec.ofNat 64 i ≠ v.target + BitVec.ofNat 64 j)
    (cpu : X86.Cpu) (hpc : cpu.rip = v.target) (hmem : cpu.mem = w.mem) :
    X86.step cpu = some { cpu with rip := v.entry } := by
  apply C01_x86_redirect w.mem v.target v.entry cpu hpc
  have := h.entry hst hact hnew
  rw [harch] at this
  unfold installEntry
  rw [hmem, ← this, Mem.write_read_self]

/-- C119, aarch64. -/
theorem C119_a64_runs (h : Holds width value R base w st) (harch : w.arch = .aarch64)
    {newer older : List LiveFile} {v : LiveFile} (hst : st = newer ++ v :: older) (hact : v.active = true)
    (hnew : ∀ u ∈ newer, u.active = true → ∀ i j, i < 16 → j < 16 →
      u.target + BitVec.ofNat 64 i ≠ v.target + BitVec.ofNat 64 j)
    (cpu : A64.Cpu) (hpc : cpu.pc = v.target) (hmem : cpu.mem = w.mem) :
    A64.steps 2 cpu =
      some { pc := v.entry, x := fun i => if i = 17 then v.entry else cpu.x i, mem := cpu.mem } := by
  apply C02_a64_redirect w.mem v.target v.entry cpu hpc
  have := h.entry hst hact hnew
  rw [harch] at this
  unfold installEntry
  rw [hmem, ← this, Mem.write_read_self]

/-- C119.  Code that no live patch in effect replaces is as it was at the beginning. -/
theorem C119_untouched (h : Holds width value R base w st) (x : Addr) (hx : ¬ R x)
    (hno : ∀ v ∈ st, v.active = true → ∀ i, i < 16 → x ≠ v.target + BitVec.ofNat 64 i) :
    w.mem x = base x := by
  rw [h.code x hx]
  apply overlay_out
  intro o ho
  rw [List.mem_map] at ho
  obtain ⟨v, hv, rfl⟩ := ho
  rw [List.mem_filter, List.mem_reverse] at hv
  change (jmpEntry w.arch v.entry).length ≤ _
  rw [jmpEntry_length]
  exact out_image (hno v hv.1 hv.2)

/-! ### What the next command reads -/

theorem perm_map_order {α β : Type} (f : α → β) {l1 l2 : List β} (h : l1.Perm l2) :
    ∀ st : List α, st.map f = l1 → ∃ vs : List α, vs.Perm st ∧ vs.map f = l2 := by
  induction h with
  | nil => intro st hs; exact ⟨st, .refl _, hs⟩
  | cons x p ih =>
    intro st hs
    cases st with
    | nil => cases hs
    | cons a st =>
      rw [List.map_cons] at hs
      cases hs
      obtain ⟨vs, h1, h2⟩ := ih st rfl
      exact ⟨a :: vs, h1.cons a, by rw [List.map_cons, h2]⟩
  | swap x y l =>
    intro st hs
    match st, hs with
    | a :: b :: st, hs =>
      cases hs
      exact ⟨b :: a :: st, .swap .., rfl⟩
  | trans p q ih1 ih2 =>
    intro st hs
    obtain ⟨vs, h1, h2⟩ := ih1 st hs
    obtain ⟨us, h3, h4⟩ := ih2 vs h2
    exact ⟨us, h3.trans h1, h4⟩

/-- The patch with `n` bytes of memory from its start on. -/
def LiveFile.seen (v : LiveFile) (m : Mem) (n : Nat) : Live.LivePatch :=
  ⟨v.file, v.parts.secs, v.parts.o, v.parts.strs, v.parts.si, v.parts.st, v.parts.str, v.parts.syms, v.parts.rels,
    v.parts.src, v.parts.dst, v.start, v.find, v.target, v.now, v.number, v.saved, m.read v.start n⟩

theorem Live_patched {v : LiveFile} {m : Mem} {g : List Byte} {inf : Sec} {n : Nat} (hs : v.saved.length = 16)
    (h1 : ∀ (k : Nat) (b : Byte), g[k]? = some b → ¬ (inf.offset + 28 ≤ k ∧ k < inf.offset + 44) →
      m (v.start + BitVec.ofNat 64 k) = b)
    (h2 : m.read (v.start + BitVec.ofNat 64 (inf.offset + 28)) 16 = v.saved) :
    Patched g inf.offset v.start v.target (m.write v.target v.saved) m := by
  refine ⟨h1, ?_, ?_⟩
  · intro j hj
    rw [Mem.write_in _ _ _ j (by omega) (by omega)]
    have := congrArg (fun l => l[j]?) h2
    rw [Mem.read_getElem?, if_pos hj, add_ofNat_add, List.getElem?_eq_getElem (by omega), Option.some.injEq] at this
    exact this
  · intro x _ hx
    rw [Mem.write_out _ _ _ _ (by rw [hs]; exact out_image hx)]

theorem LiveFile.In.seen {v : LiveFile} {m : Mem} (h : v.In width value m) {n : Nat} (hn : v.file.length ≤ n)
    (hn' : n < 2 ^ 64) : (v.seen m n).Ok width := by
  obtain ⟨g, inf, h1, h2, h3, h4⟩ := h.image
  have hP := Live_patched (n := n) h.saved h3 h4
  have himg := Live.live_of_patched h.made.laid h.made.names h.made.symbols h.made.readable h1 h2 hP hn
  have : (m.write v.target v.saved).read v.target 16 = v.saved := by
    have := Mem.read_write_self m v.target v.saved (by rw [h.saved]; omega)
    rw [h.saved] at this
    exact this
  rw [this] at himg
  exact ⟨h.made.elf, h.made.laid, h.made.readable, h.complete, h.made.names, h.made.symbols, h.made.relocs,
    h.made.plain, himg, by change (m.read v.start n).length < _; rw [Mem.read_length]; exact hn'⟩

theorem LiveFile.In.readBy {v : LiveFile} {m : Mem} (h : v.In width value m) {n : Nat} (hn : v.file.length ≤ n)
    {read : Live.Pread} (hr : ∀ k, k ≤ n → read v.start k = some (m.read v.start k)) : (v.seen m n).ReadBy read := by
  have h64 : 64 ≤ n := Nat.le_trans h.made.len hn
  constructor
  · change read v.start 64 = some ((m.read v.start n).take 64)
    rw [hr 64 h64, Live.read_take _ _ h64]
  · change read v.start (m.read v.start n).length = some (m.read v.start n)
    rw [Mem.read_length]
    exact hr n (Nat.le_refl _)

theorem buildId_unique {f : List Byte} {secs : List Sec} {a b : List Byte} (ha : BuildIdText f secs a)
    (hb : BuildIdText f secs b) : a = b := by
  obtain ⟨s, n, d, a1, a2, a3, a4, a5⟩ := ha
  obtain ⟨s', n', d', b1, b2, b3, b4, b5⟩ := hb
  cases Has.unique a1 b1
  cases a2.unique b2
  cases a3.unique b3
  apply List.ext_getElem?
  intro i
  by_cases hi : i < 2 * d
  · obtain ⟨x, hi1, lo1, c1, c2, c3, c4⟩ := a5 (i / 2) (by omega)
    obtain ⟨y, hi2, lo2, e1, e2, e3, e4⟩ := b5 (i / 2) (by omega)
    rw [c1] at e1
    cases e1
    obtain ⟨rfl, rfl⟩ := HexDigits.unique c4 e4
    rcases Nat.mod_two_eq_zero_or_one i with hp | hp
    · rw [show i = 2 * (i / 2) by omega, c2, e2]
    · rw [show i = 2 * (i / 2) + 1 by omega, c3, e3]
  · rw [List.getElem?_eq_none (by omega), List.getElem?_eq_none (by omega)]

/-- The Build IDs of the patches read. -/
theorem loadAll_bids {read : Live.Pread} : ∀ (ps : List Live.LivePatch), (∀ p ∈ ps, p.Ok width ∧ p.ReadBy read) →
    ∀ t T : Live.Task, Live.loadAll read (ps.map fun p => (p.start, p.stop)) t = .ok T →
    ∃ us, T.ulps = t.ulps ++ us ∧ us.length = ps.length ∧
      ∀ (i : Nat) (p : Live.LivePatch), ps[i]? = some p →
        ∃ u d, us[i]? = some u ∧ u.start = p.start ∧ u.data = some d ∧ BuildIdText p.f p.secs d.buildId := by
  intro ps
  induction ps with
  | nil =>
    intro _ t T h
    cases h
    exact ⟨[], (List.append_nil _).symm, rfl, nofun⟩
  | cons p ps ih =>
    intro hps t T h
    obtain ⟨hp, hr⟩ := hps p (List.mem_cons_self ..)
    obtain ⟨d, r, h1, h2⟩ := Live.load_one hp hr t
    rw [List.map_cons] at h
    unfold Live.loadAll at h
    dsimp only at h
    rw [h1] at h
    dsimp only at h
    obtain ⟨us, e1, e2, e3⟩ := ih (fun q hq => hps q (List.mem_cons_of_mem _ hq)) _ T h
    refine ⟨⟨p.start, p.bytes, some d⟩ :: us, ?_, ?_, ?_⟩
    · rw [e1]
      dsimp only
      rw [List.append_assoc]
      rfl
    · rw [List.length_cons, List.length_cons, e2]
    · intro i q hq
      cases i with
      | zero =>
        rw [List.getElem?_cons_zero] at hq
        cases hq
        exact ⟨_, d, rfl, rfl, rfl, h2.buildId⟩
      | succ i => exact e3 i q hq

/-- C119.  What the next command reads from the memory of the process, of which the mapping of a
patch that starts at `a` has `N a` bytes: the Build ID of every live patch, and as the largest
number how many there are.  `ulpinfo --pid` shows each of them with what was loaded. -/
theorem C119_listed (h : Holds width value R base w st) (N : Addr → Nat) (read : Live.Pread)
    (hN : ∀ v ∈ st, v.file.length ≤ N v.start ∧ N v.start < 2 ^ 64)
    (hread : ∀ v ∈ st, ∀ k, k ≤ N v.start → read v.start k = some (w.mem.read v.start k)) (verbose : Bool) :
    ∃ (vs : List LiveFile) (us : List Live.Ulp) (rs : List (List Byte × BitVec 64)) (ls : List Live.Line), vs.Perm st ∧ vs.map LiveFile.mapping = w.maps ∧
      Live.loadAll read (w.maps.map fun m => (m.start, m.start + BitVec.ofNat 64 (N m.start))) ⟨[], 0, []⟩ =
        .ok ⟨us, BitVec.ofNat 32 st.length, rs⟩ ∧
      us.map (fun u => u.data.map fun d => d.buildId) = w.maps.map (fun m => some (textOf m.bid)) ∧
      Live.showTask verbose 1 us = .ok ls ∧ ls.length = st.length ∧
      ∀ (i : Nat) (v : LiveFile), vs[i]? = some v →
        ∃ l, ls[i]? = some l ∧ Live.Says (v.seen w.mem (N v.start)) verbose (1 + i) l := by
  obtain ⟨vs, hperm, hmap⟩ := perm_map_order LiveFile.mapping h.maps st rfl
  have hmem : ∀ v ∈ vs, v ∈ st := fun v hv => hperm.mem_iff.1 hv
  have hps : ∀ p ∈ vs.map (fun v => v.seen w.mem (N v.start)), p.Ok width ∧ p.ReadBy read := by
    intro p hp
    rw [List.mem_map] at hp
    obtain ⟨v, hv, rfl⟩ := hp
    have hv := hmem v hv
    exact ⟨(h.whole v hv).seen (hN v hv).1 (hN v hv).2, (h.whole v hv).readBy (hN v hv).1 (hread v hv)⟩
  obtain ⟨us, m, rs, ls, h1, h2, h3, h4, ⟨h5, h6, h7⟩, -⟩ := Live.C83_shows width read verbose _ hps ⟨[], 0, []⟩ 1
  have hrange : (vs.map (fun v => v.seen w.mem (N v.start))).map (fun p => (p.start, p.stop)) =
      w.maps.map fun m => (m.start, m.start + BitVec.ofNat 64 (N m.start)) := by
    rw [← hmap, List.map_map, List.map_map]
    apply List.map_congr_left
    intro v hv
    dsimp only [Function.comp]
    unfold Live.LivePatch.stop
    change (v.start, v.start + BitVec.ofNat 64 (w.mem.read v.start (N v.start)).length) =
      (v.start, v.start + BitVec.ofNat 64 (N v.start))
    rw [Mem.read_length]
  obtain ⟨us', b1, b2, b3⟩ := loadAll_bids _ hps _ _ h1
  rw [List.nil_append, List.nil_append] at b1
  dsimp only at b1
  subst b1
  rw [List.length_map] at b2
  rw [hrange, List.nil_append, List.nil_append] at h1
  have hm : m = BitVec.ofNat 32 st.length := by
    cases hst : st with
    | nil =>
      rw [hst] at hperm
      rw [List.perm_nil] at hperm
      subst hperm
      rcases h7 with h7 | ⟨p, hp, _⟩
      · rw [h7]
        rfl
      · cases hp
    | cons v0 st' =>
      have hn0 := h.numbers 0 v0 (by rw [hst]; rfl)
      have hmax : ∀ p ∈ vs.map (fun v => v.seen w.mem (N v.start)), p.id.toNat ≤ st.length := by
        intro p hp
        rw [List.mem_map] at hp
        obtain ⟨v, hv, rfl⟩ := hp
        obtain ⟨k, hk⟩ := List.mem_iff_getElem?.1 (hmem v hv)
        have := h.numbers k v hk
        change v.number.toNat ≤ _
        omega
      have h0 : v0.number ≤ m := h6 (v0.seen w.mem (N v0.start))
        (List.mem_map_of_mem (f := fun v => v.seen w.mem (N v.start)) (hperm.mem_iff.2 (by rw [hst]; simp)))
      have hle : m.toNat ≤ st.length := by
        rcases h7 with h7 | ⟨p, hp, h7⟩
        · rw [h7]
          exact Nat.zero_le _
        · rw [h7]
          exact hmax p hp
      have h0' : v0.number.toNat ≤ m.toNat := BitVec.le_def.1 h0
      apply BitVec.eq_of_toNat_eq
      rw [← hst, BitVec.toNat_ofNat]
      have := v0.number.isLt
      omega
  refine ⟨vs, us, rs, ls, hperm, hmap, ?_, ?_, h2, ?_, ?_⟩
  · rw [h1, hm]
  · rw [← hmap, List.map_map]
    apply List.ext_getElem?
    intro i
    rw [List.getElem?_map, List.getElem?_map]
    cases hv : vs[i]? with
    | none =>
      rw [List.getElem?_eq_none_iff] at hv
      rw [List.getElem?_eq_none (by omega)]
      rfl
    | some v =>
      obtain ⟨u, d, c1, -, c2, c3⟩ := b3 i (v.seen w.mem (N v.start)) (by rw [List.getElem?_map, hv]; rfl)
      rw [c1, Option.map_some, c2, Option.map_some, Option.map_some]
      have hv' := hmem v (List.mem_of_getElem? hv)
      rw [buildId_unique c3 (h.whole v hv').buildId]
      rfl
  · rw [h3, List.length_map, hperm.length_eq]
  · intro i v hv
    exact h4 i _ (by rw [List.getElem?_map, hv]; rfl)

/-- C119.  The session of the next command is the one that `patchFile` works with: the same largest
number and the same Build IDs. -/
theorem C119_session (h : Holds width value R base w st) (N : Addr → Nat) (read : Live.Pread)
    (hN : ∀ v ∈ st, v.file.length ≤ N v.start ∧ N v.start < 2 ^ 64)
    (hread : ∀ v ∈ st, ∀ k, k ≤ N v.start → read v.start k = some (w.mem.read v.start k))
    (rd : Patch.Mapping → Patch.ReadRes) (hr : ∀ m, rd m = .ok) :
    ∃ T s, Live.loadAll read (w.maps.map fun m => (m.start, m.start + BitVec.ofNat 64 (N m.start))) ⟨[], 0, []⟩ = .ok T ∧
      Patch.openTask true rd w = some s ∧ T.maxId = s.maxId ∧
      T.ulps.map (fun u => u.data.map fun d => d.buildId) = s.ulps.map (fun m => some (textOf m.bid)) := by
  obtain ⟨vs, us, rs, ls, hperm, hmap, h1, h2, -⟩ := C119_listed h N read hN hread false
  have hready : ∀ m ∈ w.maps, m.ready = true := by
    intro m hm
    rw [← hmap, List.mem_map] at hm
    obtain ⟨v, _, rfl⟩ := hm
    rfl
  refine ⟨_, _, h1, Patch.openTask_ok rd w true (fun m _ => hr m) hready, ?_, h2⟩
  dsimp only
  have hle : ∀ m ∈ w.maps, m.info.id.toNat ≤ st.length := by
    intro m hm
    rw [← hmap, List.mem_map] at hm
    obtain ⟨v, hv, rfl⟩ := hm
    obtain ⟨k, hk⟩ := List.mem_iff_getElem?.1 (hperm.mem_iff.1 hv)
    have := h.numbers k v hk
    change v.number.toNat ≤ _
    omega
  cases hst : st with
  | nil =>
    rw [hst, List.perm_nil] at hperm
    subst hperm
    rw [← hmap]
    rfl
  | cons v0 st' =>
    have hn0 := h.numbers 0 v0 (by rw [hst]; rfl)
    have hv0 : v0.mapping ∈ w.maps := by
      rw [← hmap]
      exact List.mem_map_of_mem (hperm.mem_iff.2 (by rw [hst]; simp))
    have h3 := Patch.maxOf_ge w.maps 0 _ hv0
    change v0.number.toNat ≤ _ at h3
    have h4 : (Patch.maxOf w.maps 0).toNat ≤ st.length := by
      rcases Patch.maxOf_mem w.maps 0 with h0 | ⟨m, hm, he⟩
      · rw [h0]
        exact Nat.zero_le _
      · rw [← he]
        exact hle m hm
    apply BitVec.eq_of_toNat_eq
    rw [← hst, BitVec.toNat_ofNat]
    have := v0.number.isLt
    omega

end

/-! ### An example -/

def fhWorld : Patch.World := ⟨.x86_64, fun _ => 0x55, [], false⟩

/-- Where the patches of the example are mapped. -/
def fhR (x : Addr) : Prop := 0x10000000 ≤ x.toNat ∧ x.toNat < 0x10010000

def fhPatch (e : Patch.PatchEnv) : FileCmd := .patch Patch.allOk 0x7f0000000000 lkEnv.find 77 lkFile e

def fhParts : Parts :=
  ⟨lkSecs, 442, ⟨lit ".strtab", 3, 0, 0, 313, 129, 0, 0⟩, 8, ⟨lit ".symtab", 2, 0, 0, 193, 72, 9, 1⟩,
    ⟨lit ".strtab", 3, 0, 0, 313, 129, 0, 0⟩, lkSyms, lkRels, lit "new_f", lit "old_f"⟩

theorem fh_made : WellMade Psabi.x86Width lkFile fhParts :=
  ⟨List.isPrefixOf_iff_prefix.1 (by decide +kernel), lk_laid, lk_readable, lk_meta, lk_symbols, lk_relocs, Live.lk_plain⟩

theorem fh_bid : BuildIdText lkFile lkSecs (textOf "deadbeef") := by
  refine ⟨_, 4, 4, lk_note, num_of (by decide +kernel), num_of (by decide +kernel), by decide, ?_⟩
  intro i hi
  match i, hi with
  | 0, _ => exact ⟨0xde, 0x64, 0x65, by decide +kernel, by decide, by decide, 13, 14, by decide, by decide, by decide, by decide, by decide⟩
  | 1, _ => exact ⟨0xad, 0x61, 0x64, by decide +kernel, by decide, by decide, 10, 13, by decide, by decide, by decide, by decide, by decide⟩
  | 2, _ => exact ⟨0xbe, 0x62, 0x65, by decide +kernel, by decide, by decide, 11, 14, by decide, by decide, by decide, by decide, by decide⟩
  | 3, _ => exact ⟨0xef, 0x65, 0x66, by decide +kernel, by decide, by decide, 14, 15, by decide, by decide, by decide, by decide, by decide⟩

theorem lk_len : lkFile.length = 1082 := by decide +kernel

theorem fh_good (a : Addr) (w : Patch.World) (h1 : 0x10000000 ≤ a.toNat) (h2 : a.toNat + 1082 < 0x10010000)
    (h : ∀ m ∈ w.maps, m.len = 1082 ∧ m.start.toNat + 1082 ≤ a.toNat) :
    GoodFile Psabi.x86Width fhR w (fhPatch { pfEnv with mmap := .created a }) := by
  refine ⟨fun _ => rfl, rfl, .inr (.inr ⟨16, by decide, rfl⟩), ⟨rfl, by exact nofun⟩, ⟨?_, ?_⟩, fhParts, fh_made, fh_bid, ?_⟩
  · intro i hi
    rw [lk_len] at hi
    unfold fhR
    rw [BitVec.toNat_add, BitVec.toNat_ofNat]
    omega
  · intro m hm i j hi hj he
    obtain ⟨e1, e2⟩ := h m hm
    rw [lk_len] at hi
    rw [e1] at hj
    have := congrArg BitVec.toNat he
    rw [BitVec.toNat_add, BitVec.toNat_add, BitVec.toNat_ofNat, BitVec.toNat_ofNat] at this
    omega
  · intro t ht i hi hR
    change lkEnv.find (lit "old_f") = some t at ht
    rw [show lkEnv.find (lit "old_f") = some 0x401000 by decide +kernel] at ht
    cases ht
    unfold fhR at hR
    rw [BitVec.toNat_add, show (0x401000 : BitVec 64).toNat = 0x401000 from rfl, BitVec.toNat_ofNat] at hR
    omega

/-- The patch is applied; applying it again is refused; then it is removed. -/
def fhCmds : List FileCmd :=
  [fhPatch pfEnv, fhPatch { pfEnv with mmap := .created 0x10002000 }, .unpatch Patch.allOk ⟨.ok, some 16, .done⟩]

theorem fh_first : GoodFiles x86 Psabi.x86Width fhR fhWorld [fhPatch pfEnv] :=
  ⟨fh_good 0x10000000 fhWorld (by decide) (by decide) nofun, fun _ _ _ => trivial⟩

theorem fh_cmds : GoodFiles x86 Psabi.x86Width fhR fhWorld fhCmds := by
  refine ⟨fh_good 0x10000000 fhWorld (by decide) (by decide) nofun, ?_⟩
  intro w1 r1 hr1
  refine ⟨?_, fun w2 r2 _ => ⟨⟨fun _ => rfl, .inr (.inr ⟨16, by decide, rfl⟩)⟩, fun _ _ _ => trivial⟩⟩
  obtain ⟨w, rs, st, h1, -, h2, h3⟩ := C119_x86_partial fhR fhWorld [fhPatch pfEnv] rfl (by decide) fh_first
  have hw : w = w1 := by
    unfold runFiles at h1
    rw [hr1] at h1
    cases h1
    rfl
  subst hw
  apply fh_good 0x10002000 w (by decide) (by decide)
  intro m hm
  obtain ⟨v, hv, rfl⟩ := List.mem_map.1 (h3.maps.mem_iff.2 hm)
  cases h2 with
  | cons hd ha =>
    cases ha
    cases hd with
    | patched hg =>
      rcases List.mem_cons.1 hv with rfl | hv
      · obtain ⟨rd, hdr, e, q1, q2, -⟩ := hg
        injection q1 with _ _ _ _ q3 q4
        subst q4
        injection q2 with q2
        change v.file.length = 1082 ∧ v.start.toNat + 1082 ≤ _
        rw [← q3, ← q2, lk_len]
        decide
      · cases hv
    | refused _ => cases hv

example : ∃ w r2 v, runFiles x86 fhWorld (fhCmds.take 2) = some (w, [0, r2]) ∧ r2 ≠ 0 ∧
    Holds Psabi.x86Width Psabi.x86 fhR fhWorld.mem w [v] ∧ v.start = 0x10000000 ∧
    ∀ cpu : X86.Cpu, cpu.rip = v.target → cpu.mem = w.mem → X86.step cpu = some { cpu with rip := v.entry } := by
  obtain ⟨w, rs, st, h1, harch, h2, h3⟩ := C119_x86_partial fhR fhWorld (fhCmds.take 2) rfl (by decide)
    ⟨fh_cmds.1, fun w r h => ⟨(fh_cmds.2 w r h).1, fun _ _ _ => trivial⟩⟩
  have ho := Patch.openTask_ok Patch.allOk fhWorld true (fun _ _ => rfl) (by decide)
  obtain ⟨w1, hw1⟩ : ∃ w1, patchFile x86 fhWorld Patch.allOk 0x7f0000000000 lkEnv.find 77 lkFile pfEnv = some (w1, 0) := by
    refine C58_applied x86 lk_laid x86_lawful lk_readable lk_meta lk_symbols
      (by rw [x86_width]; exact lk_relocs) ho rfl pf_smooth rfl (by decide) ?_
    have : sessionEnv { ulps := fhWorld.maps, maxId := Patch.maxOf fhWorld.maps 0, ftoProc := true }
        0x7f0000000000 0x10000000 lkEnv.find 77 = { lkEnv with bids := [], maxId := 0 } := rfl
    rw [this]
    exact lk_loads_with [] 0 (fun _ _ => nofun)
  have hrun : runFile x86 fhWorld (fhPatch pfEnv) = some (w1, 0) := hw1
  have h1' := h1
  rw [show fhCmds.take 2 = [fhPatch pfEnv, fhPatch { pfEnv with mmap := .created 0x10002000 }] from rfl] at h1' h2
  unfold runFiles at h1'
  rw [hrun] at h1'
  dsimp only at h1'
  cases h2 with
  | @cons _ st1 _ _ ra _ rs1 d1 h2 =>
  cases h2 with
  | @cons _ st2 _ _ rb _ rs2 d2 h2 =>
  cases h2
  have hra : ra = 0 := by
    split at h1'
    · cases h1'
    · cases h1'
      rfl
  subst hra
  cases d1 with
  | refused h => exact absurd rfl h
  | @patched _ _ v hg =>
    obtain ⟨_, _, e, q1, q2, q3, q4⟩ := hg
    injection q1 with _ _ _ _ _ q5
    subst q5
    injection q2 with q2
    cases d2 with
    | refused h => exact ⟨w, rb, v, h1, h, h3, q2.symm,
      C119_x86_runs h3 harch (newer := []) rfl q4 nofun⟩
    | @patched _ _ v' hg =>
      -- the second patch would have the same Build ID
      obtain ⟨_, _, e', p1, p2, p3, p4⟩ := hg
      injection p1 with _ _ _ _ _ p5
      subst p5
      have hb := h3.buildIds
      rw [List.map_cons, List.map_cons, ← q3, ← p3, List.nodup_cons] at hb
      exact absurd (List.mem_cons_self ..) hb.1

end Ulp.LoadBytes
