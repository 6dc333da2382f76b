/-
C67, C68: writing a jump into a process and dumping its memory
(src/ultask.c:766-825, src/task/memcpy.c:66-174).
-/
import Verif.Props.UltaskEx
import Verif.Props.JmpTable
namespace Ulp.Ultask
open Ulp.Vma (Vmas findVma Reach Abs rangeOf)
open Ulp.Range

/-- A transfer of `size` bytes moves at most that many. -/
def Moves (size : Nat) : Option Nat → Prop
  | none => True
  | some n => n ≤ size

theorem int_ofNat_lt {n : Nat} (h : n < 2 ^ 31) : (BitVec.ofNat 32 n).toInt = n := by
  rw [BitVec.toInt_eq_toNat_cond, BitVec.toNat_ofNat]
  omega

theorem leBytes_leNat (bs : List Byte) (h : bs.length ≤ 8) : leBytes bs.length (BitVec.ofNat 64 (leNat bs)) = bs := by
  induction bs with
  | nil => rfl
  | cons b bs ih =>
    have hc : ∀ v, leBytes (bs.length + 1) v = v.setWidth 8 :: leBytes bs.length (v >>> 8) := by
      intro v
      simp only [leBytes, List.range_succ_eq_map, List.map_cons, List.map_map]
      congr 1
      apply List.map_congr_left
      intro i _
      simp only [Function.comp]
      rw [← BitVec.shiftRight_add]; congr 2; omega
    rw [List.length_cons] at h ⊢
    have hlt := leNat_lt bs
    have hp : 256 ^ bs.length ≤ 256 ^ 7 := Nat.pow_le_pow_right (by decide) (by omega)
    have hb := b.isLt
    rw [hc, leNat]
    have e1 : (BitVec.ofNat 64 (b.toNat + 256 * leNat bs)).setWidth 8 = b := by
      apply BitVec.eq_of_toNat_eq
      rw [BitVec.toNat_setWidth, BitVec.toNat_ofNat]
      omega
    have e2 : BitVec.ofNat 64 (b.toNat + 256 * leNat bs) >>> 8 = BitVec.ofNat 64 (leNat bs) := by
      apply BitVec.eq_of_toNat_eq
      rw [BitVec.toNat_ushiftRight, BitVec.toNat_ofNat, BitVec.toNat_ofNat, Nat.shiftRight_eq_div_pow]
      omega
    rw [e1, e2, ih (by omega)]

/-- The four ways a jump between two addresses can end, for every memory and every
transfer. -/
theorem jmp_cases (arch : Arch) {vs : Vmas} {abs : Abs} (h : Reach vs abs) (m : Mem) {src dst : Addr} (h0 : src ≠ 0)
    (h1 : dst ≠ 0) {rd wr : Option Nat} (hr : Moves 16 rd) (hw : Moves 16 wr) :
    ((¬ InMap abs.known src ∨ ¬ InMap abs.known dst) ∧ runJmp arch vs m src dst rd wr = some (m, -2)) ∨
    (InMap abs.known src ∧ InMap abs.known dst ∧
      ((rd ≠ some 16 ∧ runJmp arch vs m src dst rd wr = some (m, -12)) ∨
       (rd = some 16 ∧
        ((wr = none ∧ runJmp arch vs m src dst rd wr = some (m, -12)) ∨
         (∃ n, wr = some n ∧ n ≤ 16 ∧ runJmp arch vs m src dst rd wr =
          some (m.write src ((jmpEntry arch dst).take n), if n = 16 then 0 else -12)))))) := by
  unfold runJmp
  rw [if_neg (fun q => q.elim h0 h1)]
  by_cases hs : InMap abs.known src
  · obtain ⟨v, v0, ev⟩ := find_in h hs
    by_cases hd : InMap abs.known dst
    · obtain ⟨u, u0, eu⟩ := find_in h hd
      rw [ev, Option.bind_some, eu, Option.map_some, if_neg (fun q => q.elim v0 u0)]
      refine Or.inr ⟨hs, hd, ?_⟩
      cases rd with
      | none => exact Or.inl ⟨nofun, by simp [memcpyFromTask]⟩
      | some n =>
        have hn : n ≤ 16 := hr
        simp only [memcpyFromTask, int_ofNat_lt (show n < 2 ^ 31 by omega), jmpEntrySize]
        by_cases e : n = 16
        · subst e
          refine Or.inr ⟨rfl, ?_⟩
          rw [if_neg (by omega)]
          cases wr with
          | none => exact Or.inl ⟨rfl, by simp [memcpyToTask]⟩
          | some k =>
            have hk : k ≤ 16 := hw
            refine Or.inr ⟨k, rfl, hk, ?_⟩
            simp only [memcpyToTask, int_ofNat_lt (show k < 2 ^ 31 by omega)]
            by_cases e : k = 16
            · subst e
              rw [if_neg (by omega), if_pos rfl]
            · rw [if_pos (by omega), if_neg e]
        · exact Or.inl ⟨fun q => e (Option.some.inj q), by rw [if_pos (by omega)]⟩
    · rw [ev, Option.bind_some, find_out h hd, Option.map_some, if_pos (Or.inr rfl)]
      exact Or.inl ⟨Or.inr hd, rfl⟩
  · rw [find_out h hs, Option.bind_some]
    refine Or.inl ⟨Or.inl hs, ?_⟩
    rcases find_cases h dst with ⟨e, _⟩ | ⟨u, _, e, _⟩ <;> rw [e, Option.map_some, if_pos (Or.inl rfl)]

/-- **C67** (`--jmp from=A,to=B`).  For every process image, every two addresses and
whatever the two transfers do: success is reported exactly if both addresses are in
mappings and both transfers were complete.  Then nothing but the 16 bytes at `A` has
changed, and a thread that comes to `A` goes on at `B` with every register as it was (on
x86_64; on aarch64 except `x17`).  If one of the addresses is in no mapping, or the
process could not be read, or took no byte, an error is reported and nothing has changed.
Not in it: see `C67_torn`. -/
theorem C67_jump_partial (arch : Arch) {vs : Vmas} {abs : Abs} (h : Reach vs abs) (m : Mem) {src dst : Addr} (h0 : src ≠ 0)
    (h1 : dst ≠ 0) {rd wr : Option Nat} (hr : Moves 16 rd) (hw : Moves 16 wr) :
    ∃ m' ret, runJmp arch vs m src dst rd wr = some (m', ret) ∧
      (ret = 0 ↔ InMap abs.known src ∧ InMap abs.known dst ∧ rd = some 16 ∧ wr = some 16) ∧
      (ret = 0 →
        (∀ a, 16 ≤ (a - src).toNat → m' a = m a) ∧
        (arch = .x86_64 → ∀ s : X86.Cpu, s.rip = src → s.mem = m' → X86.step s = some { s with rip := dst }) ∧
        (arch = .aarch64 → ∀ s : A64.Cpu, s.pc = src → s.mem = m' →
          A64.steps 2 s = some { pc := dst, x := fun i => if i = 17 then dst else s.x i, mem := s.mem })) ∧
      (¬ InMap abs.known src ∨ ¬ InMap abs.known dst ∨ rd ≠ some 16 ∨ wr = none ∨ wr = some 0 → ret < 0 ∧ m' = m) := by
  rcases jmp_cases arch h m h0 h1 hr hw with ⟨q, e⟩ | ⟨hs, hd, ⟨q, e⟩ | ⟨q, ⟨q2, e⟩ | ⟨n, q2, hn, e⟩⟩⟩
  · refine ⟨_, _, e, ⟨fun g => absurd g (by decide), fun ⟨a, b, _⟩ => q.elim (fun q => absurd a q) fun q => absurd b q⟩,
      fun g => absurd g (by decide), fun _ => ⟨by decide, rfl⟩⟩
  · refine ⟨_, _, e, ⟨fun g => absurd g (by decide), fun ⟨_, _, c, _⟩ => absurd c q⟩,
      fun g => absurd g (by decide), fun _ => ⟨by decide, rfl⟩⟩
  · subst q2
    refine ⟨_, _, e, ⟨fun g => absurd g (by decide), fun ⟨_, _, _, c⟩ => nomatch c⟩,
      fun g => absurd g (by decide), fun _ => ⟨by decide, rfl⟩⟩
  · subst q2
    subst q
    by_cases en : n = 16
    · subst en
      have el : (jmpEntry arch dst).take 16 = jmpEntry arch dst := List.take_of_length_le (by rw [jmpEntry_length]; decide)
      rw [el, if_pos rfl] at e
      refine ⟨_, _, e, ⟨fun _ => ⟨hs, hd, rfl, rfl⟩, fun _ => rfl⟩, fun _ => ⟨?_, ?_, ?_⟩, ?_⟩
      · exact fun a ha => Mem.write_out _ _ _ _ (by rw [jmpEntry_length]; exact ha)
      · rintro rfl s hs hm
        exact C01_x86_redirect m src dst s hs hm
      · rintro rfl s hs hm
        exact C02_a64_redirect m src dst s hs hm
      · rintro (q | q | q | q | q)
        · exact absurd hs q
        · exact absurd hd q
        · exact absurd rfl q
        · cases q
        · exact absurd q (by decide)
    · rw [if_neg en] at e
      refine ⟨_, _, e, ⟨fun g => absurd g (by decide), fun ⟨_, _, _, c⟩ => absurd (Option.some.inj c) en⟩,
        fun g => absurd g (by decide), ?_⟩
      rintro (q | q | q | q | q)
      · exact absurd hs q
      · exact absurd hd q
      · exact absurd rfl q
      · cases q
      · obtain rfl := Option.some.inj q
        refine ⟨by decide, ?_⟩
        funext a
        exact Mem.write_out _ _ _ _ (by simp)

/-- **C67**, what is missing: if the kernel takes only part of the 16 bytes, an error is
reported and that part stays in the process.  With 8 bytes the instruction is there and
the address behind it is what was there before: on x86_64 a thread that comes to `A`
goes on at the address that the 8 old bytes at `A + 8` spell. -/
theorem C67_torn {vs : Vmas} {abs : Abs} (h : Reach vs abs) (m : Mem) {src dst : Addr} (h0 : src ≠ 0)
    (h1 : dst ≠ 0) (hs : InMap abs.known src) (hd : InMap abs.known dst) :
    ∃ m', runJmp .x86_64 vs m src dst (some 16) (some 8) = some (m', -12) ∧
      ∀ s : X86.Cpu, s.rip = src → s.mem = m' → X86.step s = some { s with rip := m.load (src + 8) 8 } := by
  have e : runJmp .x86_64 vs m src dst (some 16) (some 8) = some (m.write src ((jmpEntry .x86_64 dst).take 8), -12) := by
    rcases jmp_cases .x86_64 h m h0 h1 (rd := some 16) (wr := some 8) (show 16 ≤ 16 by decide) (show 8 ≤ 16 by decide)
      with ⟨q, _⟩ | ⟨_, _, ⟨q, _⟩ | ⟨_, ⟨q2, _⟩ | ⟨n, q2, _, e⟩⟩⟩
    · exact q.elim (fun q => absurd hs q) fun q => absurd hd q
    · exact absurd rfl q
    · cases q2
    · obtain rfl := Option.some.inj q2
      exact e
  refine ⟨_, e, ?_⟩
  have em : m.write src ((jmpEntry .x86_64 dst).take 8) = installEntry m .x86_64 src (m.load (src + 8) 8) := by
    funext a
    unfold installEntry
    by_cases hl : (a - src).toNat < 8
    · rw [Mem.write_apply, Mem.write_apply]
      have : ∀ x : Addr, (jmpEntry .x86_64 x).take 8 = leBytes 8 0x90900000000225ff := fun x => rfl
      rw [this]
      have e2 : (jmpEntry .x86_64 (m.load (src + 8) 8))[(a - src).toNat]? =
          ((jmpEntry .x86_64 (m.load (src + 8) 8)).take 8)[(a - src).toNat]? := by
        rw [List.getElem?_take, if_pos hl]
      rw [e2, this]
    · rw [Mem.write_out _ _ _ _ (by rw [List.length_take, jmpEntry_length]; omega)]
      by_cases h16 : (a - src).toNat < 16
      · have eb : leBytes 8 (m.load (src + 8) 8) = m.read (src + 8) 8 := by
          have := leBytes_leNat (m.read (src + 8) 8) (by simp)
          rwa [Mem.read_length] at this
        rw [Mem.write_apply, jmpEntry, eb, List.getElem?_append_right (by rw [leBytes_length]; exact Nat.le_of_not_lt hl), leBytes_length,
          Mem.read_getElem?, if_pos (show (a - src).toNat - 8 < 8 by omega)]
        show m a = m _
        congr 1
        apply BitVec.eq_of_toNat_eq
        have e8 : BitVec.toNat (8 : BitVec 64) = 8 := rfl
        have := a.isLt
        have := src.isLt
        simp only [BitVec.toNat_add, BitVec.toNat_ofNat, BitVec.toNat_sub, e8] at hl h16 ⊢
        omega
      · exact (Mem.write_out _ _ _ _ (by rw [jmpEntry_length]; omega)).symm
  intro s hs' hm
  exact C01_x86_redirect m src (m.load (src + 8) 8) s hs' (by rw [hm, ← em])

/-- C67 on the two mappings of `UltaskEx`: a jump from the first to the second. -/
example (m : Mem) : ∃ vs, Reach vs ⟨twoMaps, [1, 2]⟩ ∧ ∃ m',
    runJmp .x86_64 vs m 0x10000 0x13000 (some 16) (some 16) = some (m', 0) ∧
      ∀ s : X86.Cpu, s.rip = 0x10000 → s.mem = m' → X86.step s = some { s with rip := 0x13000 } := by
  obtain ⟨vs, h⟩ := two_reach
  obtain ⟨m', ret, e, h1, h2, _⟩ := C67_jump_partial .x86_64 h m (src := 0x10000) (dst := 0x13000) (by decide) (by decide)
    (rd := some 16) (wr := some 16) (show 16 ≤ 16 by decide) (show 16 ≤ 16 by decide)
  have r0 : ret = 0 := h1.2 ⟨in1, in3, rfl, rfl⟩
  exact ⟨vs, h, m', by rw [e, r0], (h2 r0).2.1 rfl⟩

example (m : Mem) : ∃ vs, Reach vs ⟨twoMaps, [1, 2]⟩ ∧ ∃ m',
    runJmp .x86_64 vs m 0x10000 0x13000 (some 16) (some 8) = some (m', -12) := by
  obtain ⟨vs, h⟩ := two_reach
  obtain ⟨m', e, _⟩ := C67_torn h m (src := 0x10000) (dst := 0x13000) (by decide) (by decide) in1 in3
  exact ⟨vs, h, m', e⟩

/-! ## C68: dumps -/

/-- What the kernel does during a dump of `size` bytes: both transfers move at most
`size` bytes, `malloc` returned `size` bytes, the file is open. -/
structure DumpOk (size : Nat) (e : DumpEnv) : Prop where
  fd : 0 < e.fd
  buf : e.uninit.length = size
  rd : Moves size e.rd
  wr : Moves size e.wr

/-- The bytes of a file that does not exist. -/
def held : Option (List Byte) → List Byte
  | none => []
  | some bs => bs

theorem dump_eq {vs : Vmas} {abs : Abs} (h : Reach vs abs) (m : Mem) {addr size : BitVec 64} (hi : InMap abs.known addr)
    (hs : size.toNat < 2 ^ 31) {e : DumpEnv} (he : DumpOk size.toNat e) :
    dumpAddr vs m addr size e = some (
      match e.wr with
      | none => (some (held e.file), -e.errno)
      | some n => (some ((memcpyFromTask m addr e.uninit e.rd).1.take n ++ (held e.file).drop n),
          if n = size.toNat then 0 else -e.errno)) := by
  obtain ⟨v, v0, ev⟩ := find_in h hi
  unfold dumpAddr
  rw [ev, Option.map_some, if_neg v0, if_neg (by have := he.fd; omega)]
  dsimp only
  have hh : ∀ bs n, overwrite e.file bs n = bs.take n ++ (held e.file).drop n := by
    intro bs n
    unfold overwrite
    cases e.file <;> simp [held]
  have hwr := he.wr
  cases ew : e.wr with
  | none =>
    dsimp only
    rw [if_pos, hh]
    · simp
    · intro q
      have := congrArg BitVec.toNat q
      rw [show (BitVec.signExtend 64 (-1 : BitVec 32)).toNat = 2 ^ 64 - 1 by decide] at this
      omega
  | some n =>
    rw [ew] at hwr
    have hn : n ≤ size.toNat := hwr
    have es : (BitVec.ofNat 32 n).signExtend 64 = BitVec.ofNat 64 n := by
      rw [BitVec.signExtend_eq_setWidth_of_msb_false]
      · apply BitVec.eq_of_toNat_eq
        simp only [BitVec.toNat_setWidth, BitVec.toNat_ofNat]
        omega
      · rw [BitVec.msb_eq_decide, BitVec.toNat_ofNat]
        simp
        omega
    dsimp only
    rw [es, hh]
    by_cases en : n = size.toNat
    · rw [if_neg (by rw [en]; simp), if_pos en]
    · rw [if_pos, if_neg en]
      intro q
      have := congrArg BitVec.toNat q
      rw [BitVec.toNat_ofNat] at this
      omega

/-- **C68** (`--dump addr=A,size=N`).  For every process and every range of less than
2 GiB that starts in a mapping: if the process could be read, and the output file was
new or not longer than the range, and success is reported, then the file holds the bytes
of the range, in order, and nothing else.  If the address is in no mapping an error is
reported and the file is as before.  Not in it: see `C68_unread`, `C68_tail`,
`C68_short`. -/
theorem C68_dump_partial {vs : Vmas} {abs : Abs} (h : Reach vs abs) (m : Mem) (addr size : BitVec 64)
    (hs : size.toNat < 2 ^ 31) {e : DumpEnv} (he : DumpOk size.toNat e) :
    ∃ file ret, dumpAddr vs m addr size e = some (file, ret) ∧
      (InMap abs.known addr → ret = 0 → 0 < e.errno → e.rd = some size.toNat → (held e.file).length ≤ size.toNat →
        file = some (m.read addr size.toNat)) ∧
      (¬ InMap abs.known addr → ret < 0 ∧ file = e.file) := by
  by_cases hi : InMap abs.known addr
  · refine ⟨_, _, dump_eq h m hi hs he, ?_, fun q => absurd hi q⟩
    intro _ hret hen hrd hl
    cases ew : e.wr with
    | none => rw [ew] at hret; dsimp only at hret; omega
    | some n =>
      rw [ew] at hret
      dsimp only at hret
      by_cases en : n = size.toNat
      · dsimp only
        rw [hrd, en, List.drop_eq_nil_of_le hl, List.append_nil]
        have : (memcpyFromTask m addr e.uninit (some size.toNat)).1 = m.read addr size.toNat ++ e.uninit.drop size.toNat := rfl
        rw [this, List.drop_eq_nil_of_le (by rw [he.buf]; exact Nat.le_refl _), List.append_nil,
          List.take_of_length_le (by simp)]
      · rw [if_neg en] at hret; omega
  · refine ⟨e.file, -2, ?_, fun q => absurd q hi, fun _ => ⟨by decide, rfl⟩⟩
    unfold dumpAddr
    rw [find_out h hi, Option.map_some, if_pos rfl]

/-- A dump that is complete says so. -/
theorem C68_reports {vs : Vmas} {abs : Abs} (h : Reach vs abs) (m : Mem) {addr size : BitVec 64} (hi : InMap abs.known addr)
    (hs : size.toNat < 2 ^ 31) {e : DumpEnv} (he : DumpOk size.toNat e) (hw : e.wr = some size.toNat) :
    ∃ file, dumpAddr vs m addr size e = some (file, 0) := by
  have hd := dump_eq h m hi hs he
  rw [hw] at hd
  dsimp only at hd
  rw [if_pos rfl] at hd
  exact ⟨_, hd⟩

/-- **C68**, what is missing: if the process cannot be read, or only the first `k` bytes
can, the rest of the file is what `malloc` returned, and success is reported. -/
theorem C68_unread {vs : Vmas} {abs : Abs} (h : Reach vs abs) (m : Mem) {addr size : BitVec 64} (hi : InMap abs.known addr)
    (hs : size.toNat < 2 ^ 31) {e : DumpEnv} (he : DumpOk size.toNat e) (hw : e.wr = some size.toNat)
    (hf : e.file = none) :
    (e.rd = none → dumpAddr vs m addr size e = some (some e.uninit, 0)) ∧
    (∀ k, e.rd = some k → dumpAddr vs m addr size e = some (some (m.read addr k ++ e.uninit.drop k), 0)) := by
  have hd := dump_eq h m hi hs he
  rw [hw, hf] at hd
  dsimp only [held] at hd
  rw [if_pos rfl, List.drop_nil, List.append_nil] at hd
  have hb := he.buf
  have hr := he.rd
  constructor
  · intro hn
    rw [hd, hn]
    simp only [memcpyFromTask]
    rw [List.take_of_length_le (by omega)]
  · intro k hk
    rw [hd, hk]
    rw [hk] at hr
    have hk' : k ≤ size.toNat := hr
    simp only [memcpyFromTask]
    rw [List.take_of_length_le (by simp; omega)]

/-- **C68**, what is missing: the output file is not cut off.  If it was longer than the
range, its old end stays behind the dump. -/
theorem C68_tail {vs : Vmas} {abs : Abs} (h : Reach vs abs) (m : Mem) {addr size : BitVec 64} (hi : InMap abs.known addr)
    (hs : size.toNat < 2 ^ 31) {e : DumpEnv} (he : DumpOk size.toNat e) (hw : e.wr = some size.toNat)
    (hr : e.rd = some size.toNat) {old : List Byte} (hf : e.file = some old) :
    dumpAddr vs m addr size e = some (some (m.read addr size.toNat ++ old.drop size.toNat), 0) := by
  have hd := dump_eq h m hi hs he
  rw [hw, hf, hr] at hd
  dsimp only [held, memcpyFromTask] at hd
  rw [if_pos rfl, List.drop_eq_nil_of_le (show e.uninit.length ≤ size.toNat by rw [he.buf]; exact Nat.le_refl _),
    List.append_nil, List.take_of_length_le (by simp)] at hd
  exact hd

/-- **C68**, what is missing: a short write returns what `errno` happens to be, because
no call failed.  If that is 0, an incomplete dump is a success. -/
theorem C68_short {vs : Vmas} {abs : Abs} (h : Reach vs abs) (m : Mem) {addr size : BitVec 64} (hi : InMap abs.known addr)
    (hs : size.toNat < 2 ^ 31) {e : DumpEnv} (he : DumpOk size.toNat e) {n : Nat} (hn : n < size.toNat) (hw : e.wr = some n)
    (hr : e.rd = some size.toNat) (hf : e.file = none) (h0 : e.errno = 0) :
    dumpAddr vs m addr size e = some (some (m.read addr n), 0) := by
  have hd := dump_eq h m hi hs he
  rw [hw, hf, hr, h0] at hd
  dsimp only [held, memcpyFromTask] at hd
  rw [if_neg (by omega), List.drop_nil, List.append_nil,
    List.take_append_of_le_length (by simp; omega)] at hd
  rw [hd]
  congr 3
  apply List.ext_getElem
  · simp; omega
  · intro i h1 h2
    simp

/-- **C68** (`--dump vma,addr=A`): the dump of a mapping is the dump of its range, for
any address in it. -/
theorem C68_mapping {vs : Vmas} {abs : Abs} (h : Reach vs abs) (m : Mem) (addr : BitVec 64) (e : DumpEnv) :
    (¬ InMap abs.known addr ∧ dumpVma vs m addr e = some (e.file, -2)) ∨
    ∃ r : Range, (∃ i, (i, r) ∈ abs.known) ∧ r.Has addr.toNat ∧ r.lo < 2 ^ 64 ∧ r.hi < 2 ^ 64 ∧
      dumpVma vs m addr e = dumpAddr vs m (BitVec.ofNat 64 r.lo) (BitVec.ofNat 64 (r.hi - r.lo)) e := by
  unfold dumpVma
  rcases find_cases h addr with ⟨ev, hn⟩ | ⟨v, v0, ev, hm, hh⟩
  · exact Or.inl ⟨hn, by rw [ev, Option.bind_some, if_pos rfl]⟩
  · refine Or.inr ⟨_, ⟨v, hm⟩, hh, (vs.info v).start.isLt, (vs.info v).stop.isLt, ?_⟩
    rw [ev, Option.bind_some, if_neg v0]
    dsimp only [rangeOf]
    congr 1
    · simp
    · have h1 : (vs.info v).start.toNat ≤ addr.toNat := hh.1
      have h2 : addr.toNat < (vs.info v).stop.toNat := hh.2
      apply BitVec.eq_of_toNat_eq
      rw [BitVec.toNat_ofNat, BitVec.toNat_sub]
      have := (vs.info v).start.isLt
      have := (vs.info v).stop.isLt
      omega

/-- A dump of four bytes. -/
def dumpEx : DumpEnv := ⟨none, 3, 5, [1, 2, 3, 4], some 4, some 4⟩

theorem dumpEx_ok : DumpOk 4 dumpEx := ⟨by decide, rfl, show 4 ≤ 4 by decide, show 4 ≤ 4 by decide⟩

example (m : Mem) : ∃ vs, Reach vs ⟨twoMaps, [1, 2]⟩ ∧
    dumpAddr vs m 0x13000 4 dumpEx = some (some (m.read 0x13000 4), 0) := by
  obtain ⟨vs, h⟩ := two_reach
  obtain ⟨f, ef⟩ := C68_reports h m in3 (size := 4) (by decide) dumpEx_ok rfl
  obtain ⟨f2, r, e, h1, _⟩ := C68_dump_partial h m 0x13000 4 (by decide) dumpEx_ok
  have : some (f, (0 : Int)) = some (f2, r) := ef.symm.trans e
  have := Option.some.inj this
  refine ⟨vs, h, ?_⟩
  rw [ef, (Prod.mk.inj this).1, h1 in3 (Prod.mk.inj this).2.symm (by decide) rfl (by decide)]
  rfl

example (m : Mem) : ∃ vs, Reach vs ⟨twoMaps, [1, 2]⟩ ∧
    dumpAddr vs m 0x13000 4 { dumpEx with rd := none } = some (some [1, 2, 3, 4], 0) := by
  obtain ⟨vs, h⟩ := two_reach
  exact ⟨vs, h, (C68_unread h m in3 (size := 4) (e := { dumpEx with rd := none }) (by decide)
    ⟨by decide, rfl, trivial, show 4 ≤ 4 by decide⟩ rfl rfl).1 rfl⟩

example (m : Mem) : ∃ vs, Reach vs ⟨twoMaps, [1, 2]⟩ ∧
    dumpAddr vs m 0x13000 4 { dumpEx with file := some [1, 2, 3, 4, 5, 6] } =
      some (some (m.read 0x13000 4 ++ [5, 6]), 0) := by
  obtain ⟨vs, h⟩ := two_reach
  exact ⟨vs, h, C68_tail h m in3 (size := 4) (e := { dumpEx with file := some [1, 2, 3, 4, 5, 6] }) (by decide)
    ⟨by decide, rfl, show 4 ≤ 4 by decide, show 4 ≤ 4 by decide⟩ rfl rfl rfl⟩

example (m : Mem) : ∃ vs, Reach vs ⟨twoMaps, [1, 2]⟩ ∧
    dumpAddr vs m 0x13000 4 { dumpEx with errno := 0, wr := some 1 } = some (some (m.read 0x13000 1), 0) := by
  obtain ⟨vs, h⟩ := two_reach
  exact ⟨vs, h, C68_short h m in3 (size := 4) (e := { dumpEx with errno := 0, wr := some 1 }) (by decide)
    ⟨by decide, rfl, show 4 ≤ 4 by decide, show 1 ≤ 4 by decide⟩ (by decide) rfl rfl rfl rfl⟩

end Ulp.Ultask
