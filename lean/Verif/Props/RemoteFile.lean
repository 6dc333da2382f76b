/-
C105 and C106: opening a file, and asking for its attributes, in the process.
-/
import Verif.Model.RemoteFile
import Verif.Props.Ptrace
namespace Ulp.Ptrace
open Ulp.SysSpec

/-- System calls in the process go well: the kernel `k` is called once with the number and the
arguments while the code of the call is in place; then the registers are as before and the
code is put back.  C39 shows this for `task_syscall` on both machines. -/
def Made (abi : Abi) (k : Kernel) (base : Addr) (env : Env abi.Regs) : Prop :=
  ∀ nr args (t : Tgt abi.Regs), taskSyscall abi base nr args env t =
    ⟨⟨t.regs, (k (nr.signExtend 64) args (t.mem.write base abi.code)).2.write base
        (t.mem.read base abi.code.length)⟩,
      some 0, some (k (nr.signExtend 64) args (t.mem.write base abi.code)).1⟩

/-- What a kernel does with the memory of a process that has nothing at `[a, a + size)`: `mmap`
of `len` bytes gives `a`, with zeros, and `munmap` takes it away, in whole pages; nothing else
is changed; and `a` is no error. -/
structure Maps (n : NR) (k : Kernel) (a : Addr) (len size : Nat) : Prop where
  le : len ≤ size
  mmap : ∀ m, (k (n.mmap.signExtend 64) (0, BitVec.ofNat 64 len, 3, 0x22, -1, 0) m).1 = a
  zeros : ∀ m, (k (n.mmap.signExtend 64) (0, BitVec.ofNat 64 len, 3, 0x22, -1, 0) m).2.read a len
    = List.replicate len 0
  mmapRest : ∀ m x, size ≤ (x - a).toNat →
    (k (n.mmap.signExtend 64) (0, BitVec.ofNat 64 len, 3, 0x22, -1, 0) m).2 x = m x
  munmap : ∀ m x, size ≤ (x - a).toNat →
    (k (n.munmap.signExtend 64) (a, BitVec.ofNat 64 len, 0, 0, 0, 0) m).2 x = m x
  room : a.toNat + size ≤ 2 ^ 64
  ok : a ≠ -1#64

/-- `open` of the path at `a` gives `r` and leaves the memory alone. -/
def Opens (at_ : Bool) (n : FileNR) (k : Kernel) (a : Addr) (path : List Byte)
    (flags mode : BitVec 32) (r : BitVec 64) : Prop :=
  ∀ m : Mem, m.read a (path.length + 1) = path ++ [0] →
    k (n.open_.signExtend 64)
      (if at_ then (-100#64, a, flags.signExtend 64, mode.setWidth 64, 0, 0)
        else (a, flags.signExtend 64, mode.setWidth 64, 0, 0, 0)) m = (r, m)

theorem outside_code {abi : Abi} (m m' : Mem) (base x : Addr) (hx : ∀ y,
    abi.code.length ≤ (y - base).toNat → y = x → m' y = m x)
    (orig : Mem) (ho : orig x = m x) :
    (m'.write base (orig.read base abi.code.length)) x = m x := by
  by_cases h : abi.code.length ≤ (x - base).toNat
  · rw [Mem.write_out _ _ _ _ (by simpa using h)]
    exact hx x h rfl
  · have hi : (x - base).toNat < abi.code.length := by omega
    rw [addr_eq_add_sub base x, Mem.write_in _ _ _ _ (by simpa using hi) (by have := (x - base).isLt; omega)]
    rw [Mem.read_getElem, ← addr_eq_add_sub base x, ho]

/-- A remote call leaves a byte alone if the kernel does, whether it is under the code or
not. -/
theorem made_same {abi : Abi} {k : Kernel} {base : Addr}
    (nr : BitVec 64) (args) (m : Mem) (x : Addr)
    (hk : ∀ m', (k nr args m').2 x = m' x) :
    ((k nr args (m.write base abi.code)).2.write base (m.read base abi.code.length)) x = m x := by
  refine outside_code (abi := abi) m _ base x ?_ m rfl
  intro y hy hyx
  subst hyx
  rw [hk, Mem.write_out _ _ _ _ (by simpa using hy)]

theorem taskMalloc_made {abi : Abi} {n : NR} {k : Kernel} {base : Addr} {env : Env abi.Regs}
    (h : Made abi k base env) {a : Addr} {len size : Nat} (hk : Maps n k a len size) (t : Tgt abi.Regs) :
    taskMalloc abi n base (BitVec.ofNat 64 len) env t =
      (⟨t.regs, (k (n.mmap.signExtend 64) (0, BitVec.ofNat 64 len, 3, 0x22, -1, 0)
        (t.mem.write base abi.code)).2.write base (t.mem.read base abi.code.length)⟩, some a) := by
  rw [taskMalloc, taskMmap]
  simp only [show (3#32).signExtend 64 = 3#64 from rfl, show (0x22#32).signExtend 64 = 0x22#64 from rfl,
    show (-1#32).signExtend 64 = -1#64 from by decide]
  rw [h]
  dsimp only
  have := hk.mmap (t.mem.write base abi.code)
  rw [Option.bind_some, if_neg (by decide)]
  rw [show (0#64, BitVec.ofNat 64 len, 3#64, 34#64, -1#64, 0#64)
    = ((0 : BitVec 64), BitVec.ofNat 64 len, (3 : BitVec 64), (0x22 : BitVec 64), (-1 : BitVec 64), (0 : BitVec 64))
    from rfl, this]
  rw [Option.map_some, if_neg hk.ok]

theorem taskFree_made {abi : Abi} {n : NR} {k : Kernel} {base : Addr} {env : Env abi.Regs}
    (h : Made abi k base env) (a len : BitVec 64) (t : Tgt abi.Regs) :
    ∃ v, taskFree abi n base a len env t =
      (⟨t.regs, (k (n.munmap.signExtend 64) (a, len, 0, 0, 0, 0)
        (t.mem.write base abi.code)).2.write base (t.mem.read base abi.code.length)⟩, some v) := by
  rw [taskFree, taskMunmap, h]
  dsimp only
  rw [Option.bind_some, if_neg (by decide), Option.map_some]
  exact ⟨_, rfl⟩

/-- **C105.**  Opening a file in a stopped process: if the system calls go well and all of the
path is copied, the kernel opens exactly this path with these flags and this mode, its result
is returned, all registers of the process are as before, and so is all of its memory but the
memory that was mapped for the path. -/
theorem C105_open_partial (abi : Abi) (at_ : Bool) (n : FileNR)
    (base : Addr) (path : List Byte) (flags mode : BitVec 32) (env : FileEnv abi.Regs)
    (t : Tgt abi.Regs) (k : Kernel) (a : Addr) (size : Nat) (r : BitVec 64)
    (h1 : Made abi k base env.malloc) (h2 : Made abi k base env.call) (h3 : Made abi k base env.free)
    (hmov : path.length + 1 ≤ env.moved)
    (hmap : Maps n.toNR k a (path.length + 1) size) (hopen : Opens at_ n k a path flags mode r)
    (hd : Disjoint base abi.code.length a size) :
    (taskOpen abi at_ n base path flags mode env t).2 = some (some (r.truncate 32).toInt) ∧
    (taskOpen abi at_ n base path flags mode env t).1.regs = t.regs ∧
    ∀ x, size ≤ (x - a).toNat →
      (taskOpen abi at_ n base path flags mode env t).1.mem x = t.mem x := by
  unfold taskOpen
  dsimp only
  have hle := hmap.le
  have hroom := hmap.room
  rw [taskMalloc_made h1 hmap]
  dsimp only
  rw [List.take_of_length_le (by simpa using hmov)]
  generalize hm1 : ((k (n.mmap.signExtend 64) (0, BitVec.ofNat 64 (path.length + 1), 3, 0x22, -1, 0)
        (t.mem.write base abi.code)).2.write base (t.mem.read base abi.code.length)) = m1
  have hr1 : ∀ x, size ≤ (x - a).toNat → m1 x = t.mem x := by
    intro x hx
    rw [← hm1]
    exact made_same _ _ _ _ (fun m' => hmap.mmapRest m' x hx)
  have hargs : openArgs at_ a flags mode = (if at_ then (-100#64, a, flags.signExtend 64, mode.setWidth 64, 0, 0)
        else (a, flags.signExtend 64, mode.setWidth 64, 0, 0, 0)) := by
    unfold openArgs
    rfl
  rw [h2, hargs]
  have hread : ((m1.write a (path ++ [0])).write base abi.code).read a (path.length + 1) = path ++ [0] := by
    rw [Mem.read_write_disjoint _ _ _ _ _ (fun i j hi hj => hd i j hi (by omega))]
    have hl := Mem.read_write_self m1 a (path ++ [0]) (by simp; omega)
    simpa using hl
  have ho := hopen _ hread
  rw [ho]
  dsimp only
  obtain ⟨v, hv⟩ := taskFree_made (n := n.toNR) h3 a (BitVec.ofNat 64 (path.length + 1))
    (⟨t.regs, ((m1.write a (path ++ [0])).write base abi.code).write base
      ((m1.write a (path ++ [0])).read base abi.code.length)⟩ : Tgt abi.Regs)
  rw [hv]
  refine ⟨rfl, rfl, fun x hx => ?_⟩
  dsimp only
  rw [made_same _ _ _ _ (fun m' => hmap.munmap m' x hx), Mem.write_restore,
    Mem.write_out _ _ _ _ (by rw [List.length_append, List.length_singleton]; omega), hr1 x hx]

/-- **C105.**  A path that was opened with `task_open2` is opened with mode 0. -/
theorem C105_open2 (abi : Abi) (at_ : Bool) (n : FileNR) (base : Addr) (path : List Byte)
    (flags : BitVec 32) (env : FileEnv abi.Regs) (t : Tgt abi.Regs) :
    taskOpen2 abi at_ n base path flags env t = taskOpen abi at_ n base path flags 0#32 env t := rfl

/-- **C106.**  Asking for the attributes of a file in a stopped process: if the system calls go
well, all bytes are copied back and the kernel wrote `st`, then `st` is given and 0 is returned;
registers and memory of the process are as before. -/
theorem C106_fstat_partial (abi : Abi) (n : FileNR) (base : Addr)
    (fd : BitVec 32) (old : List Byte) (env : FileEnv abi.Regs) (t : Tgt abi.Regs) (k : Kernel)
    (a : Addr) (size : Nat) (st : List Byte) (res : BitVec 64)
    (h1 : Made abi k base env.malloc) (h2 : Made abi k base env.call) (h3 : Made abi k base env.free)
    (hold : old.length = 144) (hst : st.length = 144) (hmov : 144 ≤ env.moved)
    (hmap : Maps n.toNR k a 144 size) (hd : Disjoint base abi.code.length a size)
    (hk : ∀ m : Mem, k (n.fstat.signExtend 64) (fd.signExtend 64, a, 0, 0, 0, 0) m
      = (res, m.write a st)) :
    (taskFstat abi n base fd old env t).2 = some (0, st) ∧
    (taskFstat abi n base fd old env t).1.regs = t.regs ∧
    ∀ x, size ≤ (x - a).toNat → (taskFstat abi n base fd old env t).1.mem x = t.mem x := by
  unfold taskFstat
  dsimp only [STAT_SIZE]
  have hle := hmap.le
  have hroom := hmap.room
  rw [taskMalloc_made h1 hmap]
  dsimp only
  generalize hm1 : ((k (n.mmap.signExtend 64) (0, BitVec.ofNat 64 144, 3, 0x22, -1, 0)
        (t.mem.write base abi.code)).2.write base (t.mem.read base abi.code.length)) = m1
  have hr1 : ∀ x, size ≤ (x - a).toNat → m1 x = t.mem x := by
    intro x hx
    rw [← hm1]
    exact made_same _ _ _ _ (fun m' => hmap.mmapRest m' x hx)
  rw [h2, hk]
  dsimp only
  obtain ⟨v, hv⟩ := taskFree_made (n := n.toNR) h3 a (BitVec.ofNat 64 144)
    (⟨t.regs, ((m1.write base abi.code).write a st).write base
      (m1.read base abi.code.length)⟩ : Tgt abi.Regs)
  rw [hv]
  have hread : (((m1.write base abi.code).write a st).write base
      (m1.read base abi.code.length)).read a 144 = st := by
    rw [Mem.read_write_disjoint _ _ _ _ _
      (fun i j hi hj => hd i j (by simpa using hi) (by omega))]
    have := Mem.read_write_self (m1.write base abi.code) a st (by omega)
    rwa [hst] at this
  rw [hread, List.take_of_length_le (by omega), List.drop_of_length_le (by omega), List.append_nil]
  refine ⟨rfl, rfl, fun x hx => ?_⟩
  dsimp only
  rw [made_same _ _ _ _ (fun m' => hmap.munmap m' x hx)]
  by_cases hc : abi.code.length ≤ (x - base).toNat
  · rw [Mem.write_out _ _ _ _ (by simpa using hc), Mem.write_out _ _ _ _ (by omega),
      Mem.write_out _ _ _ _ (by simpa using hc), hr1 x hx]
  · have hi : (x - base).toNat < abi.code.length := by omega
    rw [addr_eq_add_sub base x, Mem.write_in _ _ _ _ (by simpa using hi) (by simp; omega),
      Mem.read_getElem, ← addr_eq_add_sub base x, hr1 x hx]

/-- **Finding.**  What the kernel says about the attributes is not looked at: when it refuses
(-9, no such descriptor) 0 is returned, with attributes that are all zero. -/
theorem C106_error_ignored (abi : Abi) (n : FileNR) (base : Addr)
    (fd : BitVec 32) (old : List Byte) (env : FileEnv abi.Regs) (t : Tgt abi.Regs) (k : Kernel)
    (a : Addr) (size : Nat)
    (h1 : Made abi k base env.malloc) (h2 : Made abi k base env.call) (h3 : Made abi k base env.free)
    (hold : old.length = 144) (hmov : 144 ≤ env.moved)
    (hmap : Maps n.toNR k a 144 size) (hd : Disjoint base abi.code.length a size)
    (hk : ∀ m : Mem, k (n.fstat.signExtend 64) (fd.signExtend 64, a, 0, 0, 0, 0) m = (-9, m)) :
    (taskFstat abi n base fd old env t).2 = some (0, List.replicate 144 0) := by
  unfold taskFstat
  dsimp only [STAT_SIZE]
  have hle := hmap.le
  have hroom := hmap.room
  rw [taskMalloc_made h1 hmap]
  dsimp only
  generalize hm1 : ((k (n.mmap.signExtend 64) (0, BitVec.ofNat 64 144, 3, 0x22, -1, 0)
        (t.mem.write base abi.code)).2.write base (t.mem.read base abi.code.length)) = m1
  have hz : m1.read a 144 = List.replicate 144 0 := by
    rw [← hm1, Mem.read_write_disjoint _ _ _ _ _
      (fun i j hi hj => hd i j (by simpa using hi) (by omega))]
    exact hmap.zeros _
  rw [h2, hk]
  dsimp only
  obtain ⟨v, hv⟩ := taskFree_made (n := n.toNR) h3 a (BitVec.ofNat 64 144)
    (⟨t.regs, (m1.write base abi.code).write base (m1.read base abi.code.length)⟩ : Tgt abi.Regs)
  rw [hv]
  dsimp only
  rw [Mem.write_restore, hz, List.take_of_length_le (by simpa using hmov),
    List.drop_of_length_le (by omega), List.append_nil]
  rfl

/-- **Finding.**  When only a part of the path is copied, the file with the shorter name is
opened, and this is reported as success. -/
theorem C105_short (abi : Abi) (at_ : Bool) (n : FileNR)
    (base : Addr) (path : List Byte) (flags mode : BitVec 32) (env : FileEnv abi.Regs)
    (t : Tgt abi.Regs) (k : Kernel) (a : Addr) (size : Nat) (r : BitVec 64)
    (h1 : Made abi k base env.malloc) (h2 : Made abi k base env.call) (h3 : Made abi k base env.free)
    (hmov : env.moved ≤ path.length)
    (hmap : Maps n.toNR k a (path.length + 1) size)
    (hopen : Opens at_ n k a (path.take env.moved) flags mode r)
    (hd : Disjoint base abi.code.length a size) :
    (taskOpen abi at_ n base path flags mode env t).2 = some (some (r.truncate 32).toInt) := by
  unfold taskOpen
  dsimp only
  have hle := hmap.le
  have hroom := hmap.room
  rw [taskMalloc_made h1 hmap]
  dsimp only
  rw [List.take_append_of_le_length hmov]
  generalize hm1 : ((k (n.mmap.signExtend 64) (0, BitVec.ofNat 64 (path.length + 1), 3, 0x22, -1, 0)
        (t.mem.write base abi.code)).2.write base (t.mem.read base abi.code.length)) = m1
  have hz : m1.read a (path.length + 1) = List.replicate (path.length + 1) 0 := by
    rw [← hm1, Mem.read_write_disjoint _ _ _ _ _
      (fun i j hi hj => hd i j (by simpa using hi) (by omega))]
    exact hmap.zeros _
  have hargs : openArgs at_ a flags mode = (if at_ then (-100#64, a, flags.signExtend 64, mode.setWidth 64, 0, 0)
        else (a, flags.signExtend 64, mode.setWidth 64, 0, 0, 0)) := by
    unfold openArgs
    rfl
  rw [h2, hargs]
  have hl : (path.take env.moved).length = env.moved := by simp; omega
  have hread : ((m1.write a (path.take env.moved)).write base abi.code).read a
      ((path.take env.moved).length + 1) = path.take env.moved ++ [0] := by
    have hd' : Disjoint base abi.code.length a ((path.take env.moved).length + 1) :=
      fun i j hi hj => hd i j hi (by omega)
    rw [Mem.read_write_disjoint _ _ _ _ _ hd']
    apply List.ext_getElem?
    intro i
    rw [Mem.read_getElem?]
    by_cases hi : i < env.moved
    · rw [if_pos (by omega), Mem.write_in _ _ _ _ (by omega) (by omega),
        List.getElem?_append_left (by omega)]
      rw [List.getElem?_eq_getElem (by omega)]
    · by_cases hi2 : i = env.moved
      · subst hi2
        have hx : (a + BitVec.ofNat 64 env.moved - a).toNat = env.moved :=
          add_ofNat_sub_toNat a _ (by omega)
        rw [if_pos (by omega), Mem.write_out _ _ _ _ (by omega),
          List.getElem?_append_right (by omega), hl, Nat.sub_self]
        have := congrArg (fun l => l[env.moved]?) hz
        rw [Mem.read_getElem?, if_pos (by omega), List.getElem?_replicate, if_pos (by omega)] at this
        simpa using this
      · rw [if_neg (by omega), List.getElem?_eq_none (by simp; omega)]
  have ho := hopen _ hread
  rw [ho]
  dsimp only
  obtain ⟨v, hv⟩ := taskFree_made (n := n.toNR) h3 a (BitVec.ofNat 64 (path.length + 1))
    (⟨t.regs, ((m1.write a (path.take env.moved)).write base abi.code).write base
      ((m1.write a (path.take env.moved)).read base abi.code.length)⟩ : Tgt abi.Regs)
  rw [hv]
  rfl

/-- **Finding.**  When the system call could not be made, a result that was never given is
returned as the descriptor. -/
theorem C105_undefined (abi : Abi) (at_ : Bool) (n : FileNR) (base : Addr) (path : List Byte)
    (flags mode : BitVec 32) (env : FileEnv abi.Regs) (t : Tgt abi.Regs)
    (h1 : env.malloc.getOld = some (-3)) (h2 : env.call.getOld = some (-3))
    (h3 : env.free.getOld = some (-3)) :
    (taskOpen abi at_ n base path flags mode env t).2 = some none := by
  simp [taskOpen, taskMalloc, taskMmap, taskFree, taskMunmap, taskSyscall, h1, h2, h3]

/-! ### A machine and a kernel for the hypotheses -/

theorem made_x86 (k : Kernel) (base : Addr)
    (hk : ∀ nr args (m : Mem), (k nr args m).2.read base 3 = m.read base 3) :
    Made x86 k base (getpidEnv k) := by
  intro nr args t
  refine C39_x86_partial k base nr args (getpidEnv k) ⟨Nat.le_refl 3, Nat.le_refl 3, Nat.le_refl 3⟩ rfl rfl rfl rfl t
    (before := [⟨none, fun _ t => t, none, stoppedBy 17#8⟩])
    (last := ⟨none, fun _ t => twoSteps (x86Step k) t, none, stoppedBy 5#8⟩) (after := []) (sigs := [17#8])
    rfl rfl (by simp) (by decide) rfl rfl rfl ?_ hk
  intro sig u hrip hread
  simp only
  have h2 : u.mem.read base 2 = [0x0f#8, 0x05#8] := by
    simp only [Mem.read, List.range, List.range.loop, List.map_cons, List.map_nil, List.cons.injEq, and_true] at hread ⊢
    exact ⟨hread.1, hread.2.1⟩
  generalize hout : k u.regs.rax (u.regs.rdi, u.regs.rsi, u.regs.rdx, u.regs.r10, u.regs.r8, u.regs.r9) u.mem = out
  have h3 : out.2 (base + 2#64) = 0xcc#8 := by
    have := hk u.regs.rax (u.regs.rdi, u.regs.rsi, u.regs.rdx, u.regs.r10, u.regs.r8, u.regs.r9) u.mem
    rw [hout, hread] at this
    simp only [Mem.read, List.range, List.range.loop, List.map_cons, List.map_nil, List.cons.injEq, and_true] at this
    exact this.2.2
  have e1 : x86Step k u = .next ⟨{ u.regs with rax := out.1, rcx := base + 2#64, r11 := u.regs.eflags, rip := base + 2#64 }, out.2⟩ := by
    rw [x86Step]
    simp only [hrip]
    rw [if_pos h2, hout]
  have e2 : ∀ r : X86Regs, r.rip = base + 2#64 →
      x86Step k ⟨r, out.2⟩ = .trap ⟨{ r with rip := r.rip + 1#64 }, out.2⟩ := by
    intro r hr
    rw [x86Step]
    simp only [hr]
    rw [if_neg, if_pos]
    · simp [Mem.read, List.range, List.range.loop, h3]
    · simp [Mem.read, List.range, List.range.loop, h3]
  rw [twoSteps, e1]
  simp only
  rw [e2 _ rfl]
  exact .go e1 (.stop (e2 _ rfl))

/-- The numbers of x86_64. -/
def exNR : FileNR :=
  { mmap := 9, munmap := 11, mprotect := 10, close := 3, ftruncate := 77, msync := 26, prctl := 157,
    open_ := 2, fstat := 5 }

/-- A kernel with a page for mappings, one file `/a` and its attributes. -/
def exKernel : Kernel := fun nr args m =>
  if nr = 9 then (0x700000, m.write 0x700000 (List.replicate 144 0))
  else if nr = 2 then (if m.read args.1 3 = [0x2f, 0x61, 0] then 7 else -2, m)
  else if nr = 5 ∧ args.1 = 7 ∧ args.2.1 = 0x700000 then (0, m.write 0x700000 (List.replicate 144 1))
  else if nr = 11 then (0, m)
  else (-9, m)

theorem ex_disjoint : Disjoint 0x400000 3 (0x700000 : Addr) 144 := by
  intro i j hi hj e
  have := congrArg BitVec.toNat e
  have h1 : (0x400000 : Addr).toNat = 0x400000 := rfl
  have h2 : (0x700000 : Addr).toNat = 0x700000 := rfl
  simp only [BitVec.toNat_add, BitVec.toNat_ofNat, h1, h2] at this
  omega

theorem exKernel_code (nr args) (m : Mem) :
    (exKernel nr args m).2.read 0x400000 3 = m.read 0x400000 3 := by
  have hw : ∀ b : Byte, (m.write 0x700000 (List.replicate 144 b)).read 0x400000 3 = m.read 0x400000 3 :=
    fun b => Mem.read_write_disjoint _ _ _ _ _ (by
      rw [List.length_replicate]
      exact ex_disjoint.symm)
  unfold exKernel
  by_cases h1 : nr = 9
  · rw [if_pos h1]; exact hw 0
  rw [if_neg h1]
  by_cases h2 : nr = 2
  · rw [if_pos h2]
  rw [if_neg h2]
  by_cases h3 : nr = 5 ∧ args.1 = 7 ∧ args.2.1 = 0x700000
  · rw [if_pos h3]; exact hw 1
  rw [if_neg h3]
  by_cases h4 : nr = 11
  · rw [if_pos h4]
  · rw [if_neg h4]

theorem ex_maps (l : Nat) (h : l ≤ 144) : Maps exNR.toNR exKernel 0x700000 l 144 := by
  refine ⟨h, fun _ => rfl, fun m => ?_, fun m x hx => ?_, fun _ _ _ => rfl, by decide, by decide⟩
  · show (m.write 0x700000 (List.replicate 144 0)).read 0x700000 l = _
    have := Mem.read_write_sub m 0x700000 (List.replicate 144 0) 0 l (by simpa using h) (by simp)
    rw [show (0x700000 : Addr) + BitVec.ofNat 64 0 = 0x700000 from rfl] at this
    rw [this, List.drop_zero, List.take_replicate, Nat.min_eq_left h]
  · show (m.write 0x700000 (List.replicate 144 0)) x = _
    exact Mem.write_out _ _ _ _ (by simpa using hx)

def exFileEnv (moved : Nat) : FileEnv X86Regs :=
  ⟨getpidEnv exKernel, moved, getpidEnv exKernel, getpidEnv exKernel⟩

/-- `/a` is opened as 7, `/b` gives -2, and `/ab` of which two bytes are copied gives 7. -/
example (t : Tgt X86Regs) :
    (taskOpen x86 false exNR 0x400000 [0x2f, 0x61] 2 0 (exFileEnv 3) t).2 = some (some 7) ∧
    (taskOpen x86 false exNR 0x400000 [0x2f, 0x62] 2 0 (exFileEnv 3) t).2 = some (some (-2)) ∧
    (taskOpen x86 false exNR 0x400000 [0x2f, 0x61, 0x62] 2 0 (exFileEnv 2) t).2 = some (some 7) := by
  have hm := made_x86 exKernel 0x400000 exKernel_code
  refine ⟨?_, ?_, ?_⟩
  · exact (C105_open_partial x86 false exNR 0x400000 [0x2f, 0x61] 2 0 (exFileEnv 3) t exKernel 0x700000 144 7
      hm hm hm (by decide) (ex_maps 3 (by decide))
      (fun m h => by
        show (if m.read 0x700000 3 = [0x2f, 0x61, 0] then (7 : BitVec 64) else -2, m) = _
        have h' : m.read 0x700000 3 = [0x2f, 0x61, 0] := h
        rw [if_pos h']) ex_disjoint).1
  · exact (C105_open_partial x86 false exNR 0x400000 [0x2f, 0x62] 2 0 (exFileEnv 3) t exKernel 0x700000 144 (-2)
      hm hm hm (by decide) (ex_maps 3 (by decide))
      (fun m h => by
        show (if m.read 0x700000 3 = [0x2f, 0x61, 0] then (7 : BitVec 64) else -2, m) = _
        have h' : m.read 0x700000 3 = [0x2f, 0x62, 0] := h
        rw [if_neg (by rw [h']; decide)]) ex_disjoint).1
  · exact C105_short x86 false exNR 0x400000 [0x2f, 0x61, 0x62] 2 0 (exFileEnv 2) t exKernel 0x700000 144 7
      hm hm hm (by decide) (ex_maps 4 (by decide))
      (fun m h => by
        show (if m.read 0x700000 3 = [0x2f, 0x61, 0] then (7 : BitVec 64) else -2, m) = _
        have h' : m.read 0x700000 3 = [0x2f, 0x61, 0] := h
        rw [if_pos h']) ex_disjoint

/-- The attributes of descriptor 7; those of descriptor 8, which is not open, are zeros, and no
error is returned. -/
example (t : Tgt X86Regs) :
    (taskFstat x86 exNR 0x400000 7 (List.replicate 144 5) (exFileEnv 144) t).2
      = some (0, List.replicate 144 1) ∧
    (taskFstat x86 exNR 0x400000 8 (List.replicate 144 5) (exFileEnv 144) t).2
      = some (0, List.replicate 144 0) := by
  have hm := made_x86 exKernel 0x400000 exKernel_code
  refine ⟨?_, ?_⟩
  · exact (C106_fstat_partial x86 exNR 0x400000 7 _ (exFileEnv 144) t exKernel 0x700000 144
      (List.replicate 144 1) 0 hm hm hm (by simp) (by simp) (by decide) (ex_maps 144 (by decide))
      ex_disjoint (fun m => rfl)).1
  · exact C106_error_ignored x86 exNR 0x400000 8 _ (exFileEnv 144) t exKernel 0x700000 144
      hm hm hm (by simp) (by decide) (ex_maps 144 (by decide)) ex_disjoint (fun m => rfl)

/-- The number that a kernel returns, as an `int`. -/
def asInt (v : BitVec 64) : Int := (v.truncate 32).toInt

/-- **C53.**  What the process asks its kernel for: unmapping and changing the protection of exactly
the given range, and writing it back, waiting for it (`MS_SYNC`, 4) or not (`MS_ASYNC`, 1); and the
answer of the kernel is what is returned. -/
theorem C53_requests (abi : Abi) (n : NR) (k : Kernel) (base : Addr) (env : Env abi.Regs)
    (t : Tgt abi.Regs) (hk : Made abi k base env) (addr len : BitVec 64) (prot : BitVec 32) :
    (taskMunmap abi n base addr len env t).2 =
      some (asInt (k (n.munmap.signExtend 64) (addr, len, 0, 0, 0, 0) (t.mem.write base abi.code)).1) ∧
    (taskMprotect abi n base addr len prot env t).2 =
      some (asInt (k (n.mprotect.signExtend 64) (addr, len, prot.signExtend 64, 0, 0, 0)
        (t.mem.write base abi.code)).1) ∧
    (taskMsyncSync abi n base addr len env t).2 =
      some (asInt (k (n.msync.signExtend 64) (addr, len, 4, 0, 0, 0) (t.mem.write base abi.code)).1) ∧
    (taskMsyncAsync abi n base addr len env t).2 =
      some (asInt (k (n.msync.signExtend 64) (addr, len, 1, 0, 0, 0) (t.mem.write base abi.code)).1) := by
  have e4 : (4#32).signExtend 64 = (4 : BitVec 64) := by decide
  have e1 : (1#32).signExtend 64 = (1 : BitVec 64) := by decide
  refine ⟨?_, ?_, ?_, ?_⟩
  · rw [taskMunmap, hk]; rfl
  · rw [taskMprotect, hk]; rfl
  · rw [taskMsyncSync, taskMsync, hk, e4]; rfl
  · rw [taskMsyncAsync, taskMsync, hk, e1]; rfl

/-- A process whose kernel is called. -/
example : Made x86 exKernel 0x400000 (getpidEnv exKernel) := made_x86 exKernel 0x400000 exKernel_code

end Ulp.Ptrace
