/-
C92: `ultask --threads` prints every thread of the process.
C93: `ultask --fds` prints every descriptor of the process and what it refers to.
-/
import Verif.Model.TaskList
import Verif.Proof.Flag
import Verif.Spec.TaskList
import Verif.Proof.MapsFile
namespace Ulp.TaskList
open Ulp.MapKind (text)
open Ulp.ProcMaps (decimal)
open TaskListSpec
open Ulp.Load (lit)

theorem dec_eq (n : Nat) : VmaType.dec n = decimal n := by
  fun_induction decimal n with
  | case1 n h => rw [VmaType.dec, if_pos h]; simp only [ProcMaps.digit, h, if_true]
  | case2 n h ih =>
    rw [VmaType.dec, if_neg h, ih]
    have : n % 10 < 10 := Nat.mod_lt _ (by omega)
    simp only [ProcMaps.digit, this, if_true]

theorem atoi_decimal (n : Nat) (h : n < 2 ^ 31) : Cli.atoi (decimal n) = BitVec.ofNat 32 n := by
  obtain ⟨h1, h2, h3⟩ := MapsFile.decimal_ok n
  cases hd : decimal n with
  | nil => exact absurd hd h2
  | cons c r =>
    rw [hd] at h1 h3
    have hc := MapsFile.isDig_ne (h1 c (List.mem_cons_self ..))
    unfold Cli.atoi
    rw [List.dropWhile_cons_of_neg (by simp [hc.1])]
    dsimp only
    rw [if_neg hc.2.1, if_neg hc.2.2.1, h3, if_pos (by omega)]

theorem fmtInt_eq (n : Nat) (h : n < 2 ^ 31) : fmtInt (BitVec.ofNat 32 n) = decimal n := by
  have hn : (BitVec.ofNat 32 n).toNat = n := by rw [BitVec.toNat_ofNat]; omega
  have : ¬ (BitVec.ofNat 32 n).toInt < 0 := by
    rw [BitVec.toInt_eq_toNat_cond, hn]; split <;> omega
  unfold fmtInt
  rw [if_neg this, dec_eq, hn]

theorem numbered_filter {l : List Nat} {ns : List (List Byte)} (h : Numbered l ns) :
    (ns.filter fun n => ¬ (n = lit "." ∨ n = lit "..")) = l.map decimal := by
  induction h with
  | nil => rfl
  | dot _ ih => rw [List.filter_cons_of_neg (by decide +kernel), ih]
  | dots _ ih => rw [List.filter_cons_of_neg (by decide +kernel), ih]
  | entry n _ ih =>
    rw [List.filter_cons_of_pos, ih, List.map_cons]
    obtain ⟨h1, -, -⟩ := MapsFile.decimal_ok n
    have key : ∀ s : List Byte, (46 : Byte) ∈ s → decimal n ≠ s := by
      intro s hs he
      have := h1 46 (he ▸ hs)
      exact absurd this (by decide +kernel)
    simp [key (lit ".") (by decide +kernel), key (lit "..") (by decide +kernel)]

theorem foldlM_ok {σ α : Type} (f : σ → α → Except Crash σ) (g : σ → α → σ)
    (l : List α) (h : ∀ s, ∀ a ∈ l, f s a = .ok (g s a)) (s : σ) :
    l.foldlM f s = .ok (l.foldl g s) := by
  induction l generalizing s with
  | nil => rfl
  | cons a l ih =>
    rw [List.foldlM_cons, h s a (List.mem_cons_self ..)]
    exact ih (fun s b hb => h s b (List.mem_cons_of_mem _ hb)) _

theorem foldl_append_map {α β : Type} (f : α → β) (l : List α) (s : List β) :
    l.foldl (fun s a => s ++ [f a]) s = s ++ l.map f := by
  induction l generalizing s with
  | nil => simp
  | cons a l ih => rw [List.foldl_cons, ih]; simp

theorem threads_bit {flag : BitVec 32} : flag &&& FTO_THREADS ≠ 0 ↔ flag.getLsbD 4 = true := Flag.and_twoPow flag 4

theorem fd_bit {flag : BitVec 32} : flag &&& FTO_FD ≠ 0 ↔ flag.getLsbD 6 = true := Flag.and_twoPow flag 6

/-! ### C92 -/

/-- **C92.**  For every process and every list of its threads, however the directory
`/proc/PID/task` gives them: the list is loaded without an error, and what is printed is one
line for each thread with its number, in the order of the directory, and nothing else. -/
theorem C92_threads (flag : BitVec 32) (pid : Nat) (tids : List Nat) (ns : List (List Byte))
    (hf : flag.getLsbD 4 = true) (hpid : pid < 2 ^ 31) (hn : Numbered tids ns)
    (ht : ∀ t ∈ tids, t < 2 ^ 31) :
    ∃ l, loadThreads flag (some ns) = .ok l ∧
      dumpThreads flag (BitVec.ofNat 32 pid) l = (tids.map (threadLine pid)).flatten := by
  refine ⟨tids.map (BitVec.ofNat 32), ?_, ?_⟩
  · unfold loadThreads dirIter
    rw [if_neg (threads_bit.2 hf)]
    dsimp only
    rw [numbered_filter hn, foldlM_ok threadCb (fun s a => s ++ [Cli.atoi a]) _ (fun _ _ _ => rfl),
      foldl_append_map]
    simp only [Except.map, List.nil_append, List.map_map, Except.ok.injEq]
    apply List.map_congr_left
    intro t h
    exact atoi_decimal t (ht t h)
  · unfold dumpThreads
    rw [if_neg (threads_bit.2 hf), List.map_map]
    congr 1
    apply List.map_congr_left
    intro t h
    simp only [Function.comp, printThread, threadLine, fmtInt_eq pid hpid, fmtInt_eq t (ht t h)]
    rfl

example : ∃ l, loadThreads 0x10 (some [lit ".", lit "..", lit "1200", lit "1201"]) = .ok l ∧
    dumpThreads 0x10 1200 l = lit "pid 1200, tid 1200\npid 1200, tid 1201\n" := by
  have e1 : decimal 1200 = lit "1200" := by decide +kernel
  have e2 : decimal 1201 = lit "1201" := by decide +kernel
  obtain ⟨l, h1, h2⟩ := C92_threads 0x10 1200 [1200, 1201] [lit ".", lit "..", lit "1200", lit "1201"]
    (by decide) (by omega) (.dot (.dots (e1 ▸ .entry 1200 (e2 ▸ .entry 1201 .nil)))) (by simp)
  exact ⟨l, h1, h2.trans (by decide +kernel)⟩

/-- A process that is gone has no threads to print, and without the flag nothing is read. -/
theorem C92_gone (flag : BitVec 32) (pid : BitVec 32) (ns : List (List Byte)) :
    loadThreads flag none = .ok [] ∧ dumpThreads flag pid [] = [] ∧
    (flag.getLsbD 4 = false → loadThreads flag (some ns) = .ok []) := by
  refine ⟨?_, ?_, fun h => ?_⟩
  · unfold loadThreads; split <;> rfl
  · unfold dumpThreads; split <;> rfl
  · unfold loadThreads; rw [if_pos (Classical.byContradiction fun hc => by rw [threads_bit.1 hc] at h; cases h)]

/-! ### C93 -/

/-- **C93, partial.**  For every process and every list of its descriptors, each with what
it refers to (fewer than `PATH_MAX` bytes, as the kernel gives it): the list is loaded, and
what is printed is one line for each descriptor, in the order of the directory.  Missing: a
descriptor that is closed while the directory is read (`C93_vanished`). -/
theorem C93_fds_partial (flag : BitVec 32) (fds : List (Nat × List Byte)) (ns : List (List Byte))
    (readlink : BitVec 32 → Option (List Byte)) (hf : flag.getLsbD 6 = true)
    (hn : Numbered (fds.map (·.1)) ns) (hfd : ∀ f ∈ fds, f.1 < 2 ^ 31)
    (hlink : ∀ f ∈ fds, readlink (BitVec.ofNat 32 f.1) = some f.2)
    (hlen : ∀ f ∈ fds, f.2.length < 4096) :
    ∃ l, loadFds flag (some ns) readlink = .ok l ∧
      dumpFds flag l = .ok (fds.map fun f => fdLine f.1 f.2).flatten := by
  refine ⟨fds.map fun f => ⟨BitVec.ofNat 32 f.1, f.2⟩, ?_, ?_⟩
  · unfold loadFds dirIter
    rw [if_neg (fd_bit.2 hf)]
    dsimp only
    rw [numbered_filter hn, List.map_map]
    have key : ∀ (l : List (Nat × List Byte)) (s : List Fd), (∀ f ∈ l, f ∈ fds) →
        (l.map (decimal ∘ (·.1))).foldlM (fdCb readlink) s =
          .ok (s ++ l.map fun f => ⟨BitVec.ofNat 32 f.1, f.2⟩) := by
      intro l
      induction l with
      | nil => intro s _; rw [List.map_nil, List.foldlM_nil, List.map_nil, List.append_nil]; rfl
      | cons f l ih =>
        intro s hs
        have hm := hs f (List.mem_cons_self ..)
        have h1 : fdCb readlink s ((decimal ∘ (·.1)) f) = .ok (s ++ [⟨BitVec.ofNat 32 f.1, f.2⟩]) := by
          have := hlen f hm
          simp only [fdCb, allocFd, Function.comp, atoi_decimal f.1 (hfd f hm), hlink f hm]
          rw [List.take_of_length_le (by simp only [PATH_MAX]; omega)]
        rw [List.map_cons, List.foldlM_cons, h1]
        show List.foldlM (fdCb readlink) _ _ = _
        rw [ih _ (fun g hg => hs g (List.mem_cons_of_mem _ hg))]
        simp
    rw [key fds [] (fun _ h => h)]
    simp [Except.map]
  · unfold dumpFds
    rw [if_neg (fd_bit.2 hf)]
    have key : ∀ (l : List (Nat × List Byte)), (∀ f ∈ l, f ∈ fds) →
        (l.map fun f => (⟨BitVec.ofNat 32 f.1, f.2⟩ : Fd)).mapM printFd =
          .ok (l.map fun f => fdLine f.1 f.2) := by
      intro l
      induction l with
      | nil => intro _; rfl
      | cons f l ih =>
        intro hs
        have hm := hs f (List.mem_cons_self ..)
        have h1 : printFd ⟨BitVec.ofNat 32 f.1, f.2⟩ = .ok (fdLine f.1 f.2) := by
          unfold printFd
          dsimp only
          rw [if_pos (show _ < PATH_MAX from hlen f hm)]
          simp only [fmtInt_eq f.1 (hfd f hm)]
          rfl
        rw [List.map_cons, List.mapM_cons, h1, ih (fun g hg => hs g (List.mem_cons_of_mem _ hg))]
        rfl
    rw [key fds (fun _ h => h)]
    rfl

example : ∃ l, loadFds 0x40 (some [lit ".", lit "0", lit "..", lit "3"])
      (fun n => if n = 0 then some (lit "/dev/null") else some (lit "pipe:[7]")) = .ok l ∧
    dumpFds 0x40 l = .ok (lit "fd 0 -> /dev/null\nfd 3 -> pipe:[7]\n") := by
  have e1 : decimal 0 = lit "0" := by decide +kernel
  have e2 : decimal 3 = lit "3" := by decide +kernel
  obtain ⟨l, h1, h2⟩ := C93_fds_partial 0x40 [(0, lit "/dev/null"), (3, lit "pipe:[7]")]
    [lit ".", lit "0", lit "..", lit "3"]
    (fun n => if n = 0 then some (lit "/dev/null") else some (lit "pipe:[7]")) (by decide)
    (.dot (e1 ▸ .entry 0 (.dots (e2 ▸ .entry 3 .nil)))) (by simp) (by simp) (by decide +kernel)
  exact ⟨l, h1, h2.trans (by congr 1; decide +kernel)⟩

/-- **Finding.**  A descriptor in the directory that is closed before its turn: the null
pointer of `alloc_fd` is linked into the list. -/
theorem C93_vanished (flag : BitVec 32) (fds : List Nat) (ns : List (List Byte))
    (readlink : BitVec 32 → Option (List Byte)) (hf : flag.getLsbD 6 = true)
    (hn : Numbered fds ns) (hfd : ∀ f ∈ fds, f < 2 ^ 31)
    (hgone : ∃ f ∈ fds, readlink (BitVec.ofNat 32 f) = none) :
    loadFds flag (some ns) readlink = .error .nullFd := by
  unfold loadFds dirIter
  rw [if_neg (fd_bit.2 hf)]
  dsimp only
  rw [numbered_filter hn]
  have key : ∀ (l : List Nat) (s : List Fd), (∀ f ∈ l, f < 2 ^ 31) →
      (∃ f ∈ l, readlink (BitVec.ofNat 32 f) = none) →
      (l.map decimal).foldlM (fdCb readlink) s = .error .nullFd := by
    intro l
    induction l with
    | nil => rintro s - ⟨f, hf, -⟩; cases hf
    | cons g l ih =>
      rintro s hl ⟨f, hf, hr⟩
      rw [List.map_cons, List.foldlM_cons]
      have ha := atoi_decimal g (hl g (List.mem_cons_self ..))
      cases hg : readlink (BitVec.ofNat 32 g) with
      | none => simp only [fdCb, allocFd, ha, hg]; rfl
      | some t =>
        have h1 : fdCb readlink s (decimal g) = .ok (s ++ [⟨BitVec.ofNat 32 g, t.take PATH_MAX⟩]) := by
          simp only [fdCb, allocFd, ha, hg]
        rw [h1]
        refine ih _ (fun x hx => hl x (List.mem_cons_of_mem _ hx)) ⟨f, ?_, hr⟩
        rcases List.mem_cons.1 hf with rfl | hf
        · rw [hg] at hr; cases hr
        · exact hf
  rw [key fds [] hfd hgone]
  rfl

example : loadFds 0x40 (some [lit "0"]) (fun _ => none) = .error .nullFd := by
  have e1 : decimal 0 = lit "0" := by decide +kernel
  exact C93_vanished 0x40 [0] _ _ (by decide) (e1 ▸ .entry 0 .nil) (by simp) ⟨0, by simp, rfl⟩

end Ulp.TaskList
