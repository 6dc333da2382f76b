/-
C89: a copied file is complete, and copying never touches another file.
C90: removing a directory tree removes the tree and nothing else.
C91: creating and testing files.
-/
import Verif.Proof.Files
namespace Ulp.Files
open Ulp.Load (lit)

/-! ### The files of the examples -/

/-- A tree with two levels next to another file. -/
def exTree : FS :=
  [([lit "t"], .dir), ([lit "f", lit "t"], .reg [1]), ([lit "u", lit "t"], .dir),
    ([lit "g", lit "u", lit "t"], .reg []), ([lit "x"], .reg [2, 3, 4]), ([lit "p"], .special)]

/-- A system that refuses nothing. -/
def exEnv : Env := ⟨fun _ => false, fun _ => false, fun _ => false⟩

/-- The files of the examples are trees: a check for concrete lists. -/
theorem tree_of_check {fs : FS} (h1 : (fs.map (·.1)).Nodup) (h2 : ∀ e ∈ fs, e.1 ≠ [])
    (h3 : ∀ e ∈ fs, e.1.tail = [] ∨ (e.1.tail, Obj.dir) ∈ fs) : Tree fs := by
  refine ⟨h1, fun o h => h2 _ h rfl, fun n p o h => ?_⟩
  rcases h3 _ h with h | h
  · exact .inl ⟨h, rfl⟩
  · exact .inr h

theorem exTree_tree : Tree exTree :=
  tree_of_check (by decide +kernel) (by decide +kernel) (by decide +kernel)

theorem free_of_check {fs : FS} {n : Name} {p : Path} (h : ∀ e ∈ fs, e.1 ≠ n :: p) :
    Free fs (n :: p) := by
  rintro o (⟨h1, -⟩ | h1)
  · cases h1
  · exact h _ h1 rfl

/-! ### C89 -/

/-- **C89, partial.**  If the source is a regular file of less than 2 GiB that can be read to
its end, the destination is a free name in a directory where files can be created, and the
disk has room, then the copy succeeds: the destination is a regular file with the same bytes,
and everything else is as before.  Missing: if the disk is too small or reading fails, the
copy is short and success is reported all the same (`C89_disk_full`, `C89_read_error`), and
"copying" a directory succeeds too (`C89_directory`). -/
theorem C89_copy_partial (env : Env) (io : Io) (fs : FS) (src d : Path) (n : Name)
    (data : List Byte) (ht : Tree fs) (hs : At fs src (.reg data)) (hr : env.noRead src = false)
    (hd : At fs d .dir) (hf : Free fs (n :: d)) (hw : env.noWrite d = false)
    (hlen : data.length < 2 ^ 31) (hroom : data.length ≤ io.room)
    (hbad : ∀ i, io.bad = some i → data.length ≤ i) :
    ∃ fs', fcopy env io fs (some src) (some (n :: d)) = .ok (fs', 0) ∧
      At fs' (n :: d) (.reg data) ∧ (∀ o, At fs' (n :: d) o → o = .reg data) ∧
      ∀ q o, q ≠ n :: d → (At fs' q o ↔ At fs q o) := by
  have hc := copyLoop_all io data 0 ⟨[], []⟩ (by simpa using hroom)
    (fun i hi => by have := hbad i hi; omega)
  refine ⟨fs.add (n :: d) (.reg data), ?_, ?_⟩
  · have h1 : fexist fs src = true := by simp [fexist, stat_at ht hs (by simp)]
    have h2 : fexist fs (n :: d) = false := by simp [fexist, stat, resolve_missing ht hd hf]
    have h3 : openRead env fs src = .ok data := by
      simp [openRead, resolve_at ht hs (by simp), get_of_at ht hs, hr]
    simp only [fcopy, h1, h2, Bool.true_eq_false, Bool.false_eq_true, or_self, if_false]
    unfold fileCopy
    rw [h3, resolve_missing ht hd hf]
    simp only [hw, Bool.false_eq_true, if_false, hc.1, hc.2]
    rw [if_pos (by simp only [INT_MAX]; omega)]
    simp only [Except.map, List.nil_append, Nat.zero_add]
    congr 2
    split <;> omega
  · exact at_add (by simp) hf _

example : ∃ fs', fcopy ⟨fun _ => false, fun _ => false, fun _ => false⟩ ⟨none, 100, 2⟩
    [([lit "a"], .reg [1, 2, 3]), ([lit "d"], .dir)] (some [lit "a"])
    (some [lit "b", lit "d"]) = .ok (fs', 0) ∧ At fs' [lit "b", lit "d"] (.reg [1, 2, 3]) := by
  obtain ⟨fs', h1, h2, -⟩ := C89_copy_partial ⟨fun _ => false, fun _ => false, fun _ => false⟩
    ⟨none, 100, 2⟩ [([lit "a"], .reg [1, 2, 3]), ([lit "d"], .dir)] [lit "a"] [lit "d"] (lit "b")
    [1, 2, 3] ⟨by decide +kernel, by simp, by
      intro n p o h
      simp only [List.mem_cons, Prod.mk.injEq, List.cons.injEq, List.not_mem_nil, or_false] at h
      rcases h with ⟨⟨-, rfl⟩, -⟩ | ⟨⟨-, rfl⟩, -⟩ <;> exact .inl ⟨rfl, rfl⟩⟩
    (.inr (by simp)) rfl (.inr (by simp))
    (by
      rintro o (⟨h, -⟩ | h)
      · cases h
      · simp at h)
    rfl (by simp) (by simp) (by simp)
  exact ⟨fs', h1, h2⟩

/-- **Finding.**  Under the same conditions, but for a file of 2 GiB or more: the counter of the
bytes copied overflows, so nothing is known about the copy. -/
theorem C89_big (env : Env) (io : Io) (fs : FS) (src d : Path) (n : Name)
    (data : List Byte) (ht : Tree fs) (hs : At fs src (.reg data)) (hr : env.noRead src = false)
    (hd : At fs d .dir) (hf : Free fs (n :: d)) (hw : env.noWrite d = false)
    (hlen : 2 ^ 31 ≤ data.length) (hroom : data.length ≤ io.room)
    (hbad : ∀ i, io.bad = some i → data.length ≤ i) :
    fcopy env io fs (some src) (some (n :: d)) = .error .intOverflow := by
  have hc := copyLoop_all io data 0 ⟨[], []⟩ (by simpa using hroom)
    (fun i hi => by have := hbad i hi; omega)
  have h1 : fexist fs src = true := by simp [fexist, stat_at ht hs (by simp)]
  have h2 : fexist fs (n :: d) = false := by simp [fexist, stat, resolve_missing ht hd hf]
  have h3 : openRead env fs src = .ok data := by
    simp [openRead, resolve_at ht hs (by simp), get_of_at ht hs, hr]
  simp only [fcopy, h1, h2, Bool.true_eq_false, Bool.false_eq_true, or_self, if_false]
  unfold fileCopy
  rw [h3, resolve_missing ht hd hf]
  simp only [hw, Bool.false_eq_true, if_false, hc.1, hc.2]
  rw [if_neg (by simp only [INT_MAX]; omega)]
  rfl

/-- A file of 3 GiB. -/
example (data : List Byte) (h : data.length = 3 * 2 ^ 30) :
    fcopy ⟨fun _ => false, fun _ => false, fun _ => false⟩ ⟨none, 2 ^ 40, 4096⟩
      [([lit "a"], .reg data), ([lit "d"], .dir)] (some [lit "a"]) (some [lit "b", lit "d"]) = .error .intOverflow :=
  C89_big _ _ _ [lit "a"] [lit "d"] (lit "b") data
    (tree_of_check (by simp only [List.map]; decide +kernel) (by simp) (by simp)) (.inr (by simp)) rfl (.inr (by simp))
    (free_of_check (by simp)) rfl (by omega) (by simp only; omega) (by simp)

/-- **C89, safety.**  Whatever happens during a copy, nothing that existed is changed or
removed, at most one file is new, its name was free, and what it holds is the beginning of
the source (of a source that is not a regular file: nothing). -/
theorem C89_never_overwrites (env : Env) (io : Io) (fs : FS) (src dst : Option Path) (fs' : FS)
    (r : Int) (h : fcopy env io fs src dst = .ok (fs', r)) :
    fs' = fs ∨ ∃ q b s p, fs' = (q, .reg b) :: fs ∧ q ≠ [] ∧ fs.get q = none ∧
      src = some s ∧ resolve fs s = .at p ∧ ∀ data, fs.get p = some (.reg data) → b <+: data := by
  unfold fcopy at h
  split at h
  · rename_i s d
    split at h
    · injection h with h; injection h with h1 h2; exact .inl h1.symm
    · cases hc : fileCopy env io fs s d with
      | error e => rw [hc] at h; cases h
      | ok v =>
        rw [hc] at h
        injection h with h; injection h with h1 h2
        subst h1
        unfold fileCopy at hc
        split at hc
        · injection hc with hc; rw [← hc]; exact .inl rfl
        · rename_i data ho
          split at hc
          · rename_i dd n hres
            split at hc
            · injection hc with hc; rw [← hc]; exact .inl rfl
            · dsimp only at hc
              split at hc
              · injection hc with hc
                rw [← hc]
                have hp : ∃ p, resolve fs s = .at p ∧
                    ∀ data', fs.get p = some (.reg data') → data = data' := by
                  unfold openRead at ho
                  split at ho
                  · rename_i q hq
                    refine ⟨q, hq, fun data' hg => ?_⟩
                    rw [hg] at ho
                    dsimp only at ho
                    split at ho
                    · cases ho
                    · injection ho with ho; exact ho.symm
                  · cases ho
                  · cases ho
                obtain ⟨p, hp1, hp2⟩ := hp
                refine .inr ⟨n :: dd, _, s, p, rfl, by simp, (resolve_miss hres).2, rfl, hp1, ?_⟩
                intro data' hg
                rw [← hp2 data' hg]
                have := copyLoop_prefix io data 0 ⟨[], []⟩ [] (.inl (List.prefix_refl _)) rfl
                simpa using this
              · cases hc
          · injection hc with hc; rw [← hc]; exact .inl rfl
          · injection hc with hc; rw [← hc]; exact .inl rfl
  · injection h with h; injection h with h1 h2; exact .inl h1.symm

/-- A missing source and an existing destination are refused, and nothing happens. -/
theorem C89_refused (env : Env) (io : Io) (fs : FS) (src dst : Path) (ht : Tree fs)
    (h : (∃ n d, src = n :: d ∧ At fs d .dir ∧ Free fs src) ∨
      ∃ o, At fs dst o ∧ ∀ t, o ≠ .link t) :
    fcopy env io fs (some src) (some dst) = .ok (fs, -17) := by
  unfold fcopy
  dsimp only
  rw [if_pos]
  rcases h with ⟨n, d, rfl, hd, hf⟩ | ⟨o, ho, hl⟩
  · exact .inl (by simp [fexist, stat, resolve_missing ht hd hf])
  · exact .inr (by simp [fexist, stat_at ht ho hl])

example : fcopy ⟨fun _ => false, fun _ => false, fun _ => false⟩ ⟨none, 100, 2⟩
    [([lit "a"], .reg [1, 2, 3]), ([lit "b"], .reg [4])] (some [lit "a"]) (some [lit "b"]) =
    .ok ([([lit "a"], .reg [1, 2, 3]), ([lit "b"], .reg [4])], -17) := by
  refine C89_refused _ _ _ _ _ ⟨by decide +kernel, by simp, ?_⟩
    (.inr ⟨.reg [4], .inr (by simp), by simp⟩)
  intro n p o h
  simp only [List.mem_cons, Prod.mk.injEq, List.cons.injEq, List.not_mem_nil, or_false] at h
  rcases h with ⟨⟨-, rfl⟩, -⟩ | ⟨⟨-, rfl⟩, -⟩ <;> exact .inl ⟨rfl, rfl⟩

/-- **Finding.**  A file that fits into the buffer of a stream, on a disk without enough
room: success is reported, but the copy is cut off where the disk was full. -/
theorem C89_disk_full (env : Env) (io : Io) (fs : FS) (src d : Path) (n : Name)
    (data : List Byte) (ht : Tree fs) (hs : At fs src (.reg data)) (hr : env.noRead src = false)
    (hd : At fs d .dir) (hf : Free fs (n :: d)) (hw : env.noWrite d = false)
    (hlen : data.length < 2 ^ 31) (hblock : data.length ≤ io.block) (hbad : io.bad = none) :
    fcopy env io fs (some src) (some (n :: d)) =
      .ok ((n :: d, .reg (data.take io.room)) :: fs, 0) := by
  have hc := copyLoop_buffer io hbad data 0 ⟨[], []⟩ (by simpa using hblock)
  have h1 : fexist fs src = true := by simp [fexist, stat_at ht hs (by simp)]
  have h2 : fexist fs (n :: d) = false := by simp [fexist, stat, resolve_missing ht hd hf]
  have h3 : openRead env fs src = .ok data := by
    simp [openRead, resolve_at ht hs (by simp), get_of_at ht hs, hr]
  simp only [fcopy, h1, h2, Bool.true_eq_false, Bool.false_eq_true, or_self, if_false]
  unfold fileCopy
  rw [h3, resolve_missing ht hd hf]
  simp only [hw, Bool.false_eq_true, if_false, hc]
  rw [if_pos (by simp only [INT_MAX]; omega)]
  simp only [Except.map, List.nil_append, Nat.zero_add, Out.flush, List.length_nil, Nat.sub_zero,
    FS.add]
  congr 2
  split <;> omega

/-- Three bytes on a disk that has room for one. -/
example : fcopy ⟨fun _ => false, fun _ => false, fun _ => false⟩ ⟨none, 1, 4096⟩
    [([lit "a"], .reg [1, 2, 3])] (some [lit "a"]) (some [lit "b"]) =
    .ok ([([lit "b"], .reg [1]), ([lit "a"], .reg [1, 2, 3])], 0) := by
  refine C89_disk_full _ _ _ [lit "a"] [] (lit "b") [1, 2, 3] ⟨by decide +kernel, by simp, ?_⟩ (.inr (by simp)) rfl
    (.inl ⟨rfl, rfl⟩) ?_ rfl (by simp) (by simp) rfl
  · intro n p o h
    simp only [List.mem_cons, Prod.mk.injEq, List.cons.injEq, List.not_mem_nil, or_false] at h
    obtain ⟨⟨-, rfl⟩, -⟩ := h
    exact .inl ⟨rfl, rfl⟩
  · rintro o (⟨h, -⟩ | h)
    · cases h
    · simp only [List.mem_cons, Prod.mk.injEq, List.cons.injEq, List.not_mem_nil, or_false] at h
      exact absurd h.1.1 (by decide +kernel)

/-- **Finding.**  Reading fails in the middle of the file: success is reported, and the copy
ends there. -/
theorem C89_read_error (env : Env) (io : Io) (fs : FS) (src d : Path) (n : Name)
    (data : List Byte) (i : Nat) (ht : Tree fs) (hs : At fs src (.reg data))
    (hr : env.noRead src = false) (hd : At fs d .dir) (hf : Free fs (n :: d))
    (hw : env.noWrite d = false) (hlen : data.length < 2 ^ 31) (hroom : data.length ≤ io.room)
    (hbad : io.bad = some i) (hi : i < data.length) :
    fcopy env io fs (some src) (some (n :: d)) =
      .ok ((n :: d, .reg (data.take i)) :: fs, 0) := by
  have hc := copyLoop_bad io i hbad data 0 ⟨[], []⟩ (by simpa using hroom) (by omega) (by omega)
  have h1 : fexist fs src = true := by simp [fexist, stat_at ht hs (by simp)]
  have h2 : fexist fs (n :: d) = false := by simp [fexist, stat, resolve_missing ht hd hf]
  have h3 : openRead env fs src = .ok data := by
    simp [openRead, resolve_at ht hs (by simp), get_of_at ht hs, hr]
  simp only [fcopy, h1, h2, Bool.true_eq_false, Bool.false_eq_true, or_self, if_false]
  unfold fileCopy
  rw [h3, resolve_missing ht hd hf]
  simp only [hw, Bool.false_eq_true, if_false, hc.1, hc.2]
  rw [if_pos (by simp only [INT_MAX]; omega)]
  simp only [Except.map, List.nil_append, Nat.sub_zero, FS.add]
  congr 2
  split <;> omega

example : fcopy exEnv ⟨some 2, 100, 4096⟩ exTree (some [lit "x"]) (some [lit "y", lit "t"]) =
    .ok (([lit "y", lit "t"], .reg [2, 3]) :: exTree, 0) :=
  C89_read_error exEnv _ exTree [lit "x"] [lit "t"] (lit "y") [2, 3, 4] 2 exTree_tree
    (.inr (by decide +kernel)) rfl (.inr (by decide +kernel)) (free_of_check (by decide +kernel)) rfl
    (by simp) (by simp) rfl (by simp)

/-- **Finding.**  "Copying" a directory succeeds; the copy is an empty file. -/
theorem C89_directory (env : Env) (io : Io) (fs : FS) (src d : Path) (n : Name)
    (ht : Tree fs) (hs : At fs src .dir) (hd : At fs d .dir) (hf : Free fs (n :: d))
    (hw : env.noWrite d = false) :
    fcopy env io fs (some src) (some (n :: d)) = .ok ((n :: d, .reg []) :: fs, 0) := by
  have h1 : fexist fs src = true := by simp [fexist, stat_at ht hs (by simp)]
  have h2 : fexist fs (n :: d) = false := by simp [fexist, stat, resolve_missing ht hd hf]
  have h3 : openRead env fs src = .ok [] := by
    simp [openRead, resolve_at ht hs (by simp), get_of_at ht hs]
  simp only [fcopy, h1, h2, Bool.true_eq_false, Bool.false_eq_true, or_self, if_false]
  unfold fileCopy
  rw [h3, resolve_missing ht hd hf]
  simp [hw, copyLoop, Out.flush, INT_MAX, Except.map, FS.add]

example : fcopy exEnv ⟨none, 100, 4096⟩ exTree (some [lit "t"]) (some [lit "y"]) =
    .ok (([lit "y"], .reg []) :: exTree, 0) :=
  C89_directory exEnv _ exTree [lit "t"] [] (lit "y") exTree_tree
    (.inr (by decide +kernel)) (.inl ⟨rfl, rfl⟩) (free_of_check (by decide +kernel)) rfl

/-! ### C90 -/

/-- **C90, partial.**  A tree of regular files and directories that can be listed and
removed, with names that fit into `PATH_MAX`: the call returns 0, the tree is gone, and
everything else is as before.  Missing: symbolic links and special files in the tree
(`C90_link`, `C90_dangling`, `C90_special`), and a directory that cannot be opened or a name
that is too long ends the program (`C90_unreadable`, `C90_long`). -/
theorem C90_remove_partial (env : Env) (fs : FS) (n : Name) (d : Path) (o : Obj)
    (ht : Tree fs) (hat : At fs (n :: d) o) (hp : Plain env fs (n :: d))
    (hw : env.noWrite d = false) :
    ∃ fs', fremoveRecursive env fs (n :: d) = .ok (fs', 0) ∧
      ∀ q o, At fs' q o ↔ At fs q o ∧ ¬ Below (n :: d) q := by
  have hm : (n :: d, o) ∈ fs := by
    rcases hat with ⟨h, -⟩ | h
    · cases h
    · exact h
  refine ⟨without fs (Below (n :: d)), ?_, ?_⟩
  · unfold fremoveRecursive
    rw [removeRecursive_plain env _ fs n d (Nat.le_refl _) ht hp hw ⟨o, hm⟩]
    rfl
  · intro q o
    constructor
    · rintro (⟨rfl, rfl⟩ | h)
      · refine ⟨.inl ⟨rfl, rfl⟩, fun h => ?_⟩
        have := h.length_le; simp at this
      · obtain ⟨h1, h2⟩ := mem_without.1 h
        exact ⟨.inr h1, h2⟩
    · rintro ⟨h | h, h2⟩
      · exact .inl h
      · exact .inr (mem_without.2 ⟨h, h2⟩)

example : ∃ fs', fremoveRecursive exEnv exTree [lit "t"] = .ok (fs', 0) ∧
    At fs' [lit "x"] (.reg [2, 3, 4]) ∧ Free fs' [lit "g", lit "u", lit "t"] := by
  obtain ⟨fs', h1, h2⟩ := C90_remove_partial exEnv exTree (lit "t") [] .dir
    (tree_of_check (by decide +kernel) (by decide +kernel) (by decide +kernel))
    (.inr (by decide +kernel))
    { kinds := fun q o hb h => by
        simp only [exTree, List.mem_cons, Prod.mk.injEq, List.not_mem_nil, or_false] at h
        rcases h with ⟨-, rfl⟩ | ⟨-, rfl⟩ | ⟨-, rfl⟩ | ⟨-, rfl⟩ | ⟨-, rfl⟩ | ⟨rfl, rfl⟩
        all_goals first
          | exact absurd hb (by unfold Below; decide +kernel)
          | simp
      short := fun q o _ h => by
        simp only [exTree, List.mem_cons, Prod.mk.injEq, List.not_mem_nil, or_false] at h
        rcases h with ⟨rfl, -⟩ | ⟨rfl, -⟩ | ⟨rfl, -⟩ | ⟨rfl, -⟩ | ⟨rfl, -⟩ | ⟨rfl, -⟩ <;> decide +kernel
      list := fun _ _ => rfl
      write := fun _ _ => rfl } rfl
  refine ⟨fs', h1, (h2 _ _).2 ⟨.inr (by decide +kernel), by unfold Below; decide +kernel⟩, ?_⟩
  intro o h
  exact ((h2 _ _).1 h).2 (by unfold Below; decide +kernel)

/-- **C90, safety.**  Whatever is in the tree: no file is changed and none is created; what
is left was there before, in the same order. -/
theorem C90_only_removes (env : Env) (fs : FS) (p : Path) (fs' : FS) (r : Int)
    (h : fremoveRecursive env fs p = .ok (fs', r)) : fs'.Sublist fs ∧ r = 0 := by
  unfold fremoveRecursive at h
  cases hr : removeRecursive env fs p with
  | error e => rw [hr] at h; cases h
  | ok v =>
    rw [hr] at h
    injection h with h; injection h with h1 h2
    subst h1
    exact ⟨removeRecursive_sublist env _ fs p v (Nat.le_refl _) hr, h2.symm⟩

/-- Something that does not exist: nothing happens. -/
theorem C90_nothing (env : Env) (fs : FS) (n : Name) (d : Path) (ht : Tree fs)
    (hd : At fs d .dir) (hf : Free fs (n :: d)) :
    fremoveRecursive env fs (n :: d) = .ok (fs, 0) := by
  unfold fremoveRecursive removeRecursive
  simp [stat, resolve_missing ht hd hf, Except.map]

example : fremoveRecursive exEnv exTree [lit "y"] = .ok (exTree, 0) :=
  C90_nothing exEnv exTree _ _ exTree_tree (.inl ⟨rfl, rfl⟩) (free_of_check (by decide +kernel))

/-- **Finding.**  A symbolic link that leads to a directory elsewhere, `t`: the file in that
directory is removed, although it is not below the path, the link stays, and 0 is returned. -/
theorem C90_link (env : Env) (fs : FS) (n m : Name) (d t : Path) (b : List Byte) (ht : Tree fs)
    (hl : At fs (n :: d) (.link t)) (hd : At fs t .dir) (hm : At fs (m :: t) (.reg b))
    (hone : fs.names t = [m]) (hlist : env.noList t = false) (hw : env.noWrite t = false)
    (hlen : textLength (m :: n :: d) < PATH_MAX) :
    ∃ fs', fremoveRecursive env fs (n :: d) = .ok (fs', 0) ∧ Free fs' (m :: t) ∧
      At fs' (n :: d) (.link t) ∧ ¬ Below (n :: d) (m :: t) := by
  rw [← strlen_eq] at hlen
  have h1 : resolve fs (n :: d) = .at t := by
    simpa using resolve_link_at ht hl [] (by simpa using hd) (by simp)
  have h2 : resolve fs (m :: n :: d) = .at (m :: t) := by
    simpa using resolve_link_at ht hl [m] (by simpa using hm) (by simp)
  have hne : n :: d ≠ m :: t := by
    intro h
    have := get_of_at ht hl
    rw [h, get_of_at ht hm] at this; cases this
  have hin : removeRecursive env fs (m :: n :: d) = .ok (fs.erase (m :: t)) := by
    unfold removeRecursive
    simp only [stat, h2, get_of_at ht hm, Option.map_some]
    simp only [unlink, resolveLast, h1, get_of_at ht hd, if_true, get_of_at ht hm, hw,
      Bool.false_eq_true, if_false, Option.some.injEq, reduceCtorEq]
  have ht' : Tree (fs.erase (m :: t)) := by
    rw [erase_eq_without]
    refine ⟨?_, fun o h => ht.root o (mem_without.1 h).1, ?_⟩
    · classical
      exact ht.one.sublist (List.filter_sublist.map _)
    · intro x p o h
      obtain ⟨h3, h4⟩ := mem_without.1 h
      rcases ht.parent x p o h3 with ⟨h5, -⟩ | h5
      · exact .inl ⟨h5, rfl⟩
      · refine .inr (mem_without.2 ⟨h5, fun hp => ?_⟩)
        have := get_of_at ht (.inr h5)
        rw [hp, get_of_at ht hm] at this; cases this
  have hl' : At (fs.erase (m :: t)) (n :: d) (.link t) := by
    rw [erase_eq_without]
    rcases hl with ⟨h, -⟩ | h
    · cases h
    · exact .inr (mem_without.2 ⟨h, hne⟩)
  refine ⟨fs.erase (m :: t), ?_, ?_, hl', ?_⟩
  · unfold fremoveRecursive removeRecursive
    simp only [stat, h1, get_of_at ht hd, Option.map_some]
    rw [if_neg (by rw [hlist]; simp), hone, List.foldlM_cons, dif_pos hlen, hin]
    show Except.map _ (Except.map _ (Except.ok _)) = _
    simp only [Except.map, rmdir, resolveLast_at ht' hl', get_of_at ht' hl']
    simp
  · rw [erase_eq_without]
    rintro o (⟨h, -⟩ | h)
    · cases h
    · exact (mem_without.1 h).2 rfl
  · rintro ⟨l, h⟩
    by_cases he : l = []
    · subst he; exact hne h
    · have := get_of_at ht (At.up ht l (p := n :: d) (by rw [h]; exact hm) he)
      rw [get_of_at ht hl] at this; cases this

/-- Removing `/t/l`, a link to `/home`, removes `/home/f`. -/
example : ∃ fs', fremoveRecursive exEnv
    [([lit "t"], .dir), ([lit "l", lit "t"], .link [lit "home"]), ([lit "home"], .dir),
      ([lit "f", lit "home"], .reg [1])] [lit "l", lit "t"] = .ok (fs', 0) ∧
    Free fs' [lit "f", lit "home"] := by
  obtain ⟨fs', h1, h2, -⟩ := C90_link exEnv
    [([lit "t"], .dir), ([lit "l", lit "t"], .link [lit "home"]), ([lit "home"], .dir),
      ([lit "f", lit "home"], .reg [1])] (lit "l") (lit "f") [lit "t"] [lit "home"] [1]
    (tree_of_check (by decide +kernel) (by decide +kernel) (by decide +kernel))
    (.inr (by decide +kernel)) (.inr (by decide +kernel)) (.inr (by decide +kernel))
    (by decide +kernel) rfl rfl (by decide +kernel)
  exact ⟨fs', h1, h2⟩

/-- **Finding.**  A link that leads nowhere is left; 0 is returned. -/
theorem C90_dangling (env : Env) (fs : FS) (n m : Name) (d d' : Path) (ht : Tree fs)
    (h : At fs (n :: d) (.link (m :: d'))) (hd : At fs d' .dir) (hf : Free fs (m :: d')) :
    fremoveRecursive env fs (n :: d) = .ok (fs, 0) := by
  unfold fremoveRecursive removeRecursive
  simp [stat, resolve_link_missing ht h hd hf, Except.map]

/-- **Finding.**  A pipe or a socket is left wherever it is, and 0 is returned. -/
theorem C90_special (env : Env) (fs : FS) (p : Path) (ht : Tree fs) (h : At fs p .special) :
    fremoveRecursive env fs p = .ok (fs, 0) := by
  unfold fremoveRecursive removeRecursive
  simp [stat_at ht h, Except.map]

example : fremoveRecursive exEnv exTree [lit "p"] = .ok (exTree, 0) :=
  C90_special exEnv exTree _ exTree_tree (.inr (by decide +kernel))

/-- **Finding.**  A directory that cannot be listed ends the program. -/
theorem C90_unreadable (env : Env) (fs : FS) (p : Path) (ht : Tree fs) (h : At fs p .dir)
    (hl : env.noList p = true) : fremoveRecursive env fs p = .error .nullDir := by
  unfold fremoveRecursive removeRecursive
  simp [stat_at ht h, hl, Except.map]

example : fremoveRecursive ⟨fun _ => true, fun _ => false, fun _ => false⟩ exTree [lit "t"] =
    .error .nullDir :=
  C90_unreadable _ exTree _ exTree_tree (.inr (by decide +kernel)) rfl

/-- **Finding.**  A directory whose first file has a path of `PATH_MAX` bytes or more: the
path is written behind the end of the buffer. -/
theorem C90_long (env : Env) (fs : FS) (p : Path) (n : Name) (ns : List Name) (ht : Tree fs)
    (h : At fs p .dir) (hl : env.noList p = false) (hn : fs.names p = n :: ns)
    (hlen : PATH_MAX ≤ textLength (n :: p)) :
    fremoveRecursive env fs p = .error .nameTooLong := by
  rw [← strlen_eq] at hlen
  unfold fremoveRecursive removeRecursive
  rw [stat_at ht h (by simp)]
  dsimp only
  rw [hl, hn, List.foldlM_cons, dif_neg (by omega)]
  rfl

example (n : Name) (hn : n.length = 4096) :
    fremoveRecursive exEnv [([lit "t"], .dir), ([n, lit "t"], .reg [])] [lit "t"] =
      .error .nameTooLong :=
  C90_long exEnv _ [lit "t"] n [] (tree_of_check (by simp) (by simp) (by simp)) (.inr (by simp)) rfl
    (by simp [FS.names]) (by simp [textLength, hn, PATH_MAX]; omega)

/-! ### C91 -/

/-- **C91, partial.**  A free name in a directory where files can be created: the file
exists afterwards and has `size` bytes `0xff`, everything else is as before, and 0 is
returned, if the disk has room.  Missing: without room, the file is shorter and 0 is returned
(`C91_disk_full`). -/
theorem C91_touch_partial (env : Env) (io : Io) (fs : FS) (n : Name) (d : Path) (size : Nat)
    (ht : Tree fs) (hd : At fs d .dir) (hf : Free fs (n :: d)) (hw : env.noWrite d = false)
    (hlen : size < 2 ^ 31) (hroom : size ≤ io.room) :
    ∃ fs', ftouch env io fs (some (n :: d)) size = .ok (fs', 0) ∧
      (∃ b, At fs' (n :: d) (.reg b) ∧ b.length = size ∧ ∀ c ∈ b, c = 0xff) ∧
      ∀ q o, q ≠ n :: d → (At fs' q o ↔ At fs q o) := by
  refine ⟨fs.add (n :: d) (.reg (List.replicate size 0xff)), ?_, ?_⟩
  · have h2 : fexist fs (n :: d) = false := by simp [fexist, stat, resolve_missing ht hd hf]
    simp only [ftouch, h2, Bool.false_eq_true, if_false, resolveLast_missing ht hd hf, hw]
    rw [if_pos (by simp only [INT_MAX]; omega), Nat.min_eq_left hroom]
  · obtain ⟨h1, -, h3⟩ := at_add (fs := fs) (p := n :: d) (by simp) hf
      (.reg (List.replicate size 0xff))
    exact ⟨⟨_, h1, by simp, fun c hc => (List.mem_replicate.1 hc).2⟩, h3⟩

/-- **C91, safety.**  What exists is not touched: a regular file gives 0, a directory, a
special file or a link gives an error, and nothing is changed. -/
theorem C91_existing (env : Env) (io : Io) (fs : FS) (p : Path) (o : Obj) (size : Nat)
    (ht : Tree fs) (h : At fs p o) :
    ∃ r, ftouch env io fs (some p) size = .ok (fs, r) ∧ (r = 0 ↔ ∃ b, o = .reg b) := by
  have hl := lstat_at ht h
  unfold ftouch
  dsimp only
  by_cases he : fexist fs p = true
  · rw [if_pos he, hl]
    cases o with
    | reg b => exact ⟨0, rfl, by simp⟩
    | _ => exact ⟨-1, rfl, by simp⟩
  · rw [if_neg he]
    cases o with
    | link t =>
      cases p with
      | nil =>
        rcases h with ⟨-, h⟩ | h
        · cases h
        · exact absurd h (ht.root _)
      | cons n d =>
        rw [resolveLast_at ht h]
        exact ⟨-17, rfl, by simp⟩
    | _ => exact absurd (by simp [fexist, stat_at ht h (by simp)]) he

example : (∃ r, ftouch exEnv ⟨none, 100, 1⟩ exTree (some [lit "x"]) 64 = .ok (exTree, r) ∧ r = 0) ∧
    ∃ r, ftouch exEnv ⟨none, 100, 1⟩ exTree (some [lit "t"]) 64 = .ok (exTree, r) ∧ r ≠ 0 := by
  obtain ⟨r, h1, h2⟩ := C91_existing exEnv ⟨none, 100, 1⟩ exTree [lit "x"] _ 64 exTree_tree
    (.inr (by decide +kernel : ([lit "x"], Obj.reg [2, 3, 4]) ∈ exTree))
  obtain ⟨r', h3, h4⟩ := C91_existing exEnv ⟨none, 100, 1⟩ exTree [lit "t"] _ 64 exTree_tree
    (.inr (by decide +kernel : ([lit "t"], Obj.dir) ∈ exTree))
  exact ⟨⟨r, h1, h2.2 ⟨_, rfl⟩⟩, r', h3, fun h => by obtain ⟨b, hb⟩ := h4.1 h; cases hb⟩

/-- For every outcome: what existed is unchanged, and at most one file is new. -/
theorem C91_keeps (env : Env) (io : Io) (fs : FS) (p : Option Path) (size : Nat) (fs' : FS)
    (r : Int) (h : ftouch env io fs p size = .ok (fs', r)) :
    fs' = fs ∨ ∃ q b, fs' = (q, .reg b) :: fs ∧ fs.get q = none ∧ r = 0 := by
  unfold ftouch at h
  split at h
  · injection h with h; injection h with h1 h2; exact .inl h1.symm
  · split at h
    · split at h
      · injection h with h; injection h with h1 h2; exact .inl h1.symm
      · injection h with h; injection h with h1 h2; exact .inl h1.symm
    · split at h
      · injection h with h; injection h with h1 h2; exact .inl h1.symm
      · rename_i hm
        split at h
        · injection h with h; injection h with h1 h2; exact .inl h1.symm
        · split at h
          · injection h with h; injection h with h1 h2
            exact .inr ⟨_, _, h1.symm, (resolveLast_miss hm).2, h2.symm⟩
          · cases h
      · injection h with h; injection h with h1 h2; exact .inl h1.symm

example : ∃ fs', ftouch exEnv ⟨none, 100, 1⟩ exTree (some [lit "y", lit "t"]) 64 = .ok (fs', 0) := by
  obtain ⟨fs', h, -⟩ := C91_touch_partial exEnv ⟨none, 100, 1⟩ exTree (lit "y") [lit "t"] 64
    (tree_of_check (by decide +kernel) (by decide +kernel) (by decide +kernel))
    (.inr (by decide +kernel))
    (free_of_check (by decide +kernel)) rfl (by omega) (by simp)
  exact ⟨fs', h⟩

/-- **Finding.**  Asked for 2 GiB or more, the counter overflows. -/
theorem C91_big (env : Env) (io : Io) (fs : FS) (n : Name) (d : Path) (size : Nat)
    (ht : Tree fs) (hd : At fs d .dir) (hf : Free fs (n :: d)) (hw : env.noWrite d = false) (hlen : 2 ^ 31 ≤ size) :
    ftouch env io fs (some (n :: d)) size = .error .intOverflow := by
  have h2 : fexist fs (n :: d) = false := by simp [fexist, stat, resolve_missing ht hd hf]
  simp only [ftouch, h2, Bool.false_eq_true, if_false, resolveLast_missing ht hd hf, hw]
  rw [if_neg (by simp only [INT_MAX]; omega)]

example : ftouch exEnv ⟨none, 100, 1⟩ exTree (some [lit "y", lit "t"]) (2 ^ 31) = .error .intOverflow :=
  C91_big exEnv ⟨none, 100, 1⟩ exTree (lit "y") [lit "t"] _
    (tree_of_check (by decide +kernel) (by decide +kernel) (by decide +kernel)) (.inr (by decide +kernel))
    (free_of_check (by decide +kernel)) rfl (Nat.le_refl _)

/-- **Finding.**  The disk is full: the file is shorter than asked, and 0 is returned. -/
theorem C91_disk_full (env : Env) (io : Io) (fs : FS) (n : Name) (d : Path) (size : Nat)
    (ht : Tree fs) (hd : At fs d .dir) (hf : Free fs (n :: d)) (hw : env.noWrite d = false)
    (hlen : size < 2 ^ 31) (hroom : io.room < size) :
    ftouch env io fs (some (n :: d)) size =
      .ok ((n :: d, .reg (List.replicate io.room 0xff)) :: fs, 0) := by
  have h2 : fexist fs (n :: d) = false := by simp [fexist, stat, resolve_missing ht hd hf]
  simp only [ftouch, h2, Bool.false_eq_true, if_false, resolveLast_missing ht hd hf, hw]
  rw [if_pos (by simp only [INT_MAX]; omega), Nat.min_eq_right (by omega)]
  rfl

example : ftouch exEnv ⟨none, 2, 1⟩ exTree (some [lit "y", lit "t"]) 64 =
    .ok (([lit "y", lit "t"], .reg [0xff, 0xff]) :: exTree, 0) :=
  C91_disk_full exEnv ⟨none, 2, 1⟩ exTree (lit "y") [lit "t"] 64 exTree_tree
    (.inr (by decide +kernel)) (free_of_check (by decide +kernel)) rfl (by omega) (by simp)

/-- The test for a regular file: true exactly if a regular file is at the path itself; a link
to one does not count. -/
theorem C91_regular (fs : FS) (p : Path) (o : Obj) (ht : Tree fs) (h : At fs p o) :
    fregular fs p = true ↔ ∃ b, o = .reg b := by
  unfold fregular
  rw [lstat_at ht h]
  cases o with
  | reg b => simp [fexist, stat_at ht h]
  | dir => simp
  | link t => simp
  | special => simp

example : fregular exTree [lit "x"] = true ∧ fregular exTree [lit "t"] ≠ true :=
  ⟨(C91_regular exTree _ _ exTree_tree
      (.inr (by decide +kernel : ([lit "x"], Obj.reg [2, 3, 4]) ∈ exTree))).2 ⟨_, rfl⟩,
    fun h => by
      obtain ⟨b, hb⟩ := (C91_regular exTree _ _ exTree_tree
        (.inr (by decide +kernel : ([lit "t"], Obj.dir) ∈ exTree))).1 h
      cases hb⟩

/-- The test for existence: something that is not a link exists; a free name in a directory
does not. -/
theorem C91_exists (fs : FS) (ht : Tree fs) :
    (∀ p o, At fs p o → (∀ t, o ≠ .link t) → fexist fs p = true) ∧
    ∀ n d, At fs d .dir → Free fs (n :: d) → fexist fs (n :: d) = false :=
  ⟨fun p o h hl => by simp [fexist, stat_at ht h hl],
    fun n d hd hf => by simp [fexist, stat, resolve_missing ht hd hf]⟩

/-- Removing one file: a file or an empty directory is gone afterwards and 0 is returned; a
directory that is not empty stays and -1 is returned.  Nothing else changes. -/
theorem C91_remove (env : Env) (fs : FS) (n : Name) (d : Path) (o : Obj) (ht : Tree fs)
    (h : At fs (n :: d) o) (hl : ∀ t, o ≠ .link t) (hw : env.noWrite d = false) :
    ((o = .dir ∧ ∃ m o', At fs (m :: n :: d) o') → fremove env fs (some (n :: d)) = (fs, -1)) ∧
    (¬ (o = .dir ∧ ∃ m o', At fs (m :: n :: d) o') →
      ∃ fs', fremove env fs (some (n :: d)) = (fs', 0) ∧
        ∀ q o', At fs' q o' ↔ At fs q o' ∧ q ≠ n :: d) := by
  have he : fexist fs (n :: d) = true := by simp [fexist, stat_at ht h hl]
  have hgone : ∀ q o', At (fs.erase (n :: d)) q o' ↔ At fs q o' ∧ q ≠ n :: d := by
    intro q o'
    simp only [At, FS.erase, List.mem_filter, decide_eq_true_eq]
    constructor
    · rintro (⟨rfl, rfl⟩ | h)
      · exact ⟨.inl ⟨rfl, rfl⟩, by simp⟩
      · exact ⟨.inr h.1, h.2⟩
    · rintro ⟨h | h, h2⟩
      · exact .inl h
      · exact .inr ⟨h, h2⟩
  have hnames : fs.names (n :: d) = [] ↔ ¬ ∃ m o', At fs (m :: n :: d) o' := by
    rw [List.eq_nil_iff_forall_not_mem]
    constructor
    · rintro h ⟨m, o', ho⟩
      rcases ho with ⟨ho, -⟩ | ho
      · cases ho
      · exact h m (names_mem.2 ⟨o', ho⟩)
    · intro h m hm
      obtain ⟨o', ho⟩ := names_mem.1 hm
      exact h ⟨m, o', .inr ho⟩
  have hres := resolveLast_at ht h
  have hget := get_of_at ht h
  unfold fremove
  dsimp only
  rw [if_neg (by rw [he]; simp), lstat_at ht h]
  constructor
  · rintro ⟨rfl, hx⟩
    rw [if_pos rfl]
    simp only [rmdir, hres, hw, Bool.false_eq_true, if_false, hget]
    rw [if_neg (fun hh => hnames.1 hh.2 hx)]
    simp
  · intro hx
    refine ⟨fs.erase (n :: d), ?_, hgone⟩
    by_cases ho : o = .dir
    · subst ho
      rw [if_pos rfl]
      simp only [rmdir, hres, hw, Bool.false_eq_true, if_false, hget]
      rw [if_pos ⟨trivial, hnames.2 (fun h => hx ⟨rfl, h⟩)⟩]
      simp
    · rw [if_neg (by simpa using ho)]
      simp only [unlink, hres, hw, Bool.false_eq_true, if_false, hget]
      rw [if_neg (by simpa using ho)]
      simp

example : fremove exEnv exTree (some [lit "t"]) = (exTree, -1) :=
  (C91_remove exEnv exTree (lit "t") [] .dir exTree_tree (.inr (by decide +kernel)) (by simp) rfl).1
    ⟨rfl, lit "f", .reg [1], .inr (by decide +kernel)⟩

/-- **Finding.**  Removing a link that leads nowhere: 0 is returned and the link stays. -/
theorem C91_dangling (env : Env) (fs : FS) (n m : Name) (d d' : Path) (ht : Tree fs)
    (h : At fs (n :: d) (.link (m :: d'))) (hd : At fs d' .dir) (hf : Free fs (m :: d')) :
    fremove env fs (some (n :: d)) = (fs, 0) := by
  have : fexist fs (n :: d) = false := by simp [fexist, stat, resolve_link_missing ht h hd hf]
  simp [fremove, this]

example : fremove exEnv [([lit "l"], .link [lit "gone"])] (some [lit "l"]) =
    ([([lit "l"], .link [lit "gone"])], 0) :=
  C91_dangling _ _ (lit "l") (lit "gone") [] []
    (tree_of_check (by decide +kernel) (by decide +kernel) (by decide +kernel))
    (.inr (by decide +kernel)) (.inl ⟨rfl, rfl⟩) (by
      rintro o (⟨h, -⟩ | h)
      · cases h
      · simp only [List.mem_cons, Prod.mk.injEq, List.not_mem_nil, or_false] at h
        exact absurd h.1 (by decide +kernel))

theorem walk_error {fs : FS} (k : Nat) (cur : Path) (rest : List Name) (e : Int)
    (h : walk fs k cur rest = .error e) : 0 < e := by
  fun_induction walk fs k cur rest with
  | case1 => cases h
  | case2 => cases h
  | case3 => injection h with h; omega
  | case4 => injection h with h; omega
  | case5 k n rest cur hd t hn ih => exact ih h
  | case6 k cur n rest hd o hn hg ih => exact ih h
  | case7 => injection h with h; omega

/-- **C89, 0 means copied.**  If 0 is returned, both paths were given and there is one new
regular file; a destination in a directory that cannot be written, for one, is an error. -/
theorem C89_success (env : Env) (io : Io) (fs : FS) (src dst : Option Path) (fs' : FS)
    (h : fcopy env io fs src dst = .ok (fs', 0)) :
    ∃ s d q b, src = some s ∧ dst = some d ∧ fs' = (q, .reg b) :: fs ∧ fs.get q = none := by
  unfold fcopy at h
  split at h
  · rename_i s d
    split at h
    · injection h with h; injection h with h1 h2; cases h2
    · cases hc : fileCopy env io fs s d with
      | error e => rw [hc] at h; cases h
      | ok v =>
        rw [hc] at h
        injection h with h; injection h with h1 h2
        unfold fileCopy at hc
        split at hc
        · rename_i e he
          injection hc with hc
          have : e < 0 := by
            unfold openRead at he
            split at he
            · split at he
              · split at he
                · injection he with he; omega
                · cases he
              · cases he
            · injection he with he; omega
            · rename_i e' hr
              have := walk_error _ _ _ _ hr
              injection he with he; omega
          rw [← hc] at h2
          dsimp only at h2
          split at h2 <;> omega
        · split at hc
          · rename_i dd n hres
            split at hc
            · injection hc with hc; rw [← hc] at h2; cases h2
            · dsimp only at hc
              split at hc
              · injection hc with hc
                rw [← hc] at h1
                exact ⟨s, d, n :: dd, _, rfl, rfl, h1.symm, (resolve_miss hres).2⟩
              · cases hc
          · injection hc with hc; rw [← hc] at h2; cases h2
          · rename_i e' hr
            have := walk_error _ _ _ _ hr
            injection hc with hc
            rw [← hc] at h2
            dsimp only at h2
            split at h2 <;> omega
  · injection h with h; injection h with h1 h2; cases h2

/-- A destination in a directory that cannot be written is refused, and so are NULL pointers. -/
theorem C89_denied (env : Env) (io : Io) (fs : FS) :
    (∀ src d n data, Tree fs → At fs src (.reg data) → At fs d .dir → Free fs (n :: d) →
      env.noRead src = true ∨ env.noWrite d = true →
      fcopy env io fs (some src) (some (n :: d)) = .ok (fs, -13)) ∧
    (∀ dst, fcopy env io fs none dst = .ok (fs, -22)) ∧
    ∀ src, fcopy env io fs src none = .ok (fs, -22) := by
  refine ⟨fun src d n data ht hs hd hf hno => ?_, fun _ => rfl, fun src => by cases src <;> rfl⟩
  have h1 : fexist fs src = true := by simp [fexist, stat_at ht hs (by simp)]
  have h2 : fexist fs (n :: d) = false := by simp [fexist, stat, resolve_missing ht hd hf]
  simp only [fcopy, h1, h2, Bool.true_eq_false, Bool.false_eq_true, or_self, if_false]
  unfold fileCopy openRead
  simp only [resolve_at ht hs (by simp), get_of_at ht hs]
  cases hr : env.noRead src with
  | true => simp [Except.map]
  | false =>
    have hw : env.noWrite d = true := by simpa [hr] using hno
    simp [resolve_missing ht hd hf, hw, Except.map]

example : fcopy ⟨fun _ => false, fun _ => true, fun _ => false⟩ ⟨none, 100, 1⟩ exTree
    (some [lit "x"]) (some [lit "y", lit "t"]) = .ok (exTree, -13) :=
  (C89_denied _ _ _).1 _ _ _ [2, 3, 4] exTree_tree (.inr (by decide +kernel)) (.inr (by decide +kernel))
    (free_of_check (by decide +kernel)) (.inr rfl)

/-- **C91, 0 means there.**  If 0 is returned, a path was given, and there either is a regular
file at it or was nothing and one has been made. -/
theorem C91_success (env : Env) (io : Io) (fs : FS) (p : Option Path) (size : Nat) (fs' : FS)
    (h : ftouch env io fs p size = .ok (fs', 0)) :
    ∃ q, p = some q ∧ (fs' = fs ∧ fregular fs q = true ∨
      ∃ r b, fs' = (r, .reg b) :: fs ∧ fs.get r = none) := by
  unfold ftouch at h
  split at h
  · injection h with h; injection h with h1 h2; cases h2
  · rename_i q
    refine ⟨q, rfl, ?_⟩
    split at h
    · rename_i he
      split at h
      · rename_i b hl
        injection h with h; injection h with h1 h2
        exact .inl ⟨h1.symm, by simp [fregular, he, hl]⟩
      · injection h with h; injection h with h1 h2; cases h2
    · split at h
      · injection h with h; injection h with h1 h2; cases h2
      · rename_i hm
        split at h
        · injection h with h; injection h with h1 h2; cases h2
        · split at h
          · injection h with h; injection h with h1 h2
            exact .inr ⟨_, _, h1.symm, (resolveLast_miss hm).2⟩
          · cases h
      · rename_i e hr
        injection h with h; injection h with h1 h2
        have : 0 < e := by
          cases q with
          | nil => cases hr
          | cons n q =>
            simp only [resolveLast] at hr
            split at hr
            · split at hr
              · split at hr <;> cases hr
              · injection hr with hr; omega
            · injection hr with hr; omega
            · rename_i e' hw
              injection hr with hr
              rw [← hr]
              exact walk_error _ _ _ _ hw
        omega

theorem walk_loop {fs : FS} (ht : Tree fs) (n : Name) (d : Path)
    (h : At fs (n :: d) (.link (n :: d))) :
    ∀ k, walk fs k [] (n :: d).reverse = .error 40
  | 0 => by
    have key : ∀ (rest : List Name) (cur : Path), rest ≠ [] →
        At fs (rest.reverse ++ cur) (.link (n :: d)) → walk fs 0 cur rest = .error 40 := by
      intro rest
      induction rest with
      | nil => intro _ h; exact absurd rfl h
      | cons m rest ih =>
        intro cur _ h
        rw [List.reverse_cons, List.append_assoc, List.singleton_append] at h
        have h1 : At fs cur .dir :=
          At.up (p := cur) ht (rest.reverse ++ [m]) (by simpa using h) (by simp)
        rw [walk, if_pos (get_of_at ht h1)]
        cases hr : rest with
        | nil =>
          subst hr
          rw [get_of_at ht (show At fs (m :: cur) _ from h)]
        | cons m' r =>
          have h2 : At fs (m :: cur) .dir := At.up ht rest.reverse h (by simp [hr])
          rw [get_of_at ht h2, ← hr]
          exact ih (m :: cur) (by simp [hr]) h
    exact key _ [] (by simp) (by simpa using h)
  | k + 1 => by
    have := walk_link ht k (n :: d) [] (n :: d).reverse [] (by simp) (by simpa using h)
    rw [List.append_nil] at this
    rw [this]
    exact walk_loop ht n d h k

/-- A link that leads to itself is not followed for ever: it counts as not there.  A file of
that name can then not be made, and the link is not removed. -/
theorem C91_loop (env : Env) (io : Io) (fs : FS) (n : Name) (d : Path) (size : Nat) (ht : Tree fs)
    (h : At fs (n :: d) (.link (n :: d))) :
    fexist fs (n :: d) = false ∧ ftouch env io fs (some (n :: d)) size = .ok (fs, -17) ∧
    fremove env fs (some (n :: d)) = (fs, 0) := by
  have he : fexist fs (n :: d) = false := by
    simp only [fexist, stat, resolve, walk_loop ht n d h]
    rfl
  refine ⟨he, ?_, by simp [fremove, he]⟩
  simp [ftouch, he, resolveLast_at ht h]

example : fexist [([lit "l"], .link [lit "l"])] [lit "l"] = false :=
  (C91_loop exEnv ⟨none, 0, 0⟩ _ (lit "l") [] 0
    (tree_of_check (by decide +kernel) (by decide +kernel) (by decide +kernel))
    (.inr (by decide +kernel))).1

end Ulp.Files
