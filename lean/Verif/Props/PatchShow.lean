/-
C79: `ulpinfo --patch FILE` changes no file.
C80: what is taken to read a patch file is given back once.
C81: a patch that fails leaves no file.
C82: `ulpinfo --patch FILE` prints what the patch file says.
-/
import Verif.Proof.PatchFile
import Verif.Spec.PatchShow
import Verif.Props.LoadEx
namespace Ulp.PFile
open PatchFile
open Load (lit)

deriving instance DecidableEq for Except

/-- A file is smaller than 8 EiB, and the names of what the process holds are used up. -/
structure Wf (file : Path) (w : World) : Prop where
  size : ∀ c, w.files file = some c → c.length < 2 ^ 63
  fresh : ∀ r ∈ w.live, r.id < w.next

theorem show_post (E : Env) (file : Path) (w : World) (hw : Wf file w) :
    ShowPost E file w (showFile E file w).1 (showFile E file w).2 :=
  showFile_wp E file w hw.fresh hw.size setup_error_ne

theorem init_post (E : Env) (file ulp : Path) (w : World) (hw : Wf file w) :
    InitPost E file ulp w (initPatch E true file ulp w).1 (initPatch E true file ulp w).2 :=
  initPatch_wp E file ulp w hw.size setup_error_ne

/-! ### C79 -/

/-- C79, partial.  However `ulpinfo --patch FILE` ends and whatever fails on the way, it
changes no file but `temp.ulp` in the working directory.  Missing: that it does not change
that one; see `C79_removes`, `C79_destroys` and `C79_left`. -/
theorem C79_other_files_partial (E : Env) (file : Path) (w : World) (hw : Wf file w) (q : Path)
    (hq : q ≠ ascii "temp.ulp") : (showFile E file w).2.files q = w.files q := by
  have h := show_post E file w hw
  revert h
  generalize (showFile E file w).1 = r
  generalize (showFile E file w).2 = w'
  intro h
  cases h with
  | crash _ _ _ _ _ hf _ => exact hf q hq
  | fail _ _ _ _ _ hf _ => exact hf q hq
  | good _ _ _ _ _ hf =>
    rw [hf]
    exact update_ne _ _ _ _ hq

/-- C79, partial.  If it succeeds and there was no `temp.ulp`, all files are as before. -/
theorem C79_success_partial (E : Env) (file : Path) (w : World) (hw : Wf file w)
    (ht : w.files (ascii "temp.ulp") = none) (out : Option Printed)
    (h : (showFile E file w).1 = .ok (0, out)) : (showFile E file w).2.files = w.files := by
  have hp := show_post E file w hw
  revert hp h
  generalize (showFile E file w).1 = r
  generalize (showFile E file w).2 = w'
  intro h hp
  subst h
  cases hp with
  | fail _ _ _ he => exact absurd rfl he
  | good _ _ _ _ _ hf =>
    rw [hf, ← ht]
    exact update_self _ _

/-- C79 does not hold: a file `temp.ulp` of the user is gone after every success. -/
theorem C79_removes (E : Env) (file : Path) (w : World) (hw : Wf file w) (out : Option Printed)
    (h : (showFile E file w).1 = .ok (0, out)) :
    (showFile E file w).2.files (ascii "temp.ulp") = none := by
  have hp := show_post E file w hw
  revert hp h
  generalize (showFile E file w).1 = r
  generalize (showFile E file w).2 = w'
  intro h hp
  subst h
  cases hp with
  | fail _ _ _ he => exact absurd rfl he
  | good _ _ _ _ _ hf =>
    rw [hf]
    exact update_eq _ _ _

/-- Nothing fails. -/
def okEnv : Env := ⟨fun _ => 0, id⟩

/-- A world with a patch file, a cut one, and a file of the user, `temp.ulp`. -/
def exWorld (temp : Option (List Byte)) : World :=
  ⟨fun q => if q = lit "p.ulp" then some Load.exFile
    else if q = lit "cut.ulp" then some (Load.exFile.take 430)
    else if q = lit "old.ulp" then some (Load.store Load.exFile 141 [4])
    else if q = lit "tiny" then some [1, 2, 3]
    else if q = lit "temp.ulp" then temp else none, [⟨.fd, 0⟩, ⟨.fd, 1⟩, ⟨.fd, 2⟩], 3, 0⟩

/-- What is printed of the patch file. -/
def exOut : Printed :=
  ⟨lit "p.ulp", lit "new_f", lit "old_f", lit "Tao", lit "GPL",
    ⟨0, 0, 0, 0, 0, 0, 0, 0, 5, 0x44332211⟩, some (lit "deadbeef")⟩

theorem exWorld_wf (temp : Option (List Byte)) (ht : ∀ c, temp = some c → c.length < 1000) (file : Path) :
    Wf file (exWorld temp) := by
  constructor
  · intro c hc
    unfold exWorld at hc
    dsimp only at hc
    have e1 : Load.exFile.length < 1000 := by decide +kernel
    have e2 : (Load.store Load.exFile 141 [4]).length < 1000 := by decide +kernel
    split at hc
    · cases hc; omega
    · split at hc
      · cases hc
        rw [List.length_take]
        omega
      · split at hc
        · cases hc; omega
        · split at hc
          · cases hc; decide
          · split at hc
            · have := ht c hc; omega
            · cases hc
  · intro r hr
    simp only [exWorld, List.mem_cons, List.not_mem_nil, or_false] at hr
    rcases hr with rfl | rfl | rfl <;> (show _ < 3; decide)

example : (showFile okEnv (lit "p.ulp") (exWorld none)).1 = .ok (0, some exOut) := by decide +kernel

/-- The hypotheses of `C79_success_partial` hold of it. -/
example : (showFile okEnv (lit "p.ulp") (exWorld none)).2.files = (exWorld none).files :=
  C79_success_partial _ _ _ (exWorld_wf none nofun _) (by decide +kernel) (some exOut) (by decide +kernel)

/-- The user's file is lost. -/
example : (exWorld (some [1])).files (ascii "temp.ulp") = some [1] ∧
    (showFile okEnv (lit "p.ulp") (exWorld (some [1]))).2.files (ascii "temp.ulp") = none :=
  ⟨by decide +kernel, C79_removes _ _ _ (exWorld_wf (some [1]) (by rintro c ⟨⟩; decide) _) (some exOut)
    (by decide +kernel)⟩

/-- C79 does not hold: looking at a patch file that is called `temp.ulp` fails and leaves
only zeros of it. -/
theorem C79_destroys : (exWorld (some Load.exFile)).files (ascii "temp.ulp") = some Load.exFile ∧
    (showFile okEnv (ascii "temp.ulp") (exWorld (some Load.exFile))).1 = .ok (-2, none) ∧
    (showFile okEnv (ascii "temp.ulp") (exWorld (some Load.exFile))).2.files (ascii "temp.ulp")
      = some (List.replicate Load.exFile.length 0) := by
  refine ⟨?_, ?_, ?_⟩ <;> decide +kernel

/-- C79 does not hold: after a patch file of another version is refused, its copy is left
in the working directory. -/
theorem C79_left : (exWorld none).files (ascii "temp.ulp") = none ∧
    (showFile okEnv (lit "old.ulp") (exWorld none)).1 = .ok (-22, none) ∧
    (showFile okEnv (lit "old.ulp") (exWorld none)).2.files (ascii "temp.ulp")
      = (exWorld none).files (lit "old.ulp") := by
  refine ⟨?_, ?_, ?_⟩ <;> decide +kernel

/-- A file whose section headers are not all there crashes the program, which leaves the copy
as well. -/
theorem C79_crash : (showFile okEnv (lit "cut.ulp") (exWorld none)).1 = .error .dangling ∧
    (showFile okEnv (lit "cut.ulp") (exWorld none)).2.files (ascii "temp.ulp")
      = some (Load.exFile.take 430) := by
  refine ⟨?_, ?_⟩ <;> decide +kernel

/-! ### C80 -/

/-- C80.  Neither looking at a patch file nor patching ever gives back what is not held, or
writes outside of the mapping of the file, whatever fails on the way. -/
theorem C80_once (E : Env) (fto : Bool) (file ulp : Path) (w : World) (hw : Wf file w) (c : Crash)
    (h : (showFile E file w).1 = .error c ∨ (initPatch E fto file ulp w).1 = .error c) :
    c ≠ .doubleFree ∧ c ≠ .overflow := by
  rcases h with h | h
  · have hp := show_post E file w hw
    rw [h] at hp
    cases hp with
    | crash _ _ _ hc => exact hc
  · cases fto with
    | false => cases h
    | true =>
      have hp := init_post E file ulp w hw
      rw [h] at hp
      cases hp with
      | crash _ _ _ hc =>
        rcases hc with rfl | rfl <;> decide

/-- C80.  What the process held before, it holds after, however it ends. -/
theorem C80_keeps (E : Env) (fto : Bool) (file ulp : Path) (w : World) (hw : Wf file w) (r : Res) :
    w.live.count r ≤ (showFile E file w).2.live.count r ∧
    w.live.count r ≤ (initPatch E fto file ulp w).2.live.count r := by
  have g : ∀ w' l, Grew w w' l → w.live.count r ≤ w'.live.count r := by
    intro w' l h
    rw [h r]
    omega
  constructor
  · have hp := show_post E file w hw
    revert hp
    generalize (showFile E file w).1 = x
    generalize (showFile E file w).2 = w'
    intro hp
    cases hp with
    | crash _ l _ _ _ _ hl => exact g _ l hl
    | fail _ l _ _ _ _ hl => exact g _ l hl
    | good _ l _ _ _ _ hl => exact g _ l hl
  · cases fto with
    | false => exact Nat.le_refl _
    | true =>
      have hp := init_post E file ulp w hw
      revert hp
      generalize (initPatch E true file ulp w).1 = x
      generalize (initPatch E true file ulp w).2 = w'
      intro hp
      cases hp with
      | crash _ l _ _ _ _ hl => exact g _ l hl
      | fail _ l _ _ _ _ hl => exact g _ l hl
      | good _ l _ _ _ _ _ _ hl => exact g _ l hl

theorem grew_perm {E : Env} {w w' : World} {l : List Res} (hl : Grew w w' l) (hk : Leak E l) :
    w'.live.Perm w.live ∨ (∃ n, E.code n ≠ 0) ∧ ∃ d, w'.live.Perm (⟨.fd, d⟩ :: w.live) := by
  rcases hk with rfl | ⟨d, n, rfl, hn⟩
  · left
    rw [List.perm_iff_count]
    intro a
    rw [hl a]
    simp
  · right
    refine ⟨⟨n, hn⟩, d, ?_⟩
    rw [List.perm_iff_count]
    intro a
    rw [hl a]
    simp only [List.count_cons, List.count_nil]
    omega

/-- C80, partial.  After success everything that was taken is given back, but for one
descriptor when a `fstat` failed on the way.  Missing: that it is given back after a
failure; see `C80_leak`. -/
theorem C80_success_partial (E : Env) (file ulp : Path) (w w' : World) (hw : Wf file w)
    (h : (∃ out, showFile E file w = (.ok (0, out), w')) ∨ initPatch E true file ulp w = (.ok 0, w')) :
    w'.live.Perm w.live ∨ (∃ n, E.code n ≠ 0) ∧ ∃ d, w'.live.Perm (⟨.fd, d⟩ :: w.live) := by
  rcases h with ⟨out, h⟩ | h
  · have hp := show_post E file w hw
    rw [h] at hp
    cases hp with
    | fail _ _ _ he => exact absurd rfl he
    | good _ l _ _ _ _ hl hk => exact grew_perm hl hk
  · have hp := init_post E file ulp w hw
    rw [h] at hp
    cases hp with
    | fail _ _ _ he => exact absurd rfl he
    | good _ l _ _ _ _ _ _ hl hk => exact grew_perm hl hk

example : (initPatch okEnv true (lit "p.ulp") (lit "/m/ulp-1") (exWorld none)).1 = .ok 0 ∧
    (initPatch okEnv true (lit "p.ulp") (lit "/m/ulp-1") (exWorld none)).2.live = (exWorld none).live := by
  refine ⟨?_, ?_⟩ <;> decide +kernel

/-- The environment in which the third call fails: the `fopen`, after the size was taken. -/
example : (initPatch ⟨fun n => if n = 7 then -1 else 0, id⟩ true (lit "p.ulp") (lit "/m/ulp-1")
    (exWorld none)).1 = .error .null := by decide +kernel

/-- C80 does not hold: a file too short to be a patch costs two pieces of memory; a `ftruncate`
that fails costs four and a descriptor. -/
theorem C80_leak :
    (initPatch okEnv true (lit "tiny") (lit "/m/ulp-1") (exWorld none)).1 = .ok (-8) ∧
    (initPatch okEnv true (lit "tiny") (lit "/m/ulp-1") (exWorld none)).2.live =
      (exWorld none).live ++ [⟨.heap, 3⟩, ⟨.heap, 4⟩] ∧
    (initPatch ⟨fun n => if n = 3 then -1 else 0, id⟩ true (lit "p.ulp") (lit "/m/ulp-1") (exWorld none)).1
      = .ok (-12) ∧
    (initPatch ⟨fun n => if n = 3 then -1 else 0, id⟩ true (lit "p.ulp") (lit "/m/ulp-1") (exWorld none)).2.live
      = (exWorld none).live ++ [⟨.heap, 3⟩, ⟨.heap, 4⟩, ⟨.heap, 6⟩, ⟨.heap, 7⟩, ⟨.fd, 8⟩] := by
  refine ⟨?_, ?_, ?_, ?_⟩ <;> decide +kernel

/-! ### C81 -/

/-- C81.  However it ends, patching changes no file but the one for the mapping. -/
theorem C81_other_files (E : Env) (fto : Bool) (file ulp : Path) (w : World) (hw : Wf file w) (q : Path)
    (hq : q ≠ ulp) : (initPatch E fto file ulp w).2.files q = w.files q := by
  cases fto with
  | false => rfl
  | true =>
    have hp := init_post E file ulp w hw
    revert hp
    generalize (initPatch E true file ulp w).1 = x
    generalize (initPatch E true file ulp w).2 = w'
    intro hp
    cases hp with
    | crash _ _ _ _ _ hf _ => exact hf q hq
    | fail _ _ _ _ _ hf _ => rw [hf, update_ne _ _ _ _ hq]
    | good _ _ _ _ _ _ _ hf _ => rw [hf, update_ne _ _ _ _ hq]

/-- C81, partial.  If patching reports an error and there was no file of the name, the files
are as before.  Missing: when it ends in a crash (`C81_crash`) or there was a file
(`C81_removes`). -/
theorem C81_failed_partial (E : Env) (fto : Bool) (file ulp : Path) (w : World) (hw : Wf file w) (e : Int)
    (hu : w.files ulp = none) (h : (initPatch E fto file ulp w).1 = .ok e) (he : e ≠ 0) :
    (initPatch E fto file ulp w).2.files = w.files := by
  cases fto with
  | false => rfl
  | true =>
    have hp := init_post E file ulp w hw
    rw [h] at hp
    revert hp
    generalize (initPatch E true file ulp w).2 = w'
    intro hp
    cases hp with
    | fail _ _ _ _ _ hf _ =>
      rw [hf, ← hu]
      exact update_self _ _
    | good => exact absurd rfl he

/-- C81.  If patching succeeds, the file for the mapping holds the linked contents of the patch
file. -/
theorem C81_success (E : Env) (fto : Bool) (file ulp : Path) (w : World) (hw : Wf file w)
    (h : (initPatch E fto file ulp w).1 = .ok 0) :
    ∃ c, w.files file = some c ∧ file ≠ ulp ∧ (c.length < 2 ^ 32 →
      (initPatch E fto file ulp w).2.files ulp = some (E.linked c)) := by
  cases fto with
  | false => cases h
  | true =>
    have hp := init_post E file ulp w hw
    rw [h] at hp
    revert hp
    generalize (initPatch E true file ulp w).2 = w'
    intro hp
    cases hp with
    | fail _ _ _ he => exact absurd rfl he
    | good _ _ c _ hc hne _ hf _ =>
      refine ⟨c, hc, hne, fun hl => ?_⟩
      rw [hf, update_eq, Nat.mod_eq_of_lt hl, List.take_length]

/-- C81 does not hold: the name is only made to differ from the files of the working directory;
a file of that name for another patch is gone when this one fails. -/
theorem C81_removes (E : Env) (file ulp : Path) (w : World) (hw : Wf file w) (e : Int)
    (h : (initPatch E true file ulp w).1 = .ok e) (he : e ≠ 0) :
    (initPatch E true file ulp w).2.files ulp = none := by
  have hp := init_post E file ulp w hw
  rw [h] at hp
  revert hp
  generalize (initPatch E true file ulp w).2 = w'
  intro hp
  cases hp with
  | fail _ _ _ _ _ hf _ => rw [hf, update_eq]
  | good => exact absurd rfl he

example : (initPatch okEnv true (lit "old.ulp") (lit "temp.ulp") (exWorld (some [1]))).1 = .ok (-22) := by
  decide +kernel

example : (initPatch okEnv true (lit "old.ulp") (lit "/m/ulp-1") (exWorld none)).2.files
    = (exWorld none).files :=
  C81_failed_partial _ _ _ _ _ (exWorld_wf none nofun _) (-22) (by decide +kernel) (by decide +kernel)
    (by decide)

/-- C81 does not hold: a file whose section headers are not all there is taken as loaded; the
path of its copy is then a null pointer, and the crash leaves the copy. -/
theorem C81_crash : (exWorld none).files (lit "/m/ulp-1") = none ∧
    (initPatch okEnv true (lit "cut.ulp") (lit "/m/ulp-1") (exWorld none)).1 = .error .null ∧
    (initPatch okEnv true (lit "cut.ulp") (lit "/m/ulp-1") (exWorld none)).2.files (lit "/m/ulp-1")
      = some (Load.exFile.take 430) := by
  refine ⟨?_, ?_, ?_⟩ <;> decide +kernel

/-! ### C82 -/

theorem rd_Num {f : List Byte} {off : BitVec 64} {n v : Nat} (h : Load.rd f off n = some v) :
    Num f off.toNat n v := by
  unfold Load.rd at h
  split at h
  · cases h
    exact Num.of_le (by assumption)
  · cases h

theorem Num_lt {f : List Byte} {off n v : Nat} (h : Num f off n v) : v < 256 ^ n := by
  obtain ⟨bs, hl, -, rfl⟩ := h
  rw [← hl]
  exact leNat_lt bs

theorem Num_unique {f : List Byte} {off n v v' : Nat} (h : Num f off n v) (h' : Num f off n v') : v = v' := by
  obtain ⟨bs, hl, hp, rfl⟩ := h
  obtain ⟨bs', hl', hp', rfl⟩ := h'
  rw [List.prefix_iff_eq_take.mp hp, List.prefix_iff_eq_take.mp hp', hl, hl']

theorem offset_lt {f : List Byte} {secs : List Sec} {o x : Nat} {strs s : Sec} {n : String}
    (d : Load.Desc f secs o x strs) (h : Has secs n s) : s.offset < 2 ^ 64 := by
  obtain ⟨i, -, hat, -⟩ := h
  have := Num_lt (d.hdr i s hat).offset
  omega

theorem cstr_Str {f : List Byte} {off : BitVec 64} {s : List Byte} (h : cstr f off = some s) :
    Str f off.toNat s := (untilNul_iff _ _).mp h

theorem ofNat_toNat {n : Nat} (h : n < 2 ^ 64) : (BitVec.ofNat 64 n).toNat = n := by
  rw [BitVec.toNat_ofNat]
  omega

theorem Str.lt {f : List Byte} {off : Nat} {s : List Byte} (h : Str f off s) :
    off + s.length < f.length := by
  obtain ⟨-, t, ht⟩ := h
  have := congrArg List.length ht
  rw [List.length_drop] at this
  simp at this
  omega

theorem readInfo_nums {f : List Byte} {o : Nat} {r : Load.ULPInfo} (hs : f.length < 2 ^ 64)
    (ho : o + 64 ≤ f.length) (h : Load.readInfo f (BitVec.ofNat 64 o) = some r) :
    Num f o 4 r.ulpId.toNat ∧ Num f (o + 4) 8 r.target.toNat ∧ Num f (o + 12) 8 r.patch.toNat ∧
    Num f (o + 20) 8 r.virtual.toNat ∧ Num f (o + 28) 8 r.orig0.toNat ∧ Num f (o + 36) 8 r.orig1.toNat ∧
    Num f (o + 44) 8 r.time.toNat ∧ Num f (o + 52) 4 r.flags.toNat ∧ Num f (o + 56) 4 r.version.toNat ∧
    Num f (o + 60) 4 r.pad.toNat := by
  have hb : ∀ (off : BitVec 64) (k : Nat) (n v : Nat), off.toNat = o + k → n ≤ 8 →
      Load.rd f off n = some v → Num f (o + k) n v ∧ v < 2 ^ (8 * n) := by
    intro off k n v hk hn hr
    have h1 := rd_Num hr
    rw [hk] at h1
    refine ⟨h1, ?_⟩
    obtain ⟨bs, hl, -, rfl⟩ := h1
    rw [← hl]
    have := leNat_lt bs
    rw [show 256 = 2 ^ 8 from rfl, ← Nat.pow_mul] at this
    exact this
  unfold Load.readInfo at h
  split at h
  · rename_i a b c d e f' g i j k h0 h1 h2 h3 h4 h5 h6 h7 h8 h9
    cases h
    have t : ∀ k : Nat, k < 64 → (BitVec.ofNat 64 o + BitVec.ofNat 64 k).toNat = o + k := by
      intro k hk
      rw [BitVec.toNat_add, ofNat_toNat (by omega), ofNat_toNat (by omega)]
      omega
    obtain ⟨n0, b0⟩ := hb _ 0 4 _ (ofNat_toNat (by omega)) (by omega) h0
    obtain ⟨n1, b1⟩ := hb _ 4 8 _ (t 4 (by omega)) (by omega) h1
    obtain ⟨n2, b2⟩ := hb _ 12 8 _ (t 12 (by omega)) (by omega) h2
    obtain ⟨n3, b3⟩ := hb _ 20 8 _ (t 20 (by omega)) (by omega) h3
    obtain ⟨n4, b4⟩ := hb _ 28 8 _ (t 28 (by omega)) (by omega) h4
    obtain ⟨n5, b5⟩ := hb _ 36 8 _ (t 36 (by omega)) (by omega) h5
    obtain ⟨n6, b6⟩ := hb _ 44 8 _ (t 44 (by omega)) (by omega) h6
    obtain ⟨n7, b7⟩ := hb _ 52 4 _ (t 52 (by omega)) (by omega) h7
    obtain ⟨n8, b8⟩ := hb _ 56 4 _ (t 56 (by omega)) (by omega) h8
    obtain ⟨n9, b9⟩ := hb _ 60 4 _ (t 60 (by omega)) (by omega) h9
    refine ⟨?_, ?_, ?_, ?_, ?_, ?_, ?_, ?_, ?_, ?_⟩
    all_goals
      dsimp only
      rw [BitVec.toNat_ofNat, Nat.mod_eq_of_lt (by omega)]
      assumption
  · cases h

/-- C82.  What is printed after a success is what the patch file says. -/
theorem C82_prints (E : Env) (file : Path) (w : World) (hw : Wf file w) (c : List Byte) (secs : List Sec)
    (hc : w.files file = some c) (hl : c.length < 2 ^ 32) (hd : Describes c secs) (hr : Readable c secs)
    (out : Option Printed) (h : (showFile E file w).1 = .ok (0, out)) :
    ∃ p, out = some p ∧ p.file = file ∧ Texts c secs p.srcFunc p.dstFunc p.author p.license ∧
      RecordAt c secs p.info.ulpId.toNat p.info.target.toNat p.info.patch.toNat p.info.virtual.toNat
        p.info.orig0.toNat p.info.orig1.toNat p.info.time.toNat p.info.flags.toNat p.info.version.toNat
        p.info.pad.toNat ∧ BuildIdIs c secs p.buildId := by
  have hp := show_post E file w hw
  rw [h] at hp
  revert hp
  generalize (showFile E file w).2 = w'
  intro hp
  cases hp with
  | fail _ _ _ he => exact absurd rfl he
  | good _ _ c' li p _ _ _ hc' _ hs hrend =>
    rw [hc] at hc'
    cases hc'
    rw [Nat.mod_eq_of_lt hl, List.take_length] at hs hrend
    obtain ⟨o, x, strs, d⟩ := Load.Describes.desc hd
    obtain ⟨r, h1, hv, -, h3⟩ := Load.setup_master d hr
    rw [hs] at h1
    cases h1
    have hrec := h3 li rfl
    have hsm := hd.small
    unfold render at hrend
    split at hrend
    · rename_i s dd a l r0 e1 e2 e3 e4 e5
      cases hrend
      refine ⟨_, rfl, rfl, ?_, ?_, ?_⟩
      · constructor
        · obtain ⟨s', magic, src, hs', hmg, hsr, e6, e7⟩ := hrec.names
          have hmagic : Str c s'.offset (ascii ".ULPATCH") := by
            obtain ⟨-, -, -, -, -, -, ⟨u, hu, hm⟩, -⟩ := Load.Verdict.zero_iff.1 hv
            cases Load.Has.unique hs' hu
            exact hm
          have hml : magic = ascii ".ULPATCH" := Load.Str.unique' hsm hmg hmagic
          subst hml
          have k1 := Str.lt hsr
          have k0 : (ascii ".ULPATCH").length = 8 := by decide
          rw [k0] at hsr e6 e7 k1
          have hs1 := cstr_Str e1
          rw [e6, ofNat_toNat (by omega)] at hs1
          cases Load.Str.unique' hsm hs1 hsr
          have hs2 := cstr_Str e2
          rw [e7, ofNat_toNat (by omega)] at hs2
          exact ⟨s', hs', hmagic, hs1, hs2⟩
        · obtain ⟨s', hs', e6⟩ := hrec.author
          have hs1 := cstr_Str e3
          rw [e6, ofNat_toNat (offset_lt d hs')] at hs1
          exact ⟨s', hs', hs1⟩
        · obtain ⟨s', hs', e6⟩ := hrec.license
          have hs1 := cstr_Str e4
          rw [e6, ofNat_toNat (offset_lt d hs')] at hs1
          exact ⟨s', hs', hs1⟩
      · obtain ⟨s', hs', -, -, e6⟩ := hrec.info
        rw [e6] at e5
        exact ⟨s', hs', readInfo_nums hsm (hr.info s' hs') e5⟩
      · obtain ⟨s', namesz, descsz, type, hs', n1, n2, n3, e6⟩ := hrec.buildId
        refine ⟨s', namesz, descsz, type, hs', n1, n2, n3, ?_⟩
        dsimp only
        rw [e6]
        by_cases ht : type = 3
        · right
          rw [if_pos ht]
          have hle : s'.offset + 12 + namesz + descsz ≤ c.length := by
            obtain ⟨a1, a2, a3, m1, m2, m3, -, hle⟩ := hr.note s' hs'
            rw [Num_unique n1 m1, Num_unique n2 m2]
            exact hle
          have hlen : ((c.drop (s'.offset + 12 + namesz)).take descsz).length = descsz := by
            rw [List.length_take, List.length_drop]
            omega
          obtain ⟨g1, -, g2⟩ := Load.C23_text_digits ((c.drop (s'.offset + 12 + namesz)).take descsz)
            (descsz * 2 + 1) _ (by unfold Load.elfStrbuildid; rw [hlen, if_neg (by omega)])
          refine ⟨ht, _, rfl, by rw [g1, hlen], fun i b hi hb => g2 i b ?_⟩
          rw [List.getElem?_take_of_lt hi, List.getElem?_drop]
          exact hb
        · left
          rw [if_neg ht]
          exact ⟨ht, rfl⟩
    · cases hrend

example : ∃ p, some exOut = some p ∧ p.file = lit "p.ulp" ∧
    Texts Load.exFile Load.exSecs p.srcFunc p.dstFunc p.author p.license := by
  obtain ⟨p, h1, h2, h3, -⟩ := C82_prints okEnv (lit "p.ulp") (exWorld none) (exWorld_wf none nofun _)
    Load.exFile Load.exSecs (by decide +kernel) (by decide +kernel) Load.exFile_describes
    Load.exFile_readable (some exOut) (by decide +kernel)
  exact ⟨p, h1, h2, h3⟩

theorem chkLen_describes {f : List Byte} {secs : List Sec} (hd : Describes f secs) :
    Load.chkLen f = some true := by
  obtain ⟨o, x, strs, d⟩ := Load.Describes.desc hd
  have hpos : 0 < secs.length := by
    rcases Nat.eq_zero_or_pos secs.length with h | h
    · have := d.hstrs
      rw [List.length_eq_zero_iff.mp h] at this
      cases this
    · exact h
  have hl := (d.hdr (secs.length - 1) _ (List.getElem?_eq_getElem (by omega))).fits
  unfold Load.chkLen
  rw [d.num, show Load.shoff f = some o from Load.rd_num' d.ho (by omega) d.small rfl]
  dsimp only
  rw [if_neg (by omega)]
  simp only [Option.some.injEq, decide_eq_true_eq]
  omega

theorem magicOk_elf {c : List Byte} (hmag : [0x7f, 0x45, 0x4c, 0x46] <+: c) : Load.magicOk c = some true := by
  obtain ⟨t, rfl⟩ := hmag
  unfold Load.magicOk
  have hr : ∀ k : BitVec 64, k.toNat < 4 → Load.rd ([0x7f, 0x45, 0x4c, 0x46] ++ t) k 1
      = some (leNat ((([0x7f, 0x45, 0x4c, 0x46] ++ t).drop k.toNat).take 1)) := by
    intro k hk
    unfold Load.rd
    rw [if_pos (by simp; omega)]
  rw [hr 0 (by decide), hr 1 (by decide), hr 2 (by decide), hr 3 (by decide)]
  rfl

/-- C82.  A patch file whose metadata is not complete is never printed, and a complete one is
printed if no call fails. -/
theorem C82_accepts (E : Env) (file : Path) (w : World) (hw : Wf file w) (c : List Byte) (secs : List Sec)
    (hc : w.files file = some c) (hl : c.length < 2 ^ 31) (hd : Describes c secs) (hr : Readable c secs) :
    ((∃ out, (showFile E file w).1 = .ok (0, out)) → Complete c secs) ∧
    (Complete c secs → [0x7f, 0x45, 0x4c, 0x46] <+: c → file ≠ ascii "temp.ulp" → (∀ n, E.code n = 0) →
      (∀ s, Has secs ".ulpatch.author" s ∨ Has secs ".ulpatch.license" s → ∃ t, Str c s.offset t) →
      ∃ p, (showFile E file w).1 = .ok (0, some p)) := by
  have hp := show_post E file w hw
  have hcop : ∀ img, Copied file w img → img = c := by
    rintro img ⟨c', hc', rfl⟩
    rw [hc] at hc'
    cases hc'
    rw [Nat.mod_eq_of_lt (by omega), List.take_length]
  have hcc : Copied file w c := ⟨c, hc, by rw [Nat.mod_eq_of_lt (by omega), List.take_length]⟩
  constructor
  · rintro ⟨out, h⟩
    rw [h] at hp
    revert hp
    generalize (showFile E file w).2 = w'
    intro hp
    cases hp with
    | fail _ _ _ he => exact absurd rfl he
    | good _ _ c' li p _ _ _ hc' _ hs hrend =>
      rw [hc] at hc'
      cases hc'
      rw [Nat.mod_eq_of_lt (by omega), List.take_length] at hs
      exact (Load.C19_accepts_iff c secs hd hr).mp ⟨li, hs⟩
  · intro hcomp hmag hne hall hstr
    have hnb : ¬ Bad E := fun ⟨n, h⟩ => h (hall n)
    obtain ⟨li, hli⟩ := (Load.C19_accepts_iff c secs hd hr).mpr hcomp
    obtain ⟨o, x, strs, d⟩ := Load.Describes.desc hd
    obtain ⟨r, h1, hv, -, h3⟩ := Load.setup_master d hr
    rw [hli] at h1
    cases h1
    have hrec := h3 li rfl
    have hsm := hd.small
    have cs : ∀ (off : BitVec 64) (n : Nat) (t : List Byte), off = BitVec.ofNat 64 n → n < 2 ^ 64 →
        Str c n t → cstr c off = some t := by
      intro off n t ho hn ht
      unfold cstr
      rw [ho, ofNat_toNat hn]
      exact (untilNul_iff _ _).mpr ht
    have hrender : render file c li ≠ none := by
      obtain ⟨s', magic, src, hs', hmg, hsr, e6, e7⟩ := hrec.names
      obtain ⟨magic', src', dst', hm', hsr', hds'⟩ := hr.strtab s' hs'
      cases Load.Str.unique' hsm hmg hm'
      cases Load.Str.unique' hsm hsr hsr'
      have k1 := Str.lt hsr
      have k2 := Str.lt hds'
      obtain ⟨sa, hsa, e8⟩ := hrec.author
      obtain ⟨ta, hta⟩ := hstr sa (Or.inl hsa)
      obtain ⟨sl, hsl, e9⟩ := hrec.license
      obtain ⟨tl, htl⟩ := hstr sl (Or.inr hsl)
      obtain ⟨si, hsi, -, -, e10⟩ := hrec.info
      have k3 := hr.info si hsi
      have ri : ∃ r, Load.readInfo c li.ulpInfo = some r := by
        have t : ∀ k n : Nat, k + n ≤ 64 → ∃ v, Load.rd c (li.ulpInfo + BitVec.ofNat 64 k) n = some v := by
          intro k n hk
          refine rd_some _ _ _ ?_
          rw [e10, BitVec.toNat_add, ofNat_toNat (by omega), ofNat_toNat (by omega)]
          omega
        obtain ⟨v0, h0⟩ := rd_some c li.ulpInfo 4 (by rw [e10, ofNat_toNat (by omega)]; omega)
        obtain ⟨v1, h1⟩ := t 4 8 (by omega)
        obtain ⟨v2, h2⟩ := t 12 8 (by omega)
        obtain ⟨v3, h3⟩ := t 20 8 (by omega)
        obtain ⟨v4, h4⟩ := t 28 8 (by omega)
        obtain ⟨v5, h5⟩ := t 36 8 (by omega)
        obtain ⟨v6, h6⟩ := t 44 8 (by omega)
        obtain ⟨v7, h7⟩ := t 52 4 (by omega)
        obtain ⟨v8, h8⟩ := t 56 4 (by omega)
        obtain ⟨v9, h9⟩ := t 60 4 (by omega)
        unfold Load.readInfo
        rw [h0, show Load.rd c (li.ulpInfo + 4) 8 = _ from h1, show Load.rd c (li.ulpInfo + 12) 8 = _ from h2,
          show Load.rd c (li.ulpInfo + 20) 8 = _ from h3, show Load.rd c (li.ulpInfo + 28) 8 = _ from h4,
          show Load.rd c (li.ulpInfo + 36) 8 = _ from h5, show Load.rd c (li.ulpInfo + 44) 8 = _ from h6,
          show Load.rd c (li.ulpInfo + 52) 4 = _ from h7, show Load.rd c (li.ulpInfo + 56) 4 = _ from h8,
          show Load.rd c (li.ulpInfo + 60) 4 = _ from h9]
        exact ⟨_, rfl⟩
      obtain ⟨r, hri⟩ := ri
      unfold render
      rw [cs _ _ _ e6 (by omega) hsr, cs _ _ _ e7 (by omega) hds', cs _ _ _ e8 (offset_lt d hsa) hta,
        cs _ _ _ e9 (offset_lt d hsl) htl, hri]
      simp
    have hmo := magicOk_elf hmag
    have h64 : 64 ≤ c.length := Num.le d.hx (by omega)
    revert hp
    generalize (showFile E file w).1 = res
    generalize (showFile E file w).2 = w'
    intro hp
    cases hp with
    | crash _ _ _ _ hb =>
      exfalso
      rcases hb with hb | hb
      · exact hnb hb
      · rcases hb c hcc with h | h | ⟨li', h, h'⟩
        · rw [chkLen_describes hd] at h
          cases h
        · rw [hli] at h
          cases h
        · rw [hli] at h
          cases h
          exact hrender h'
    | fail _ _ _ _ hb =>
      exfalso
      rcases hb with (hb | hb) | hb
      · exact hnb hb
      · rcases hb c hc with h | h | h | h
        · rw [Nat.mod_eq_of_lt (by omega)] at h
          omega
        · rw [Nat.mod_eq_of_lt (by omega)] at h
          omega
        · exact hne h
        · rw [Nat.mod_eq_of_lt (by omega), List.take_length, hmo] at h
          cases h
      · obtain ⟨e, h⟩ := hb c hcc
        rw [hli] at h
        cases h
    | good _ _ _ _ out => exact ⟨out, rfl⟩

example : ∃ p, (showFile okEnv (lit "p.ulp") (exWorld none)).1 = .ok (0, some p) :=
  (C82_accepts okEnv (lit "p.ulp") (exWorld none) (exWorld_wf none nofun _) Load.exFile Load.exSecs
    (by decide +kernel) (by decide +kernel) Load.exFile_describes Load.exFile_readable).2
    Load.exFile_complete (List.isPrefixOf_iff_prefix.1 (by decide +kernel)) (by decide) (fun _ => rfl) (by
      rintro s (h | h)
      · cases Load.Has.unique Load.ex_author h
        exact ⟨lit "Tao", Load.str_of (by decide +kernel)⟩
      · cases Load.Has.unique Load.ex_license h
        exact ⟨lit "GPL", Load.str_of (by decide +kernel)⟩)

/-- C81.  A complete patch file is taken if no call fails, and its linked contents are then in the
file for the mapping. -/
theorem C81_taken (E : Env) (file ulp : Path) (w : World) (hw : Wf file w) (c : List Byte) (secs : List Sec)
    (hc : w.files file = some c) (hl : c.length < 2 ^ 31) (hd : Describes c secs) (hr : Readable c secs)
    (hcomp : Complete c secs) (hmag : [0x7f, 0x45, 0x4c, 0x46] <+: c) (hne : file ≠ ulp)
    (hall : ∀ n, E.code n = 0) :
    (initPatch E true file ulp w).1 = .ok 0 ∧
    (initPatch E true file ulp w).2.files ulp = some (E.linked c) ∧
    (initPatch E true file ulp w).2.live.Perm w.live := by
  have hp := init_post E file ulp w hw
  have hcc : Copied file w c := ⟨c, hc, by rw [Nat.mod_eq_of_lt (by omega), List.take_length]⟩
  have hnb : ¬ Bad E := fun ⟨n, h⟩ => h (hall n)
  obtain ⟨li, hli⟩ := (Load.C19_accepts_iff c secs hd hr).mpr hcomp
  obtain ⟨o, x, strs, d⟩ := Load.Describes.desc hd
  have h64 : 64 ≤ c.length := Num.le d.hx (by omega)
  revert hp
  generalize (initPatch E true file ulp w).1 = res
  generalize (initPatch E true file ulp w).2 = w'
  intro hp
  cases hp with
  | crash _ _ _ _ hb =>
    exfalso
    rcases hb with hb | hb
    · exact hnb hb
    · rcases hb c hcc with h | h
      · rw [chkLen_describes hd] at h
        cases h
      · rw [hli] at h
        cases h
  | fail _ _ _ _ hb =>
    exfalso
    rcases hb with (hb | hb) | hb
    · exact hnb hb
    · rcases hb c hc with h | h | h | h
      · rw [Nat.mod_eq_of_lt (by omega)] at h
        omega
      · rw [Nat.mod_eq_of_lt (by omega)] at h
        omega
      · exact hne h
      · rw [Nat.mod_eq_of_lt (by omega), List.take_length, magicOk_elf hmag] at h
        cases h
    · obtain ⟨e, h⟩ := hb c hcc
      rw [hli] at h
      cases h
  | good _ l c' _ hc' _ _ hf hl hk =>
    rw [hc] at hc'
    cases hc'
    refine ⟨rfl, by rw [hf, update_eq, Nat.mod_eq_of_lt (by omega), List.take_length], ?_⟩
    rcases grew_perm hl hk with h | ⟨h, -⟩
    · exact h
    · exact absurd h hnb

example : (initPatch okEnv true (lit "p.ulp") (lit "/m/ulp-1") (exWorld none)).2.files (lit "/m/ulp-1")
    = some Load.exFile :=
  (C81_taken okEnv (lit "p.ulp") (lit "/m/ulp-1") (exWorld none) (exWorld_wf none nofun _) Load.exFile
    Load.exSecs (by decide +kernel) (by decide +kernel) Load.exFile_describes Load.exFile_readable
    Load.exFile_complete (List.isPrefixOf_iff_prefix.1 (by decide +kernel)) (by decide) (fun _ => rfl)).2.1

end Ulp.PFile
