/-
C45: the kind of a mapping.
-/
import Verif.Spec.MapKind
namespace Ulp.VmaType
open Ulp.Load (lit)
open Ulp.Str (hasSub startswith)
open Ulp.MapKind

theorem hasSub_iff (p : List Byte) : ∀ s, hasSub p s = true ↔ Occurs p s
  | [] => by
    rw [hasSub, List.isEmpty_iff]
    constructor
    · rintro rfl; exact ⟨[], [], rfl⟩
    · rintro ⟨a, b, h⟩
      have := congrArg List.length h
      simp only [List.length_nil, List.length_append] at this
      exact List.eq_nil_of_length_eq_zero (by omega)
  | c :: s => by
    rw [hasSub, Bool.or_eq_true, hasSub_iff p s, List.isPrefixOf_iff_prefix]
    constructor
    · rintro (⟨b, h⟩ | ⟨a, b, h⟩)
      · exact ⟨[], b, by rw [List.nil_append, h]⟩
      · exact ⟨c :: a, b, by rw [h]; rfl⟩
    · rintro ⟨a, b, h⟩
      cases a with
      | nil => left; exact ⟨b, by rw [h, List.nil_append]⟩
      | cons x a =>
        right
        simp only [List.cons_append, List.cons.injEq] at h
        exact ⟨a, b, h.2⟩

theorem mem_takeWhile {p : Byte → Bool} {x : Byte} : ∀ {s : List Byte}, x ∈ s.takeWhile p → p x = true
  | [], h => absurd h (by simp)
  | c :: s, h => by
    rw [List.takeWhile_cons] at h
    split at h
    · rcases List.mem_cons.1 h with rfl | h
      · assumption
      · exact mem_takeWhile h
    · exact absurd h (by simp)

theorem lastPart_noslash (s : List Byte) : (47 : Byte) ∉ lastPart s := by
  intro h
  have := mem_takeWhile (List.mem_reverse.1 h)
  simp at this

theorem lastPart_split (s : List Byte) :
    ∃ dir, s = dir ++ lastPart s ∧ (dir = [] ∨ ∃ d, dir = d ++ [47]) := by
  refine ⟨(s.reverse.dropWhile (· ≠ 47)).reverse, ?_, ?_⟩
  · rw [lastPart, ← List.reverse_append, List.takeWhile_append_dropWhile, List.reverse_reverse]
  · cases h : s.reverse.dropWhile (· ≠ 47) with
    | nil => left; rfl
    | cons c r =>
      right
      have h1 : (s.reverse.dropWhile (· ≠ 47)) ≠ [] := by rw [h]; simp
      have h2 := List.head_dropWhile_not (fun x : Byte => decide (x ≠ 47)) h1
      have h4 : (s.reverse.dropWhile (· ≠ 47)).head h1 = c := by simp only [h, List.head_cons]
      rw [h4] at h2
      have h3 : c = 47 := by simpa using h2
      exact ⟨r.reverse, by rw [List.reverse_cons, h3]⟩

theorem lastPart_append {dir t : List Byte} (hd : dir = [] ∨ ∃ d, dir = d ++ [47]) (ht : (47 : Byte) ∉ t) :
    lastPart (dir ++ t) = t := by
  rw [lastPart, List.reverse_append]
  have h1 : ∀ x ∈ t.reverse, decide (x ≠ (47 : Byte)) = true := by
    intro x hx
    have hx := List.mem_reverse.1 hx
    simp only [ne_eq, decide_not, Bool.not_eq_eq_eq_not, Bool.not_true, decide_eq_false_iff_not]
    rintro rfl
    exact ht hx
  rw [List.takeWhile_append_of_pos h1]
  rcases hd with rfl | ⟨d, rfl⟩
  · simp
  · simp

theorem starts_iff (s pre : List Byte) (hp : (47 : Byte) ∉ pre) :
    startswith (lastPart s) pre = true ↔ FileStarts s pre := by
  rw [startswith, List.isPrefixOf_iff_prefix]
  constructor
  · rintro ⟨rest, h⟩
    obtain ⟨dir, h1, h2⟩ := lastPart_split s
    refine ⟨dir, rest, ?_, h2, ?_⟩
    · rw [List.append_assoc, h, ← h1]
    · rw [h]; exact lastPart_noslash s
  · rintro ⟨dir, rest, h1, h2, h3⟩
    rw [h1, List.append_assoc, lastPart_append h2 h3]
    exact ⟨rest, rfl⟩

theorem basename_id {s : List Byte} (h : s.getLast? ≠ some 47) :
    (basename s).2 = s ∧ ∀ pre : List Byte, (47 : Byte) ∉ pre → pre ≠ [] → pre.head? ≠ some 46 →
      (startswith (basename s).1 pre = true ↔ FileStarts s pre) := by
  by_cases hs : s = []
  · subst hs
    refine ⟨rfl, ?_⟩
    intro pre h1 h2 h3
    constructor
    · intro h4
      exfalso
      cases pre with
      | nil => exact h2 rfl
      | cons c r =>
        have h4 := List.isPrefixOf_iff_prefix.1 h4
        obtain ⟨t, h5⟩ := h4
        have h6 : (basename []).1 = [46] := by decide
        rw [h6] at h5
        simp only [List.cons_append, List.cons.injEq] at h5
        apply h3
        rw [h5.1]; rfl
    · rintro ⟨dir, rest, h4, -, -⟩
      have := congrArg List.length h4
      simp only [List.length_nil, List.length_append] at this
      exact absurd (List.eq_nil_of_length_eq_zero (by omega)) h2
  · have e : basename s = (lastPart s, s) := by rw [basename, if_neg hs, if_pos h]
    rw [e]
    exact ⟨rfl, fun pre h1 _ _ => starts_iff s pre h1⟩

theorem first_ite {p : Prop} [Decidable p] {q : Prop} {t u : VmaType} {rs} (hpq : p ↔ q)
    (h : First rs u) : First ((q, t) :: rs) (if p then t else u) := by
  by_cases hp : p
  · rw [if_pos hp]; exact .here (hpq.1 hp)
  · rw [if_neg hp]; exact .skip (fun h => hp (hpq.2 h)) h

theorem dec_decimal (n : Nat) : Decimal n (dec n) := by
  fun_induction dec n with
  | case1 n h => exact .digit h
  | case2 n h ih =>
    have := Decimal.more (n := n / 10) (d := n % 10) (by omega) (by omega) ih
    rwa [show 10 * (n / 10) + n % 10 = n by omega] at this

theorem decimal_dec {n : Nat} {s : List Byte} (h : Decimal n s) : s = dec n := by
  induction h with
  | digit h => rw [dec, if_pos h]
  | @more n d s hn hd _ ih =>
    rw [dec, if_neg (by omega), ih, show (10 * n + d) / 10 = n by omega,
      show (10 * n + d) % 10 = d by omega]

/-- **C45** (the rules).  For every process id, executable and mapping name (the
kernel never reports a name with a slash at the end) the kind is decided by the
first rule of the list that holds. -/
theorem C45_rules (pid : Nat) (pidText exe name : List Byte) (hp : Decimal pid pidText)
    (hn : name.getLast? ≠ some 47) :
    First (rules pidText exe name) (getVmaType pid exe name) := by
  obtain ⟨h1, h2⟩ := basename_id hn
  have hd := decimal_dec hp
  subst hd
  unfold getVmaType
  dsimp only
  simp only [h1]
  unfold rules
  refine first_ite Iff.rfl ?_
  have e1 := h2 (lit "libc.so") (by decide) (by decide) (by decide)
  have e2 := h2 (lit "libssp") (by decide) (by decide) (by decide)
  have e3 := h2 (lit "libc-") (by decide) (by decide) (by decide)
  have e4 := h2 (lit "ld-linux") (by decide) (by decide) (by decide)
  have e5 := h2 (lit "lib") (by decide) (by decide) (by decide)
  have merge : ∀ (a b c : Bool) (u : VmaType),
      (if a = true then VmaType.libc else if b = true then .libc else if c = true then .libc else u)
        = if (a = true ∨ b = true ∨ c = true) then .libc else u := by
    intro a b c u; cases a <;> cases b <;> cases c <;> rfl
  rw [merge]
  refine first_ite (or_congr e1 (or_congr e2 e3)) ?_
  refine first_ite Iff.rfl ?_
  refine first_ite e4 ?_
  iterate 6 refine first_ite Iff.rfl ?_
  refine first_ite ?_ ?_
  · rw [Bool.and_eq_true]; exact and_congr e5 (hasSub_iff _ _)
  refine first_ite List.length_eq_zero_iff ?_
  refine first_ite ?_ .nil
  rw [Bool.and_eq_true]; exact and_congr (hasSub_iff _ _) (hasSub_iff _ _)

/-- The rules leave no room: at most one kind is the one they give. -/
theorem first_unique {rs : List (Prop × VmaType)} {t u : VmaType} (h1 : First rs t) (h2 : First rs u) :
    t = u := by
  induction h1 with
  | nil => cases h2; rfl
  | here hp => cases h2 with
    | here => rfl
    | skip hn _ => exact absurd hp hn
  | skip hn _ ih => cases h2 with
    | here hp => exact absurd hp hn
    | skip _ h => exact ih h

example : Decimal 42 (text "42") := by
  have := dec_decimal 42
  have e : dec 42 = text "42" := by decide +kernel
  rwa [e] at this

example : getVmaType 42 (text "/usr/bin/cat") (text "/usr/lib64/libm.so.6") = .libUnknown := by
  decide +kernel

/-- The path of a patch file as a user sees it: `/tmp/ulpatch/PID/map_files/ulp-` and
six characters. -/
def PatchPath (pid : Nat) (path : List Byte) : Prop :=
  ∃ p t, Decimal pid p ∧ t.length = 6 ∧ (47 : Byte) ∉ t ∧
    path = text "/tmp/ulpatch/" ++ p ++ text "/map_files/ulp-" ++ t

/-- **C45** (made by us).  The path made for a patch has the published form. -/
theorem C45_made (pid : Nat) (tmp : List Byte) (h1 : tmp.length = 6) (h2 : (47 : Byte) ∉ tmp) :
    PatchPath pid (makePidUlpname pid tmp) := by
  refine ⟨dec pid, tmp, dec_decimal pid, h1, h2, ?_⟩
  rw [makePidUlpname]
  have e1 : text "/tmp/ulpatch/" = lit "/tmp/ulpatch" ++ lit "/" := by decide
  have e2 : text "/map_files/ulp-" = lit "/" ++ lit "map_files" ++ lit "/" ++ lit "ulp-" := by decide
  rw [e1, e2]
  simp only [List.append_assoc]

theorem not_fileStarts {dir t pre : List Byte} (hd : ∃ d, dir = d ++ [47]) (ht : (47 : Byte) ∉ t)
    (hp : (47 : Byte) ∉ pre) (hne : ¬ pre <+: t) : ¬ FileStarts (dir ++ t) pre := by
  intro h
  have h := (starts_iff _ _ hp).2 h
  rw [lastPart_append (Or.inr hd) ht, startswith, List.isPrefixOf_iff_prefix] at h
  exact hne h

/-- **C45** (recognised).  A mapping of a patch file of process `pid` is recognised
as a patch of that process, unless the file is the executable itself. -/
theorem C45_patch (pid : Nat) (exe path : List Byte) (h : PatchPath pid path) (he : path ≠ exe) :
    getVmaType pid exe path = .ulpatch := by
  obtain ⟨p, t, hp, hl, ht, hpath⟩ := h
  have hpd := decimal_dec hp
  have ht' : t ≠ [] := by intro e; rw [e] at hl; simp at hl
  have hlast : path.getLast? ≠ some 47 := by
    rw [hpath, List.getLast?_append]
    cases hc : t.getLast? with
    | none => exact absurd (List.getLast?_eq_none_iff.1 hc) ht'
    | some c =>
      simp only [Option.some_or, ne_eq, Option.some.injEq]
      rintro rfl
      exact ht (List.mem_of_getLast? hc)
  have hr := C45_rules pid p exe path hp hlast
  have hfile : ∃ d, path = (d ++ [47]) ++ (text "ulp-" ++ t) := by
    refine ⟨text "/tmp/ulpatch/" ++ p ++ text "/map_files", ?_⟩
    have e2 : text "/map_files/ulp-" = text "/map_files" ++ [47] ++ text "ulp-" := by decide
    rw [hpath, e2]
    simp only [List.append_assoc]
  have hns : (47 : Byte) ∉ text "ulp-" ++ t := by
    rw [List.mem_append]
    rintro (h | h)
    · exact absurd h (by decide)
    · exact ht h
  have nf : ∀ pre : List Byte, (47 : Byte) ∉ pre → pre.head? ≠ some 117 → pre ≠ [] → ¬ FileStarts path pre := by
    intro pre h1 h2 h3
    obtain ⟨d, hd⟩ := hfile
    rw [hd]
    refine not_fileStarts ⟨d, rfl⟩ hns h1 ?_
    rintro ⟨r, hr⟩
    cases pre with
    | nil => exact h3 rfl
    | cons c s =>
      have e : text "ulp-" = [117, 108, 112, 45] := by decide
      rw [e] at hr
      simp only [List.cons_append, List.cons.injEq] at hr
      apply h2; rw [hr.1]; rfl
  have nb : ∀ s : List Byte, s.head? = some 91 → path ≠ s := by
    intro s hs e
    have : path.head? = some 47 := by
      rw [hpath]
      have e : text "/tmp/ulpatch/" = 47 :: text "tmp/ulpatch/" := by decide
      rw [e]; rfl
    rw [e, hs] at this
    exact absurd this (by decide)
  apply first_unique hr
  unfold rules
  refine .skip he (.skip ?_ (.skip (nb _ (by decide)) (.skip (nf _ (by decide) (by decide) (by decide))
    (.skip (nb _ (by decide)) (.skip (nb _ (by decide)) (.skip (nb _ (by decide)) (.skip (nb _ (by decide))
    (.skip (nb _ (by decide)) (.skip (nb _ (by decide)) (.skip ?_ (.skip ?_ (.here ?_))))))))))))
  · rintro (h | h | h)
    · exact nf _ (by decide) (by decide) (by decide) h
    · exact nf _ (by decide) (by decide) (by decide) h
    · exact nf _ (by decide) (by decide) (by decide) h
  · rintro ⟨h, -⟩
    exact nf _ (by decide) (by decide) (by decide) h
  · intro e
    rw [e] at hlast hpath
    have := congrArg List.length hpath
    simp only [List.length_nil, List.length_append, hl] at this
    omega
  · constructor
    · obtain ⟨d, hd⟩ := hfile
      exact ⟨d ++ [47], t, by rw [hd]; simp only [List.append_assoc]⟩
    · exact ⟨text "/tmp/ulpatch/", text "/map_files/ulp-" ++ t, by rw [hpath]; simp only [List.append_assoc]⟩

example : PatchPath 20298 (text "/tmp/ulpatch/20298/map_files/ulp-GLpgJM") := by
  have e : text "/tmp/ulpatch/20298/map_files/ulp-GLpgJM" = makePidUlpname 20298 (text "GLpgJM") := by
    decide +kernel
  rw [e]
  exact C45_made _ _ (by decide) (by decide)

/-- **Finding on C45**: a file this tool never made is taken for a patch when its
path happens to hold `ulp-` and the digits of the process id. -/
theorem C45_not_ours :
    getVmaType 12 (text "/usr/bin/cat") (text "/opt/ulp-tools/v125/plugin") = .ulpatch ∧
    ¬ PatchPath 12 (text "/opt/ulp-tools/v125/plugin") := by
  refine ⟨by decide +kernel, ?_⟩
  rintro ⟨p, t, -, -, -, h⟩
  have := congrArg (List.take 2) h
  have e1 : text "/opt/ulp-tools/v125/plugin" = 47 :: 111 :: text "pt/ulp-tools/v125/plugin" := by decide
  have e2 : text "/tmp/ulpatch/" = 47 :: 116 :: text "mp/ulpatch/" := by decide
  rw [e1, e2] at this
  simp only [List.cons_append, List.take_succ_cons, List.take_zero, List.cons.injEq] at this
  exact absurd this.2.1 (by decide)

/-- **C45** (names).  Every kind is shown under its own name, and different kinds
under different names. -/
theorem C45_type_names (t u : VmaType) :
    vmaTypeName t = text (shown t) ∧ (vmaTypeName t = vmaTypeName u → t = u) := by
  refine ⟨by cases t <;> decide, ?_⟩
  cases t <;> cases u <;> decide

end Ulp.VmaType
