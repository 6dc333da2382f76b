/-
Reading the words of a command line gives the options that were written, and nothing else is
taken.
-/
import Verif.Proof.Getopt
namespace Ulp.Getopt
open Ulp.Load (lit)
open Ulp.Cli (Opt AOpt)

theorem takes_no {s : List Byte} {c : Byte} (h : takes s c = some false) : letter s c = some .no := by
  unfold takes at h
  revert h
  cases letter s c with
  | none => exact nofun
  | some k => cases k <;> simp

theorem takes_req {s : List Byte} {c : Byte} (h : takes s c = some true) : letter s c = some .required := by
  unfold takes at h
  revert h
  cases letter s c with
  | none => exact nofun
  | some k => cases k <;> simp

variable {t : Table} {case : Ret → Case} {D : List Doc}

theorem Fits.flag (F : Fits t case D) {d : Doc} {c : Byte} {o : AOpt} (hd : d ∈ D) (hc : d.short = some c) (ho : d.mean = .inl o) :
    letter t.shorts c = some .no ∧ case (.opt c.toNat none) = .opt o ∧ o ≠ .own (.stop 1) := by
  obtain ⟨b, h1, h2⟩ := F.short d hd c hc
  unfold Agrees at h2
  rw [ho] at h2
  obtain ⟨h3, h4⟩ := h2
  rw [h3] at h1
  exact ⟨takes_no h1, h4⟩

theorem Fits.arg (F : Fits t case D) {d : Doc} {c : Byte} {f : Word → AOpt} (hd : d ∈ D) (hc : d.short = some c) (ho : d.mean = .inr f) :
    letter t.shorts c = some .required ∧ (∀ a, case (.opt c.toNat (some a)) = .opt (f a)) ∧ ∀ a, f a ≠ .own (.stop 1) := by
  obtain ⟨b, h1, h2⟩ := F.short d hd c hc
  unfold Agrees at h2
  rw [ho] at h2
  obtain ⟨h3, h4⟩ := h2
  rw [h3] at h1
  exact ⟨takes_req h1, h4⟩

theorem Fits.lflag (F : Fits t case D) {d : Doc} {l : Long} {o : AOpt} (hd : d ∈ D) (hl : l ∈ t.longs) (hn : l.name ∈ d.longs)
    (ho : d.mean = .inl o) : l.arg = false ∧ case (.opt l.val none) = .opt o ∧ o ≠ .own (.stop 1) := by
  have h := F.long d hd l hl hn
  unfold Agrees at h
  rw [ho] at h
  exact h

theorem Fits.larg (F : Fits t case D) {d : Doc} {l : Long} {f : Word → AOpt} (hd : d ∈ D) (hl : l ∈ t.longs) (hn : l.name ∈ d.longs)
    (ho : d.mean = .inr f) : l.arg = true ∧ (∀ a, case (.opt l.val (some a)) = .opt (f a)) ∧ ∀ a, f a ≠ .own (.stop 1) := by
  have h := F.long d hd l hl hn
  unfold Agrees at h
  rw [ho] at h
  exact h

theorem str2verbose_count (vs : Word) : Str.str2verbose vs = vs.count 118 := by
  induction vs with
  | nil => rfl
  | cons c vs ih =>
    rw [Str.str2verbose, ih, List.count_cons]
    by_cases h : c = 118#8
    · simp [h]; omega
    · simp [h]

/-! ### Names -/

theorem row_of (F : Fits t case D) {n : Word} {d : Doc} (hd : d ∈ D) (h : Names D n d) :
    ∃ l, row t.longs n = some l ∧ l ∈ t.longs ∧ l.name ∈ d.longs ∧ n ≠ [] ∧ 61 ∉ n := by
  have key : ∃ l, row t.longs n = some l ∧ l ∈ t.longs ∧ l.name ∈ d.longs ∧ n <+: l.name := by
    unfold row
    cases hf : t.longs.find? fun l => l.name = n with
    | some l =>
      have hl := List.mem_of_find?_eq_some hf
      have hn : l.name = n := by simpa using List.find?_some hf
      refine ⟨l, rfl, hl, ?_, by rw [hn]; exact List.prefix_rfl⟩
      rcases h with h | ⟨_, h⟩
      · rw [hn]; exact h
      · obtain ⟨e, he, hle⟩ := F.cover l hl
        exact h e he l.name hle (by rw [hn]; exact List.prefix_rfl)
    | none =>
      have hnone := List.find?_eq_none.mp hf
      rcases h with h | ⟨⟨m, hm, hp⟩, h⟩
      · obtain ⟨l, hl, hn⟩ := F.have_ d hd n h
        exact absurd (by simpa using hn) (hnone l hl)
      · obtain ⟨l0, hl0, hn0⟩ := F.have_ d hd m hm
        have all : ∀ l ∈ t.longs.filter fun l => n.isPrefixOf l.name, l ∈ t.longs ∧ l.name ∈ d.longs ∧ n <+: l.name := by
          intro l hl
          obtain ⟨h1, h2⟩ := List.mem_filter.mp hl
          have h2 : n <+: l.name := List.isPrefixOf_iff_prefix.mp h2
          obtain ⟨e, he, hle⟩ := F.cover l h1
          exact ⟨h1, h e he l.name hle h2, h2⟩
        have hin : l0 ∈ t.longs.filter fun l => n.isPrefixOf l.name :=
          List.mem_filter.mpr ⟨hl0, List.isPrefixOf_iff_prefix.mpr (by rw [hn0]; exact hp)⟩
        cases hfl : t.longs.filter fun l => n.isPrefixOf l.name with
        | nil => rw [hfl] at hin; cases hin
        | cons l ls =>
          rw [hfl] at all
          obtain ⟨a1, a2, a3⟩ := all l List.mem_cons_self
          refine ⟨l, ?_, a1, a2, a3⟩
          dsimp only
          rw [if_pos]
          rw [List.all_eq_true]
          intro x hx
          obtain ⟨b1, b2, _⟩ := all x (List.mem_cons_of_mem _ hx)
          have := (F.same d hd l a1 x b1 a2).mpr b2
          simp [this]
  obtain ⟨l, h1, h2, h3, h4⟩ := key
  obtain ⟨p1, p2⟩ := F.plain l h2
  refine ⟨l, h1, h2, h3, ?_, fun hc => p2 (h4.subset hc)⟩
  intro hn
  subst hn
  obtain ⟨x, hx, hxd⟩ := F.many d hd
  obtain ⟨e, he, hxe⟩ := F.cover x hx
  rcases h with h | ⟨_, h⟩
  · obtain ⟨y, hy, hyn⟩ := F.have_ d hd [] h
    exact (F.plain y hy).1 hyn
  · exact hxd (h e he x.name hxe List.nil_prefix)

theorem of_row (F : Fits t case D) {n : Word} {l : Long} (h : row t.longs n = some l) :
    l ∈ t.longs ∧ ∃ d ∈ D, l.name ∈ d.longs ∧ Names D n d := by
  unfold row at h
  cases hf : t.longs.find? fun l => l.name = n with
  | some x =>
    rw [hf] at h
    cases h
    have hl := List.mem_of_find?_eq_some hf
    have hn : l.name = n := by simpa using List.find?_some hf
    obtain ⟨e, he, hle⟩ := F.cover l hl
    exact ⟨hl, e, he, hle, .inl (by rw [← hn]; exact hle)⟩
  | none =>
    rw [hf] at h
    cases hfl : t.longs.filter fun l => n.isPrefixOf l.name with
    | nil => rw [hfl] at h; cases h
    | cons x xs =>
      rw [hfl] at h
      dsimp only at h
      by_cases hall : (xs.all fun m => decide (m.arg = x.arg) && decide (m.val = x.val)) = true
      · rw [if_pos hall] at h
        cases h
        have hmem : l ∈ t.longs.filter fun l => n.isPrefixOf l.name := by rw [hfl]; exact List.mem_cons_self
        obtain ⟨h1, h2⟩ := List.mem_filter.mp hmem
        have h2 : n <+: l.name := List.isPrefixOf_iff_prefix.mp h2
        obtain ⟨d, hd, hld⟩ := F.cover l h1
        refine ⟨h1, d, hd, hld, .inr ⟨⟨l.name, hld, h2⟩, ?_⟩⟩
        intro e he m hm hp
        obtain ⟨y, hy, hyn⟩ := F.have_ e he m hm
        have hin : y ∈ t.longs.filter fun l => n.isPrefixOf l.name :=
          List.mem_filter.mpr ⟨hy, List.isPrefixOf_iff_prefix.mpr (by rw [hyn]; exact hp)⟩
        rw [hfl] at hin
        rw [← hyn]
        rcases List.mem_cons.mp hin with rfl | hin
        · exact hld
        · have := List.all_eq_true.mp hall y hin
          exact (F.same d hd l h1 y hy hld).mp (by simpa using this)
      · rw [if_neg hall] at h
        cases h

/-! ### Words -/

theorem span_no {n : Word} (h : 61 ∉ n) : n.takeWhile (· ≠ 61) = n ∧ n.dropWhile (· ≠ 61) = [] := by
  induction n with
  | nil => exact ⟨rfl, rfl⟩
  | cons c n ih =>
    have hc : c ≠ 61 := fun e => h (e ▸ List.mem_cons_self)
    obtain ⟨h1, h2⟩ := ih fun hm => h (List.mem_cons_of_mem _ hm)
    simp only [List.takeWhile_cons, List.dropWhile_cons, hc, ne_eq, not_false_eq_true, decide_true, if_true]
    exact ⟨by rw [h1], h2⟩

theorem span_eq {n : Word} (h : 61 ∉ n) (a : Word) :
    (n ++ 61 :: a).takeWhile (· ≠ 61) = n ∧ (n ++ 61 :: a).dropWhile (· ≠ 61) = 61 :: a := by
  induction n with
  | nil => exact ⟨by simp, by simp⟩
  | cons c n ih =>
    have hc : c ≠ 61 := fun e => h (e ▸ List.mem_cons_self)
    obtain ⟨h1, h2⟩ := ih fun hm => h (List.mem_cons_of_mem _ hm)
    simp only [List.cons_append, List.takeWhile_cons, List.dropWhile_cons, hc, ne_eq, not_false_eq_true, decide_true, if_true]
    exact ⟨by rw [h1], h2⟩

theorem span_join (s : Word) : s.dropWhile (· ≠ 61) = [] ∧ s = s.takeWhile (· ≠ 61) ∨
    ∃ a, s.dropWhile (· ≠ 61) = 61 :: a ∧ s = s.takeWhile (· ≠ 61) ++ 61 :: a := by
  induction s with
  | nil => exact .inl ⟨rfl, rfl⟩
  | cons c s ih =>
    by_cases hc : c = 61
    · subst hc
      exact .inr ⟨s, by simp, by simp⟩
    · simp only [List.takeWhile_cons, List.dropWhile_cons, hc, ne_eq, not_false_eq_true, decide_true, if_true]
      rcases ih with ⟨h1, h2⟩ | ⟨a, h1, h2⟩
      · exact .inl ⟨h1, by rw [← h2]⟩
      · exact .inr ⟨a, h1, by rw [List.cons_append, ← h2]⟩

theorem scan_long (posix : Bool) {s : Word} (hs : s ≠ []) (ws : List Word) : scan t posix ((45 :: 45 :: s) :: ws) =
    match long t.longs s with
    | .inl r => r :: scan t posix ws
    | .inr v =>
      match ws with
      | [] => [.bad]
      | a :: ws => .opt v (some a) :: scan t posix ws := by
  have h1 : lit "-" = [45] := rfl
  have h2 : lit "--" = [45, 45] := rfl
  rw [scan, if_neg (by simp [h1]), if_neg (by simp [h2, hs]), if_pos (by simp [h2])]
  rfl

theorem scan_short (posix : Bool) {c : Byte} (hc : c ≠ 45) (s : Word) (ws : List Word) : scan t posix ((45 :: c :: s) :: ws) =
    match (letters t.shorts (c :: s)).2 with
    | none => (letters t.shorts (c :: s)).1 ++ scan t posix ws
    | some v =>
      match ws with
      | [] => (letters t.shorts (c :: s)).1 ++ [.bad]
      | a :: ws => (letters t.shorts (c :: s)).1 ++ .opt v (some a) :: scan t posix ws := by
  have h1 : lit "-" = [45] := rfl
  have h2 : lit "--" = [45, 45] := rfl
  have hc : ¬ c = 45#8 := hc
  rw [scan, if_neg (by simp [h1]), if_neg (by simp [h2, hc]), if_neg (by simp [h2, hc])]
  rfl

theorem scan_word (posix : Bool) {w : Word} (hw : w = lit "-" ∨ w.head? ≠ some 45) (ws : List Word) :
    scan t posix (w :: ws) = if posix then [] else scan t posix ws := by
  rw [scan, if_pos hw]

theorem letters_flags (F : Fits t case D) {cs : Word} {os : List AOpt} (h : Flags D cs os) (r : Word) :
    ∃ rs, rs.map case = os.map Case.opt ∧ letters t.shorts (cs ++ r) = (rs ++ (letters t.shorts r).1, (letters t.shorts r).2) := by
  induction h with
  | nil => exact ⟨[], rfl, rfl⟩
  | @cons d c o cs os hd hc ho _ ih =>
    obtain ⟨rs, h1, h2⟩ := ih
    obtain ⟨g1, g2, _⟩ := F.flag hd hc ho
    refine ⟨.opt c.toNat none :: rs, by rw [List.map_cons, List.map_cons, g2, h1], ?_⟩
    rw [List.cons_append, letters, g1]
    dsimp only
    rw [h2, List.cons_append]

theorem Fits.notdash (F : Fits t case D) {d : Doc} {c : Byte} (hd : d ∈ D) (hc : d.short = some c) : c ≠ 45 := by
  intro e
  obtain ⟨b, hb, _⟩ := F.short d hd c hc
  rw [e] at hb
  unfold takes at hb
  rw [F.dash] at hb
  cases hb

theorem flags_head (F : Fits t case D) {cs : Word} {os : List AOpt} (h : Flags D cs os) {c : Byte} {r : Word} (hc : c ≠ 45) :
    ∃ x s, cs ++ c :: r = x :: s ∧ x ≠ 45 := by
  cases h with
  | nil => exact ⟨c, r, rfl, hc⟩
  | @cons d x o cs os hd hx _ _ => exact ⟨x, cs ++ c :: r, rfl, F.notdash hd hx⟩

theorem read_writes (F : Fits t case D) (V : Word → Prop) (posix : Bool) {xs : List Word} {os : List AOpt} (h : Writes D V xs os)
    (ws : List Word) : ∃ rs, rs.map case = os.map Case.opt ∧ scan t posix (xs ++ ws) = rs ++ scan t posix ws := by
  cases h with
  | @name d n o hd hn ho =>
    obtain ⟨l, h1, h2, h3, h4, h5⟩ := row_of F hd hn
    obtain ⟨g1, g2, _⟩ := F.lflag hd h2 h3 ho
    obtain ⟨s1, s2⟩ := span_no h5
    refine ⟨[.opt l.val none], by rw [List.map_cons, g2]; rfl, ?_⟩
    show scan t posix ((45 :: 45 :: n) :: ws) = _
    rw [scan_long posix h4]
    unfold long
    rw [s1, h1]
    dsimp only
    rw [s2, g1]
    rfl
  | @nameEq d n f a hd hn ho =>
    obtain ⟨l, h1, h2, h3, h4, h5⟩ := row_of F hd hn
    obtain ⟨g1, g2, _⟩ := F.larg hd h2 h3 ho
    obtain ⟨s1, s2⟩ := span_eq h5 a
    refine ⟨[.opt l.val (some a)], by rw [List.map_cons, g2]; rfl, ?_⟩
    have e : lit "--" ++ n ++ lit "=" ++ a = 45 :: 45 :: (n ++ 61 :: a) := by
      show [45, 45] ++ n ++ [61] ++ a = _
      simp
    rw [e]
    show scan t posix ((45 :: 45 :: (n ++ 61 :: a)) :: ws) = _
    rw [scan_long posix (by simp)]
    unfold long
    rw [s1, h1]
    dsimp only
    rw [s2, g1]
    rfl
  | @nameArg d n f a hd hn ho =>
    obtain ⟨l, h1, h2, h3, h4, h5⟩ := row_of F hd hn
    obtain ⟨g1, g2, _⟩ := F.larg hd h2 h3 ho
    obtain ⟨s1, s2⟩ := span_no h5
    refine ⟨[.opt l.val (some a)], by rw [List.map_cons, g2]; rfl, ?_⟩
    show scan t posix ((45 :: 45 :: n) :: a :: ws) = _
    rw [scan_long posix h4]
    unfold long
    rw [s1, h1]
    dsimp only
    rw [s2, g1]
    rfl
  | @flags cs os hne hf =>
    obtain ⟨rs, h1, h2⟩ := letters_flags F hf []
    refine ⟨rs, h1, ?_⟩
    cases hf with
    | nil => exact absurd rfl hne
    | @cons d x o cs os hd hx _ _ =>
      show scan t posix ((45 :: x :: cs) :: ws) = _
      rw [scan_short posix (F.notdash hd hx)]
      rw [List.append_nil] at h2
      rw [h2]
      simp [letters]
  | @letterArg d cs os c f a hf hd hc ho ha =>
    obtain ⟨g1, g2, _⟩ := F.arg hd hc ho
    obtain ⟨rs, h1, h2⟩ := letters_flags F hf (c :: a)
    obtain ⟨x, s, e, hx⟩ := flags_head (r := a) F hf (F.notdash hd hc)
    refine ⟨rs ++ [.opt c.toNat (some a)], by rw [List.map_append, List.map_append, h1, List.map_cons, g2]; rfl, ?_⟩
    have e2 : lit "-" ++ cs ++ c :: a = 45 :: x :: s := by
      show [45] ++ cs ++ c :: a = _
      rw [← e]; simp
    rw [e2]
    show scan t posix ((45 :: x :: s) :: ws) = _
    rw [scan_short posix hx, ← e, h2, letters, g1]
    dsimp only
    rw [if_neg ha]
  | @letterSep d cs os c f a hf hd hc ho =>
    obtain ⟨g1, g2, _⟩ := F.arg hd hc ho
    obtain ⟨rs, h1, h2⟩ := letters_flags F hf [c]
    obtain ⟨x, s, e, hx⟩ := flags_head (r := []) F hf (F.notdash hd hc)
    refine ⟨rs ++ [.opt c.toNat (some a)], by rw [List.map_append, List.map_append, h1, List.map_cons, g2]; rfl, ?_⟩
    have e2 : lit "-" ++ cs ++ [c] = 45 :: x :: s := by
      show [45] ++ cs ++ [c] = _
      rw [← e]; simp
    rw [e2]
    show scan t posix ((45 :: x :: s) :: a :: ws) = _
    rw [scan_short posix hx, ← e, h2, letters, g1]
    dsimp only
    rw [if_pos rfl]
    simp
  | @verbose cs os vs hf _ =>
    obtain ⟨rs, h1, h2⟩ := letters_flags F hf (118 :: vs)
    obtain ⟨x, s, e, hx⟩ := flags_head (c := 118) (r := vs) F hf (by decide)
    refine ⟨rs ++ [.opt 118 (if vs = [] then none else some vs)], ?_, ?_⟩
    · rw [List.map_append, List.map_append, h1, List.map_cons, F.vs]
      by_cases hv : vs = []
      · rw [if_pos hv, hv]; rfl
      · rw [if_neg hv]
        dsimp only
        rw [str2verbose_count]
        rfl
    have e2 : lit "-" ++ cs ++ lit "v" ++ vs = 45 :: x :: s := by
      show [45] ++ cs ++ [118] ++ vs = _
      rw [← e]; simp
    rw [e2]
    show scan t posix ((45 :: x :: s) :: ws) = _
    rw [scan_short posix hx, ← e, h2, letters, F.v]
    rfl

theorem read_spelled (F : Fits t case D) {V : Word → Prop} {posix : Bool} {ws : List Word} {os : List AOpt}
    (h : Spelled D V posix ws os) : (scan t posix ws).map case = os.map Case.opt := by
  induction h with
  | done => rfl
  | dashes ws =>
    show (scan t posix ([45, 45] :: ws)).map case = _
    rw [scan]
    rfl
  | word hp hw _ ih => rw [scan_word _ hw, if_neg (by simp [hp])]; exact ih
  | posix ws hp hw => rw [scan_word _ hw, if_pos hp]; rfl
  | opts hw _ ih =>
    obtain ⟨rs, h1, h2⟩ := read_writes F V posix hw _
    rw [h2, List.map_append, List.map_append, h1, ih]

/-! ### What is taken -/

theorem of_letters (F : Fits t case D) (posix : Bool) : ∀ cs : Word, Ret.bad ∉ (letters t.shorts cs).1 → ∃ xs os, Flags D xs os ∧
    ((cs = xs ∧ (letters t.shorts cs).2 = none) ∨
      (∃ d c f a, d ∈ D ∧ d.short = some c ∧ d.mean = .inr f ∧ a ≠ [] ∧ cs = xs ++ c :: a ∧ (letters t.shorts cs).2 = none) ∨
      (∃ d c f, d ∈ D ∧ d.short = some c ∧ d.mean = .inr f ∧ cs = xs ++ [c] ∧ (letters t.shorts cs).2 = some c.toNat) ∨
      ∃ vs, cs = xs ++ 118 :: vs ∧ (letters t.shorts cs).2 = none)
  | [], _ => ⟨[], [], .nil, .inl ⟨rfl, rfl⟩⟩
  | c :: r, hb => by
    rcases F.letters c with hl | hl | ⟨d, hd, hc⟩
    · rw [letters, hl] at hb
      exact absurd List.mem_cons_self hb
    · subst hl
      refine ⟨[], [], .nil, .inr (.inr (.inr ⟨r, rfl, ?_⟩))⟩
      rw [letters, F.v]
    · cases hm : d.mean with
      | inl o =>
        obtain ⟨g1, g2, _⟩ := F.flag hd hc hm
        rw [letters, g1] at hb ⊢
        dsimp only at hb ⊢
        obtain ⟨xs, os, hf, h⟩ := of_letters F posix r fun hx => hb (List.mem_cons_of_mem _ hx)
        refine ⟨c :: xs, o :: os, .cons hd hc hm hf, ?_⟩
        rcases h with ⟨h1, h2⟩ | ⟨d', c', f, a, k1, k2, k3, k4, k5, k6⟩ | ⟨d', c', f, k1, k2, k3, k5, k6⟩ | ⟨vs, k5, k6⟩
        · exact .inl ⟨by rw [← h1], h2⟩
        · exact .inr (.inl ⟨d', c', f, a, k1, k2, k3, k4, by rw [List.cons_append, ← k5], k6⟩)
        · exact .inr (.inr (.inl ⟨d', c', f, k1, k2, k3, by rw [List.cons_append, ← k5], k6⟩))
        · exact .inr (.inr (.inr ⟨vs, by rw [List.cons_append, ← k5], k6⟩))
      | inr f =>
        obtain ⟨g1, g2, _⟩ := F.arg hd hc hm
        refine ⟨[], [], .nil, ?_⟩
        rw [letters, g1]
        dsimp only
        by_cases hr : r = []
        · rw [if_pos hr]
          subst hr
          exact .inr (.inr (.inl ⟨d, c, f, hd, hc, hm, rfl, rfl⟩))
        · rw [if_neg hr]
          exact .inr (.inl ⟨d, c, f, r, hd, hc, hm, hr, rfl, rfl⟩)

theorem write_one {V : Word → Prop} {posix : Bool} {x : Word} {ws : List Word} {os ps : List AOpt} (h : Writes D V [x] os)
    (hs : Spelled D V posix ws ps) : Spelled D V posix (x :: ws) (os ++ ps) := .opts (xs := [x]) h hs

theorem write_two {V : Word → Prop} {posix : Bool} {x a : Word} {ws : List Word} {os ps : List AOpt} (h : Writes D V [x, a] os)
    (hs : Spelled D V posix ws ps) : Spelled D V posix (x :: a :: ws) (os ++ ps) := .opts (xs := [x, a]) h hs

theorem only_spelled (F : Fits t case D) (posix : Bool) : ∀ (k : Nat) (ws : List Word), ws.length ≤ k → Ret.bad ∉ scan t posix ws →
    ∃ os, Spelled D (fun _ => True) posix ws os := by
  intro k
  induction k with
  | zero =>
    intro ws hk _
    cases ws with
    | nil => exact ⟨[], .done⟩
    | cons w ws => simp at hk
  | succ k ih =>
    intro ws hk hb
    cases ws with
    | nil => exact ⟨[], .done⟩
    | cons w ws =>
      rw [List.length_cons] at hk
      by_cases hw : w = lit "-" ∨ w.head? ≠ some 45
      · rw [scan_word posix hw] at hb
        cases hp : posix with
        | true => exact ⟨[], .posix ws rfl hw⟩
        | false =>
          subst hp
          obtain ⟨os, h⟩ := ih ws (by omega) hb
          exact ⟨os, .word rfl hw h⟩
      · obtain ⟨hw1, hw2⟩ := not_or.mp hw
        have hw2 : w.head? = some 45 := Classical.not_not.mp hw2
        cases w with
        | nil => cases hw2
        | cons x w =>
          have : x = 45 := by simpa using hw2
          subst this
          cases w with
          | nil => exact absurd rfl hw1
          | cons c s =>
            by_cases hc : c = 45
            · subst hc
              by_cases hs : s = []
              · subst hs
                exact ⟨[], .dashes ws⟩
              · rw [scan_long posix hs] at hb
                unfold long at hb
                cases hr : row t.longs (s.takeWhile (· ≠ 61)) with
                | none => rw [hr] at hb; exact absurd List.mem_cons_self hb
                | some l =>
                  rw [hr] at hb
                  dsimp only at hb
                  obtain ⟨hl, d, hd, hn, hN⟩ := of_row F hr
                  rcases span_join s with ⟨s1, s2⟩ | ⟨a, s1, s2⟩
                  · rw [s1] at hb
                    rw [← s2] at hN
                    dsimp only at hb
                    cases hm : d.mean with
                    | inl o =>
                      obtain ⟨g1, _⟩ := F.lflag hd hl hn hm
                      rw [if_neg (by simp [g1])] at hb
                      obtain ⟨os, h⟩ := ih ws (by omega) fun hx => hb (List.mem_cons_of_mem _ hx)
                      exact ⟨_, write_one (.name hd hN hm) h⟩
                    | inr f =>
                      obtain ⟨g1, _⟩ := F.larg hd hl hn hm
                      rw [if_pos g1] at hb
                      cases ws with
                      | nil => exact absurd List.mem_cons_self hb
                      | cons a ws =>
                        rw [List.length_cons] at hk
                        obtain ⟨os, h⟩ := ih ws (by omega) fun hx => hb (List.mem_cons_of_mem _ hx)
                        exact ⟨_, write_two (.nameArg a hd hN hm) h⟩
                  · rw [s1] at hb
                    dsimp only at hb
                    cases hm : d.mean with
                    | inl o =>
                      obtain ⟨g1, _⟩ := F.lflag hd hl hn hm
                      rw [if_neg (by simp [g1])] at hb
                      exact absurd List.mem_cons_self hb
                    | inr f =>
                      obtain ⟨g1, _⟩ := F.larg hd hl hn hm
                      rw [if_pos g1] at hb
                      obtain ⟨os, h⟩ := ih ws (by omega) fun hx => hb (List.mem_cons_of_mem _ hx)
                      have := write_one (.nameEq (V := fun _ => True) a hd hN hm) h
                      have e : lit "--" ++ s.takeWhile (· ≠ 61) ++ lit "=" ++ a = 45 :: 45 :: s := by
                        show [45, 45] ++ s.takeWhile (· ≠ 61) ++ [61] ++ a = _
                        conv => rhs; rw [s2]
                        simp
                      rw [e] at this
                      exact ⟨_, this⟩
            · rw [scan_short posix hc] at hb
              have hb1 : Ret.bad ∉ (letters t.shorts (c :: s)).1 := by
                intro hx
                apply hb
                cases (letters t.shorts (c :: s)).2 with
                | none => exact List.mem_append_left _ hx
                | some v => cases ws <;> exact List.mem_append_left _ hx
              obtain ⟨xs, os, hf, h⟩ := of_letters F posix (c :: s) hb1
              rcases h with ⟨h1, h2⟩ | ⟨d, c', f, a, k1, k2, k3, k4, k5, k6⟩ | ⟨d, c', f, k1, k2, k3, k5, k6⟩ | ⟨vs, k5, k6⟩
              · rw [h2] at hb
                obtain ⟨ps, h⟩ := ih ws (by omega) fun hx => hb (List.mem_append_right _ hx)
                rw [h1]
                exact ⟨_, write_one (.flags (by rw [← h1]; simp) hf) h⟩
              · rw [k6] at hb
                obtain ⟨ps, h⟩ := ih ws (by omega) fun hx => hb (List.mem_append_right _ hx)
                rw [k5]
                exact ⟨_, write_one (.letterArg a hf k1 k2 k3 k4) h⟩
              · rw [k6] at hb
                cases ws with
                | nil => exact absurd (List.mem_append_right _ List.mem_cons_self) hb
                | cons a ws =>
                  rw [List.length_cons] at hk
                  obtain ⟨ps, h⟩ := ih ws (by omega) fun hx => hb (List.mem_append_right _ (List.mem_cons_of_mem _ hx))
                  rw [k5]
                  exact ⟨_, write_two (.letterSep a hf k1 k2 k3) h⟩
              · rw [k6] at hb
                obtain ⟨ps, h⟩ := ih ws (by omega) fun hx => hb (List.mem_append_right _ hx)
                rw [k5]
                have := write_one (.verbose (V := fun _ => True) vs hf trivial) h
                have e : lit "-" ++ xs ++ lit "v" ++ vs = 45 :: (xs ++ 118 :: vs) := by
                  show [45] ++ xs ++ [118] ++ vs = _
                  simp
                rw [e] at this
                exact ⟨_, this⟩

end Ulp.Getopt
