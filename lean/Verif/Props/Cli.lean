/-
C69 - C73: the command lines of the tools.
-/
import Verif.Spec.Cli
namespace Ulp.Cli
open Ulp.Load (lit)
open Ulp.Str
open Ulp.Text

/-! ## Sub-options -/

theorem takeWhile_stop {p : Byte → Bool} {a b : List Byte} (h : ∀ x ∈ a, p x = true) (hb : ∀ x, b.head? = some x → p x = false) :
    (a ++ b).takeWhile p = a ∧ (a ++ b).dropWhile p = b := by
  induction a with
  | nil =>
    cases b with
    | nil => exact ⟨rfl, rfl⟩
    | cons c b => have := hb c rfl; simp [this]
  | cons c a ih =>
    have hc := h c List.mem_cons_self
    obtain ⟨h1, h2⟩ := ih fun x hx => h x (List.mem_cons_of_mem _ hx)
    simp [hc, h1, h2]

theorem subOf_pieceText {p : Sub} (h : Plain p) : subOf (pieceText p) = p := by
  obtain ⟨n, v⟩ := p
  obtain ⟨_, _, h3, _⟩ := h
  have h3 : 61 ∉ n := h3
  have ha : ∀ x ∈ n, decide (x ≠ (61 : Byte)) = true := fun x hx => by
    simpa using fun e : x = 61 => h3 (e ▸ hx)
  cases v with
  | none =>
    obtain ⟨h1, h2⟩ := takeWhile_stop (b := []) ha (by simp)
    rw [List.append_nil] at h1 h2
    simp only [subOf, pieceText]
    rw [h1, h2]
  | some v =>
    obtain ⟨h1, h2⟩ := takeWhile_stop (b := 61 :: v) ha (by simp)
    simp only [subOf, pieceText]
    rw [h1, h2]

theorem pieceText_ok {p : Sub} (h : Plain p) : pieceText p ≠ [] ∧ 44 ∉ pieceText p := by
  obtain ⟨n, v⟩ := p
  obtain ⟨h1, h2, _, h4⟩ := h
  cases v with
  | none => exact ⟨h1, h2⟩
  | some v =>
    have h4 := h4 v rfl
    refine ⟨by simp [pieceText], ?_⟩
    simp only [pieceText, List.mem_append, List.mem_cons, not_or]
    exact ⟨h2, by decide, h4⟩

/-- **C69**: every list of sub-options is read back from its text as it was written:
the names, the values, the order. -/
theorem C69_subopts : ∀ ps : List Sub, (∀ p ∈ ps, Plain p) → subopts (argText ps) = ps
  | [], _ => by rw [argText, List.map_nil, joinComma, subopts]
  | [p], h => by
    have hp := h p List.mem_cons_self
    obtain ⟨h1, h2⟩ := pieceText_ok hp
    have ha : ∀ x ∈ pieceText p, decide (x ≠ (44 : Byte)) = true := fun x hx => by
      simpa using fun e : x = 44 => h2 (e ▸ hx)
    obtain ⟨t1, t2⟩ := takeWhile_stop (b := []) ha (by simp)
    rw [List.append_nil] at t1 t2
    have e : argText [p] = pieceText p := rfl
    rw [e]
    cases ep : pieceText p with
    | nil => exact absurd ep h1
    | cons c r =>
      rw [subopts, ← ep, t1, t2, subOf_pieceText hp]
      simp [subopts]
  | p :: q :: ps, h => by
    have hp := h p List.mem_cons_self
    have ih := C69_subopts (q :: ps) fun x hx => h x (List.mem_cons_of_mem _ hx)
    obtain ⟨h1, h2⟩ := pieceText_ok hp
    have ha : ∀ x ∈ pieceText p, decide (x ≠ (44 : Byte)) = true := fun x hx => by
      simpa using fun e : x = 44 => h2 (e ▸ hx)
    obtain ⟨t1, t2⟩ := takeWhile_stop (b := 44 :: argText (q :: ps)) ha (by simp)
    have e : argText (p :: q :: ps) = pieceText p ++ 44 :: argText (q :: ps) := rfl
    rw [e]
    cases ep : pieceText p ++ 44 :: argText (q :: ps) with
    | nil => simp at ep
    | cons c r =>
      rw [subopts, ← ep, t1, t2, subOf_pieceText hp, List.drop_succ_cons, List.drop_zero, ih]

theorem numeral_no {b : Nat} (hb : b ≤ 16) {s : List Byte} {v : Nat} (h : Numeral b s v) {c : Byte} (hc : c.toNat < 48) :
    c ∉ s := by
  intro hm
  obtain ⟨u, d, hd, e⟩ := h.chars c hm
  have h2 := digitChar_toNat u (show d < 16 by omega)
  rw [← e] at h2
  split at h2
  · omega
  · split at h2 <;> omega

theorem AddrText.plain {s : List Byte} {v : BitVec 64} (h : AddrText s v) : 44 ∉ s := by
  cases h with
  | dec h _ _ => exact numeral_no (by omega) h (by decide)
  | hex h _ =>
    intro hm
    rcases List.mem_append.1 hm with hm | hm
    · revert hm; decide
    · exact numeral_no (by omega) h (by decide) hm
  | oct h _ =>
    intro hm
    rcases List.mem_append.1 hm with hm | hm
    · revert hm; decide
    · exact numeral_no (by omega) h (by decide) hm

theorem AddrText.value {s : List Byte} {v : BitVec 64} (h : AddrText s v) : str2addr s = v := by
  cases h with
  | dec h h0 hv => exact (C38_addr_decimal h (Or.inr h0)).1 hv
  | hex h hv => exact (C38_addr_hex h).1 hv
  | oct h hv => exact (C38_addr_octal h).1 hv

theorem SizeText.plain {s : List Byte} {v : BitVec 64} (h : SizeText s v) : 44 ∉ s := by
  have hsf : ∀ {sf k}, Suffix sf k → 44 ∉ sf := by
    intro sf k h
    cases h <;> decide
  cases h with
  | dec h hs _ =>
    intro hm
    rcases List.mem_append.1 hm with hm | hm
    · exact numeral_no (by omega) h (by decide) hm
    · exact hsf hs hm
  | hex h hs _ =>
    intro hm
    rcases List.mem_append.1 hm with hm | hm
    · rcases List.mem_append.1 hm with hm | hm
      · revert hm; decide
      · exact numeral_no (by omega) h (by decide) hm
    · exact hsf hs hm

theorem SizeText.value {s : List Byte} {v : BitVec 64} (h : SizeText s v) : str2size s = v := by
  have hk : ∀ {sf k}, Suffix sf k → 0 < k := by
    intro sf k h
    cases h <;> decide
  cases h with
  | dec h hs hv =>
    refine C38_size_decimal h hs (Nat.lt_of_le_of_lt ?_ hv)
    exact Nat.le_mul_of_pos_right _ (hk hs)
  | hex h hs hv =>
    refine C38_size_hex h hs (Nat.lt_of_le_of_lt ?_ hv)
    exact Nat.le_mul_of_pos_right _ (hk hs)

/-! ## Folds -/

theorem bind_ok {α β : Type} {x : Except Int α} {f : α → Except Int β} {b : β} (h : x.bind f = .ok b) :
    ∃ a, x = .ok a ∧ f a = .ok b := by
  cases x with
  | error e => cases h
  | ok a => exact ⟨a, rfl, h⟩

theorem fold_cons {σ α : Type} (f : σ → α → Except Int σ) (c : σ) (a : α) (as : List α) :
    (a :: as).foldlM f c = (f c a).bind fun c => as.foldlM f c := rfl

/-- What no step changes is not changed. -/
theorem fold_keep {σ α β : Type} {f : σ → α → Except Int σ} (g : σ → β) (h : ∀ c a c', f c a = .ok c' → g c' = g c)
    (as : List α) : ∀ {c c'}, as.foldlM f c = .ok c' → g c' = g c := by
  induction as with
  | nil => intro c c' e; cases e; rfl
  | cons a as ih =>
    intro c c' e
    rw [fold_cons] at e
    obtain ⟨d, e1, e2⟩ := bind_ok e
    exact (ih e2).trans (h _ _ _ e1)

/-- A flag that some steps set. -/
theorem fold_flag {σ α : Type} {f : σ → α → Except Int σ} (g : σ → Bool) (k : α → Bool)
    (h : ∀ c a c', f c a = .ok c' → g c' = (g c || k a)) (as : List α) :
    ∀ {c c'}, as.foldlM f c = .ok c' → g c' = (g c || as.any k) := by
  induction as with
  | nil => intro c c' e; cases e; simp
  | cons a as ih =>
    intro c c' e
    rw [fold_cons] at e
    obtain ⟨d, e1, e2⟩ := bind_ok e
    rw [ih e2, h _ _ _ e1, List.any_cons, Bool.or_assoc]

theorem fold_append {σ α : Type} (f : σ → α → Except Int σ) (as bs : List α) (c : σ) :
    (as ++ bs).foldlM f c = (as.foldlM f c).bind fun c => bs.foldlM f c := by
  induction as generalizing c with
  | nil => rfl
  | cons a as ih =>
    rw [List.cons_append, fold_cons, fold_cons]
    cases f c a with
    | error e => rfl
    | ok d => exact ih d

/-! ## What an option leaves alone -/

def blankDump (c : Cfg) : Cfg :=
  { c with dumpVma := false, dumpVdso := false, dumpMem := false, disasm := false, dumpAddr := 0, dumpSize := 0,
           vmaAddr := 0, disasmAddr := 0, disasmSize := 0 }
def blankJmp (c : Cfg) : Cfg := { c with jmpFrom := 0, jmpTo := 0, rdonly := false }
def blankMap (c : Cfg) : Cfg := { c with mapFile := none, mapRo := false, mapNoexec := false, mapAddr := 0, rdonly := false }
def blankMprot (c : Cfg) : Cfg := { c with mprotAddr := 0, mprotLen := 0, mprotProt := 0, rdonly := false }

theorem dumpSub_keep (c : Cfg) (p : Sub) (c' : Cfg) (h : dumpSub c p = .ok c') : blankDump c' = blankDump c := by
  revert h
  unfold dumpSub
  repeat' split
  all_goals (intro h; cases h <;> rfl)

theorem dumpCheck_keep {c c' : Cfg} (h : dumpCheck c = .ok c') : blankDump c' = blankDump c := by
  revert h
  unfold dumpCheck
  repeat' split
  all_goals (intro h; cases h <;> rfl)

theorem jmpSub_keep (c : Cfg) (p : Sub) (c' : Cfg) (h : jmpSub c p = .ok c') :
    blankJmp c' = blankJmp c ∧ c'.rdonly = c.rdonly := by
  revert h
  unfold jmpSub
  repeat' split
  all_goals (intro h; cases h <;> exact ⟨rfl, rfl⟩)

theorem mapSub_keep (c : Cfg) (p : Sub) (c' : Cfg) (h : mapSub c p = .ok c') :
    blankMap c' = blankMap c ∧ c'.rdonly = c.rdonly := by
  revert h
  unfold mapSub
  repeat' split
  all_goals (intro h; cases h <;> exact ⟨rfl, rfl⟩)

theorem mprotSub_keep (c : Cfg × Bool) (p : Sub) (c' : Cfg × Bool) (h : mprotSub c p = .ok c') :
    blankMprot c'.1 = blankMprot c.1 ∧ c'.1.rdonly = c.1.rdonly := by
  revert h
  unfold mprotSub
  repeat' split
  all_goals (intro h; cases h <;> exact ⟨rfl, rfl⟩)

theorem dump_step {page : BitVec 64} {c c' : Cfg} {a : List Byte} (h : taskOpt page c (.dump a) = .ok c') :
    blankDump c' = blankDump c := by
  obtain ⟨d, h1, h2⟩ := bind_ok h
  exact (dumpCheck_keep h2).trans (fold_keep blankDump dumpSub_keep _ h1)

theorem jmp_step {page : BitVec 64} {c c' : Cfg} {a : List Byte} (h : taskOpt page c (.jmp a) = .ok c') :
    blankJmp c' = blankJmp c ∧ c'.jmpFrom ≠ 0 ∧ c'.jmpTo ≠ 0 ∧ c'.rdonly = false := by
  obtain ⟨d, h1, h2⟩ := bind_ok h
  have hk := fold_keep blankJmp (fun c p c' e => (jmpSub_keep c p c' e).1) _ h1
  unfold jmpCheck at h2
  split at h2
  · cases h2
  · next hn =>
    cases h2
    exact ⟨hk, fun q => hn (Or.inl q), fun q => hn (Or.inr q), rfl⟩

theorem map_step {page : BitVec 64} {c c' : Cfg} {a : List Byte} (h : taskOpt page c (.map a) = .ok c') :
    blankMap c' = blankMap c ∧ c'.mapFile ≠ none ∧ c'.rdonly = false := by
  obtain ⟨d, h1, h2⟩ := bind_ok h
  have hk := fold_keep blankMap (fun c p c' e => (mapSub_keep c p c' e).1) _ h1
  unfold mapCheck at h2
  split at h2
  · cases h2
  · next hn =>
    cases h2
    exact ⟨hk, hn, rfl⟩

theorem mprot_step {page : BitVec 64} {c c' : Cfg} {a : List Byte} (h : taskOpt page c (.mprotect a) = .ok c') :
    blankMprot c' = blankMprot c ∧ c'.mprotAddr ≠ 0 ∧ c'.mprotLen ≠ 0 ∧ c'.rdonly = false := by
  obtain ⟨d, h1, h2⟩ := bind_ok h
  have hk := fold_keep (fun c : Cfg × Bool => blankMprot c.1) (fun c p c' e => (mprotSub_keep c p c' e).1) _ h1
  unfold mprotCheck at h2
  split at h2
  · cases h2
  split at h2
  · cases h2
  next hn =>
  split at h2
  · cases h2
  cases h2
  exact ⟨hk, fun q => hn (Or.inl q), fun q => hn (Or.inr q), rfl⟩

/-! ## Only what is asked for -/

/-- The change of that kind is done. -/
def Cfg.does (c : Cfg) : Kind → Bool
  | .mprotect => c.mprotAddr ≠ 0
  | .map => c.mapFile ≠ none
  | .unmap => c.unmapIt
  | .jmp => c.jmpFrom ≠ 0 ∧ c.jmpTo ≠ 0

theorem opt_does (page : BitVec 64) (k : Kind) (c : Cfg) (o : Opt) (c' : Cfg) (h : taskOpt page c o = .ok c') :
    c'.does k = (c.does k || decide (o.change = some k)) := by
  cases o with
  | dump a =>
    have hb := dump_step h
    have h1 : c'.mprotAddr = c.mprotAddr := by have q := congrArg Cfg.mprotAddr hb; exact q
    have h2 : c'.mapFile = c.mapFile := by have q := congrArg Cfg.mapFile hb; exact q
    have h3 : c'.unmapIt = c.unmapIt := by have q := congrArg Cfg.unmapIt hb; exact q
    have h4 : c'.jmpFrom = c.jmpFrom := by have q := congrArg Cfg.jmpFrom hb; exact q
    have h5 : c'.jmpTo = c.jmpTo := by have q := congrArg Cfg.jmpTo hb; exact q
    cases k <;> simp [Cfg.does, Opt.change, h1, h2, h3, h4, h5]
  | jmp a =>
    obtain ⟨hb, n1, n2, _⟩ := jmp_step h
    have h1 : c'.mprotAddr = c.mprotAddr := by have q := congrArg Cfg.mprotAddr hb; exact q
    have h2 : c'.mapFile = c.mapFile := by have q := congrArg Cfg.mapFile hb; exact q
    have h3 : c'.unmapIt = c.unmapIt := by have q := congrArg Cfg.unmapIt hb; exact q
    cases k
    case jmp => simp [Cfg.does, Opt.change]; exact ⟨n1, n2⟩
    all_goals simp [Cfg.does, Opt.change, h1, h2, h3]
  | map a =>
    obtain ⟨hb, n1, _⟩ := map_step h
    have h1 : c'.mprotAddr = c.mprotAddr := by have q := congrArg Cfg.mprotAddr hb; exact q
    have h3 : c'.unmapIt = c.unmapIt := by have q := congrArg Cfg.unmapIt hb; exact q
    have h4 : c'.jmpFrom = c.jmpFrom := by have q := congrArg Cfg.jmpFrom hb; exact q
    have h5 : c'.jmpTo = c.jmpTo := by have q := congrArg Cfg.jmpTo hb; exact q
    cases k
    case map => simp [Cfg.does, Opt.change]; exact n1
    all_goals simp [Cfg.does, Opt.change, h1, h3, h4, h5]
  | mprotect a =>
    obtain ⟨hb, n1, _⟩ := mprot_step h
    have h2 : c'.mapFile = c.mapFile := by have q := congrArg Cfg.mapFile hb; exact q
    have h3 : c'.unmapIt = c.unmapIt := by have q := congrArg Cfg.unmapIt hb; exact q
    have h4 : c'.jmpFrom = c.jmpFrom := by have q := congrArg Cfg.jmpFrom hb; exact q
    have h5 : c'.jmpTo = c.jmpTo := by have q := congrArg Cfg.jmpTo hb; exact q
    cases k
    case mprotect => simp [Cfg.does, Opt.change]; exact n1
    all_goals simp [Cfg.does, Opt.change, h2, h3, h4, h5]
  | unmap a => cases h; cases k <;> simp [Cfg.does, Opt.change]
  | pid a => cases h; cases k <;> simp [Cfg.does, Opt.change]
  | vmas => cases h; cases k <;> simp [Cfg.does, Opt.change]
  | threads => cases h; cases k <;> simp [Cfg.does, Opt.change]
  | fds => cases h; cases k <;> simp [Cfg.does, Opt.change]
  | auxv => cases h; cases k <;> simp [Cfg.does, Opt.change]
  | status => cases h; cases k <;> simp [Cfg.does, Opt.change]
  | symbols => cases h; cases k <;> simp [Cfg.does, Opt.change]
  | output a => cases h; cases k <;> simp [Cfg.does, Opt.change]
  | dryRun => cases h; cases k <;> simp [Cfg.does, Opt.change]
  | force => cases h; cases k <;> simp [Cfg.does, Opt.change]
  | other => cases h; cases k <;> simp [Cfg.does, Opt.change]
  | stop n => cases h
  | patch a => cases h
  | unpatch => cases h
  | function a => cases h
  | patchObj a => cases h

theorem opt_writes (page : BitVec 64) (c : Cfg) (o : Opt) (c' : Cfg) (h : taskOpt page c o = .ok c') :
    opensForWriting c' = (opensForWriting c || o.change.isSome) := by
  cases o with
  | dump a =>
    have h1 : c'.rdonly = c.rdonly := by have q := congrArg Cfg.rdonly (dump_step h); exact q
    simp [opensForWriting, Opt.change, h1]
  | jmp a => simp [opensForWriting, Opt.change, (jmp_step h).2.2.2]
  | map a => simp [opensForWriting, Opt.change, (map_step h).2.2]
  | mprotect a => simp [opensForWriting, Opt.change, (mprot_step h).2.2.2]
  | unmap a => cases h; simp [opensForWriting, Opt.change]
  | pid a => cases h; simp [opensForWriting, Opt.change]
  | vmas => cases h; simp [opensForWriting, Opt.change]
  | threads => cases h; simp [opensForWriting, Opt.change]
  | fds => cases h; simp [opensForWriting, Opt.change]
  | auxv => cases h; simp [opensForWriting, Opt.change]
  | status => cases h; simp [opensForWriting, Opt.change]
  | symbols => cases h; simp [opensForWriting, Opt.change]
  | output a => cases h; simp [opensForWriting, Opt.change]
  | dryRun => cases h; simp [opensForWriting, Opt.change]
  | force => cases h; simp [opensForWriting, Opt.change]
  | other => cases h; simp [opensForWriting, Opt.change]
  | stop n => cases h
  | patch a => cases h
  | unpatch => cases h
  | function a => cases h
  | patchObj a => cases h

/-- The last checks change the name of the file to map and nothing else, and refuse to
overwrite. -/
theorem check_ok {e : Env} {c c' : Cfg} (h : taskCheck e c = .ok c') :
    (∃ f, c' = { c with mapFile := f } ∧ (f = none ↔ c.mapFile = none) ∧
      ∀ g, c.mapFile = some g → f = some (realMap e g) ∧ e.exist (realMap e g) = true ∧ e.regular (realMap e g) = true ∧
        e.size (realMap e g) ≠ 0) ∧
    c.pid ≠ -1 ∧ e.pidExists c.pid = true ∧
    (∀ o, c.output = some o → c.force = false → e.exist o = false) ∧
    ((c.dumpVma || c.dumpVdso || c.dumpMem) = true → c.output ≠ none) := by
  unfold taskCheck at h
  by_cases h1 : c.pid = -1
  · rw [if_pos h1] at h; cases h
  rw [if_neg h1] at h
  by_cases h2 : e.pidExists c.pid = false
  · rw [if_pos h2] at h; cases h
  rw [if_neg h2] at h
  by_cases h3 : ((c.dumpVma || c.dumpVdso) && c.output.isNone) = true
  · rw [if_pos h3] at h; cases h
  rw [if_neg h3] at h
  by_cases h4 : (c.dumpMem && c.output.isNone) = true
  · rw [if_pos h4] at h; cases h
  rw [if_neg h4] at h
  obtain ⟨d, hd, he⟩ := bind_ok h
  have hdump : (c.dumpVma || c.dumpVdso || c.dumpMem) = true → c.output ≠ none := by
    intro q e
    rw [e] at h3 h4
    simp only [Option.isNone_none, Bool.and_true, Bool.not_eq_true] at h3 h4
    rw [h3, h4] at q
    cases q
  have hd' : ∃ f, d = { c with mapFile := f } ∧ (f = none ↔ c.mapFile = none) ∧
      ∀ g, c.mapFile = some g → f = some (realMap e g) ∧ e.exist (realMap e g) = true ∧ e.regular (realMap e g) = true ∧
        e.size (realMap e g) ≠ 0 := by
    cases em : c.mapFile with
    | none =>
      rw [em] at hd
      cases hd
      exact ⟨none, by rw [← em], by simp, nofun⟩
    | some f =>
      rw [em] at hd
      dsimp only at hd
      split at hd
      · cases hd
      next q1 =>
      split at hd
      · cases hd
      next q2 =>
      split at hd
      · cases hd
      next q3 =>
      cases hd
      refine ⟨_, rfl, by simp, ?_⟩
      intro g eg
      cases eg
      exact ⟨rfl, by simpa using q1, by simpa using q2, q3⟩
  obtain ⟨f, rfl, hf1, hf2⟩ := hd'
  dsimp only at he
  have hfin : c' = { c with mapFile := f } ∧ ∀ o, c.output = some o → c.force = false → e.exist o = false := by
    cases eo : c.output with
    | none =>
      rw [eo] at he
      cases he
      exact ⟨by rw [← eo], nofun⟩
    | some o =>
      rw [eo] at he
      dsimp only at he
      split at he
      · cases he
      next q =>
      cases he
      refine ⟨by rw [← eo], ?_⟩
      intro o' eo' hf
      cases eo'
      cases hx : e.exist o with
      | false => rfl
      | true => exact absurd ⟨hf, hx⟩ q
  exact ⟨⟨f, hfin.1, hf1, hf2⟩, h1, by simpa using h2, hfin.2, hdump⟩

theorem check_does {e : Env} {c c' : Cfg} (h : taskCheck e c = .ok c') (k : Kind) : c'.does k = c.does k := by
  obtain ⟨⟨f, rfl, hf, _⟩, _⟩ := check_ok h
  cases k <;> simp [Cfg.does, hf]

theorem parse_ok {e : Env} {opts : List Opt} {c : Cfg} (h : taskParse e opts = .ok c) :
    ∃ d, opts.foldlM (taskOpt e.page) {} = .ok d ∧ taskCheck e d = .ok c := bind_ok h

theorem mem_one {b : Bool} {a x : Act} : x ∈ one b a ↔ b = true ∧ x = a := by
  unfold one
  cases b <;> simp

/-- The changes among the actions are those the variables say. -/
theorem acts_change (c : Cfg) (k : Kind) : (∃ a ∈ acts c, a.change = some k) ↔ c.does k = true := by
  constructor
  · rintro ⟨a, ha, hc⟩
    simp only [acts, List.mem_append, mem_one] at ha
    rcases ha with ((((((((((((((⟨h, rfl⟩ | ⟨h, rfl⟩) | h) | ⟨h, rfl⟩) | ⟨h, rfl⟩) | ⟨h, rfl⟩) | ⟨h, rfl⟩) | ⟨h, rfl⟩) |
      ⟨h, rfl⟩) | ⟨h, rfl⟩) | ⟨h, rfl⟩) | ⟨h, rfl⟩) | ⟨h, rfl⟩) | ⟨h, rfl⟩) | ⟨h, rfl⟩)
    all_goals first
      | (cases hc; done)
      | (cases hc; exact h)
      | skip
    cases em : c.mapFile with
    | none => rw [em] at h; cases h
    | some f =>
      rw [em] at h
      dsimp only at h
      rw [List.mem_singleton] at h
      subst h
      cases hc
      simp [Cfg.does, em]
  · intro h
    cases k with
    | mprotect => exact ⟨.mprotect c.mprotAddr c.mprotLen c.mprotProt, by simp only [acts, List.mem_append, mem_one]; simp; exact Or.inl (by simpa [Cfg.does] using h), rfl⟩
    | map =>
      cases em : c.mapFile with
      | none => simp [Cfg.does, em] at h
      | some f => exact ⟨.map f c.mapAddr c.mapRo c.mapNoexec, by simp [acts, em], rfl⟩
    | unmap => exact ⟨.unmap c.unmapAddr, by simp only [acts, List.mem_append, mem_one]; simp; exact Or.inr (by simpa [Cfg.does] using h), rfl⟩
    | jmp => exact ⟨.jmp c.jmpFrom c.jmpTo, by simp only [acts, List.mem_append, mem_one]; simp; exact Or.inr (by simpa [Cfg.does] using h), rfl⟩

/-- **C69**: a process is changed in one of the four ways exactly if an option asks for
that way, and it is opened for writing exactly if an option asks for a change.  For every
command line that is accepted. -/
theorem C69_asked {e : Env} {opts : List Opt} {c : Cfg} (h : taskParse e opts = .ok c) :
    (∀ k, (∃ a ∈ acts c, a.change = some k) ↔ ∃ o ∈ opts, o.change = some k) ∧
    (opensForWriting c = true ↔ ∃ o ∈ opts, o.change ≠ none) := by
  obtain ⟨d, h1, h2⟩ := parse_ok h
  constructor
  · intro k
    rw [acts_change, check_does h2, fold_flag (fun c => c.does k) _ (opt_does e.page k) opts h1]
    have : Cfg.does {} k = false := by cases k <;> rfl
    rw [this, Bool.false_or, List.any_eq_true]
    simp
  · obtain ⟨⟨f, rfl, _⟩, _⟩ := check_ok h2
    have : opensForWriting { d with mapFile := f } = opensForWriting d := rfl
    rw [this, fold_flag opensForWriting _ (opt_writes e.page) opts h1]
    have : opensForWriting {} = false := rfl
    rw [this, Bool.false_or, List.any_eq_true]
    simp [Option.isSome_iff_ne_none]

/-! ## Exactly what is asked for -/

/-- The variables that an action of that kind depends on. -/
def view (k : Kind) (c : Cfg) : Cfg :=
  match k with
  | .mprotect => { mprotAddr := c.mprotAddr, mprotLen := c.mprotLen, mprotProt := c.mprotProt }
  | .map => { mapFile := c.mapFile, mapRo := c.mapRo, mapNoexec := c.mapNoexec, mapAddr := c.mapAddr }
  | .unmap => { unmapIt := c.unmapIt, unmapAddr := c.unmapAddr }
  | .jmp => { jmpFrom := c.jmpFrom, jmpTo := c.jmpTo }

theorem opt_view (page : BitVec 64) (k : Kind) (c : Cfg) (o : Opt) (c' : Cfg) (hk : o.change ≠ some k)
    (h : taskOpt page c o = .ok c') : view k c' = view k c := by
  cases o with
  | dump a =>
    have hb := congrArg (view k) (dump_step h)
    cases k <;> exact hb
  | jmp a =>
    have hb := congrArg (view k) (jmp_step h).1
    cases k <;> first | exact absurd rfl hk | exact hb
  | map a =>
    have hb := congrArg (view k) (map_step h).1
    cases k <;> first | exact absurd rfl hk | exact hb
  | mprotect a =>
    have hb := congrArg (view k) (mprot_step h).1
    cases k <;> first | exact absurd rfl hk | exact hb
  | unmap a => cases h; cases k <;> first | exact absurd rfl hk | rfl
  | pid a => cases h; cases k <;> rfl
  | vmas => cases h; cases k <;> rfl
  | threads => cases h; cases k <;> rfl
  | fds => cases h; cases k <;> rfl
  | auxv => cases h; cases k <;> rfl
  | status => cases h; cases k <;> rfl
  | symbols => cases h; cases k <;> rfl
  | output a => cases h; cases k <;> rfl
  | dryRun => cases h; cases k <;> rfl
  | force => cases h; cases k <;> rfl
  | other => cases h; rfl
  | stop n => cases h
  | patch a => cases h
  | unpatch => cases h
  | function a => cases h
  | patchObj a => cases h

theorem opts_view (page : BitVec 64) (k : Kind) (os : List Opt) (hk : ∀ o ∈ os, o.change ≠ some k) :
    ∀ {c c' : Cfg}, os.foldlM (taskOpt page) c = .ok c' → view k c' = view k c := by
  induction os with
  | nil => intro c c' h; cases h; rfl
  | cons o os ih =>
    intro c c' h
    rw [fold_cons] at h
    obtain ⟨d, h1, h2⟩ := bind_ok h
    exact (ih (fun x hx => hk x (List.mem_cons_of_mem _ hx)) h2).trans
      (opt_view page k c o d (hk o List.mem_cons_self) h1)

/-- The options up to the last one of a kind decide about it. -/
theorem parse_split {e : Env} {A B : List Opt} {o : Opt} {c : Cfg} {k : Kind} (h : taskParse e (A ++ o :: B) = .ok c)
    (hB : ∀ x ∈ B, x.change ≠ some k) :
    ∃ a b d, A.foldlM (taskOpt e.page) {} = .ok a ∧ taskOpt e.page a o = .ok b ∧ taskCheck e d = .ok c ∧ view k d = view k b := by
  obtain ⟨d, h1, h2⟩ := parse_ok h
  rw [fold_append] at h1
  obtain ⟨a, e1, h1⟩ := bind_ok h1
  rw [fold_cons] at h1
  obtain ⟨b, e2, h1⟩ := bind_ok h1
  exact ⟨a, b, d, e1, e2, h2, opts_view e.page k B hB h1⟩

/-- The actions that a command line has of one kind. -/
def Only (k : Kind) (c : Cfg) (x : Act) : Prop := x ∈ acts c ∧ ∀ y ∈ acts c, y.change = some k → y = x

theorem acts_only (c : Cfg) :
    (c.mprotAddr ≠ 0 → Only .mprotect c (.mprotect c.mprotAddr c.mprotLen c.mprotProt)) ∧
    (∀ f, c.mapFile = some f → Only .map c (.map f c.mapAddr c.mapRo c.mapNoexec)) ∧
    (c.unmapIt = true → Only .unmap c (.unmap c.unmapAddr)) ∧
    (c.jmpFrom ≠ 0 → c.jmpTo ≠ 0 → Only .jmp c (.jmp c.jmpFrom c.jmpTo)) := by
  have hall : ∀ y ∈ acts c, (∀ k, y.change = some k → y = match k with
      | .mprotect => .mprotect c.mprotAddr c.mprotLen c.mprotProt
      | .map => match c.mapFile with | none => .vmas | some f => .map f c.mapAddr c.mapRo c.mapNoexec
      | .unmap => .unmap c.unmapAddr
      | .jmp => .jmp c.jmpFrom c.jmpTo) := by
    intro a ha k hc
    simp only [acts, List.mem_append, mem_one] at ha
    rcases ha with ((((((((((((((⟨h, rfl⟩ | ⟨h, rfl⟩) | h) | ⟨h, rfl⟩) | ⟨h, rfl⟩) | ⟨h, rfl⟩) | ⟨h, rfl⟩) | ⟨h, rfl⟩) |
      ⟨h, rfl⟩) | ⟨h, rfl⟩) | ⟨h, rfl⟩) | ⟨h, rfl⟩) | ⟨h, rfl⟩) | ⟨h, rfl⟩) | ⟨h, rfl⟩)
    all_goals first
      | (cases hc; done)
      | (cases hc; rfl)
      | skip
    cases em : c.mapFile with
    | none => rw [em] at h; cases h
    | some f =>
      rw [em] at h
      dsimp only at h
      rw [List.mem_singleton] at h
      subst h
      cases hc
      rfl
  refine ⟨fun h => ⟨?_, fun y hy hc => hall y hy _ hc⟩, fun f h => ⟨?_, fun y hy hc => ?_⟩,
    fun h => ⟨?_, fun y hy hc => hall y hy _ hc⟩, fun h h2 => ⟨?_, fun y hy hc => hall y hy _ hc⟩⟩
  · simp only [acts, List.mem_append, mem_one]; simp; exact Or.inl h
  · simp [acts, h]
  · have := hall y hy _ hc
    rw [h] at this
    exact this
  · simp only [acts, List.mem_append, mem_one]; simp; exact Or.inr h
  · simp only [acts, List.mem_append, mem_one]; simp; exact Or.inr ⟨h, h2⟩

theorem fold_jmp {F T : List Byte} {f t : BitVec 64} (hF : AddrText F f) (hT : AddrText T t) (ps : List Sub)
    (hps : ∀ p ∈ ps, p = (lit "from", some F) ∨ p = (lit "to", some T)) : ∀ c : Cfg,
    ps.foldlM jmpSub c = .ok { c with
      jmpFrom := if (lit "from", some F) ∈ ps then f else c.jmpFrom
      jmpTo := if (lit "to", some T) ∈ ps then t else c.jmpTo } := by
  have hne : lit "from" ≠ lit "to" := by decide
  induction ps with
  | nil => intro c; simp; rfl
  | cons p ps ih =>
    intro c
    have ih := ih fun x hx => hps x (List.mem_cons_of_mem _ hx)
    rw [fold_cons]
    rcases hps p List.mem_cons_self with rfl | rfl
    · have e1 : jmpSub c (lit "from", some F) = .ok { c with jmpFrom := f } := by
        unfold jmpSub; rw [if_pos rfl, addrOf, hF.value]
      rw [e1]
      show ps.foldlM jmpSub { c with jmpFrom := f } = _
      rw [ih]
      simp [Prod.mk.injEq, hne.symm]
    · have e1 : jmpSub c (lit "to", some T) = .ok { c with jmpTo := t } := by
        unfold jmpSub; rw [if_neg hne.symm, if_pos rfl, addrOf, hT.value]
      rw [e1]
      show ps.foldlM jmpSub { c with jmpTo := t } = _
      rw [ih]
      simp [Prod.mk.injEq, hne]

theorem plain_lit {s : String} {v : Option (List Byte)} (h : lit s ≠ [] ∧ 44 ∉ lit s ∧ 61 ∉ lit s)
    (hv : ∀ x, v = some x → 44 ∉ x) : Plain (lit s, v) := ⟨h.1, h.2.1, h.2.2, hv⟩

/-- **C69** (`--jmp`): for every two addresses, in any spelling, in any order, wherever
the option is on the command line and whatever the others are (as long as no other `--jmp`
follows): if the command line is accepted, exactly that jump is written. -/
theorem C69_jmp {e : Env} {A B : List Opt} {c : Cfg} {F T : List Byte} {f t : BitVec 64} (hF : AddrText F f)
    (hT : AddrText T t) {ps : List Sub} (hps : ∀ p ∈ ps, p = (lit "from", some F) ∨ p = (lit "to", some T))
    (hf : (lit "from", some F) ∈ ps) (ht : (lit "to", some T) ∈ ps)
    (h : taskParse e (A ++ .jmp (argText ps) :: B) = .ok c) (hB : ∀ x ∈ B, x.change ≠ some .jmp) :
    Only .jmp c (.jmp f t) := by
  obtain ⟨a, b, d, _, e2, h2, hv⟩ := parse_split h hB
  have hpl : ∀ p ∈ ps, Plain p := by
    intro p hp
    rcases hps p hp with rfl | rfl
    · exact plain_lit (by decide) (by rintro x ⟨⟩; exact hF.plain)
    · exact plain_lit (by decide) (by rintro x ⟨⟩; exact hT.plain)
  rw [taskOpt, C69_subopts ps hpl, fold_jmp hF hT ps hps] at e2
  have e2' : jmpCheck { a with
      jmpFrom := if (lit "from", some F) ∈ ps then f else a.jmpFrom
      jmpTo := if (lit "to", some T) ∈ ps then t else a.jmpTo } = .ok b := e2
  rw [if_pos hf, if_pos ht] at e2'
  unfold jmpCheck at e2'
  split at e2'
  · cases e2'
  next hn =>
  cases e2'
  obtain ⟨⟨m, hc, _⟩, _⟩ := check_ok h2
  have h1 : c.jmpFrom = f := by rw [hc]; have q := congrArg Cfg.jmpFrom hv; exact q
  have h2 : c.jmpTo = t := by rw [hc]; have q := congrArg Cfg.jmpTo hv; exact q
  have := (acts_only c).2.2.2 (by rw [h1]; exact fun q => hn (Or.inl q)) (by rw [h2]; exact fun q => hn (Or.inr q))
  rwa [h1, h2] at this

/-- **C69** (`--unmap`): the address given last is the one that is unmapped. -/
theorem C69_unmap {e : Env} {A B : List Opt} {c : Cfg} {s : List Byte} {v : BitVec 64} (hs : AddrText s v)
    (h : taskParse e (A ++ .unmap s :: B) = .ok c) (hB : ∀ x ∈ B, x.change ≠ some .unmap) : Only .unmap c (.unmap v) := by
  obtain ⟨a, b, d, _, e2, h2, hv⟩ := parse_split h hB
  cases e2
  obtain ⟨⟨m, hc, _⟩, _⟩ := check_ok h2
  have h1 : c.unmapIt = true := by rw [hc]; have q := congrArg Cfg.unmapIt hv; exact q
  have h2 : c.unmapAddr = str2addr s := by rw [hc]; have q := congrArg Cfg.unmapAddr hv; exact q
  have := (acts_only c).2.2.1 h1
  rwa [h2, hs.value] at this

theorem rights_step (r w x : Bool) (v : BitVec 64) :
    (v ||| 1) ||| rights r w x = v ||| rights true w x ∧ (v ||| 2) ||| rights r w x = v ||| rights r true x ∧
      (v ||| 4) ||| rights r w x = v ||| rights r w true := by
  refine ⟨?_, ?_, ?_⟩ <;> cases r <;> cases w <;> cases x <;> (rw [BitVec.or_assoc]; rfl)

theorem fold_mprot {X Y : List Byte} {x y : BitVec 64} (hX : AddrText X x) (hY : AddrText Y y) (ps : List Sub)
    (hps : ∀ p ∈ ps, p = (lit "addr", some X) ∨ p = (lit "len", some Y) ∨ p = (lit "none", none) ∨
      p = (lit "read", none) ∨ p = (lit "write", none) ∨ p = (lit "exec", none)) : ∀ (c : Cfg) (b : Bool),
    ps.foldlM mprotSub (c, b) = .ok ({ c with
      mprotAddr := if (lit "addr", some X) ∈ ps then x else c.mprotAddr
      mprotLen := if (lit "len", some Y) ∈ ps then y else c.mprotLen
      mprotProt := c.mprotProt ||| rights (decide ((lit "read", none) ∈ ps)) (decide ((lit "write", none) ∈ ps))
        (decide ((lit "exec", none) ∈ ps)) }, b || decide ((lit "none", none) ∈ ps)) := by
  have n1 : lit "addr" ≠ lit "len" := by decide
  have n2 : lit "none" ≠ lit "read" := by decide
  have n3 : lit "none" ≠ lit "write" := by decide
  have n4 : lit "none" ≠ lit "exec" := by decide
  have n5 : lit "read" ≠ lit "write" := by decide
  have n6 : lit "read" ≠ lit "exec" := by decide
  have n7 : lit "write" ≠ lit "exec" := by decide
  induction ps with
  | nil =>
    intro c b
    have : rights false false false = 0 := rfl
    simp [this]
    rfl
  | cons p ps ih =>
    intro c b
    have ih := ih fun x hx => hps x (List.mem_cons_of_mem _ hx)
    rw [fold_cons]
    rcases hps p List.mem_cons_self with rfl | rfl | rfl | rfl | rfl | rfl
    · have e1 : mprotSub (c, b) (lit "addr", some X) = .ok ({ c with mprotAddr := x }, b) := by
        unfold mprotSub; rw [if_pos rfl, addrOf, hX.value]
      rw [e1]
      show ps.foldlM mprotSub ({ c with mprotAddr := x }, b) = _
      rw [ih]
      simp [Prod.mk.injEq, n1.symm]
    · have e1 : mprotSub (c, b) (lit "len", some Y) = .ok ({ c with mprotLen := y }, b) := by
        unfold mprotSub; rw [if_neg n1.symm, if_pos rfl, addrOf, hY.value]
      rw [e1]
      show ps.foldlM mprotSub ({ c with mprotLen := y }, b) = _
      rw [ih]
      simp [Prod.mk.injEq, n1]
    · have e1 : mprotSub (c, b) (lit "none", none) = .ok (c, true) := by
        unfold mprotSub; rw [if_neg (by decide), if_neg (by decide), if_pos rfl]
      rw [e1]
      show ps.foldlM mprotSub (c, true) = _
      rw [ih]
      simp [Prod.mk.injEq, n2.symm, n3.symm, n4.symm]
    · have e1 : mprotSub (c, b) (lit "read", none) = .ok ({ c with mprotProt := c.mprotProt ||| 1 }, b) := by
        unfold mprotSub; rw [if_neg (by decide), if_neg (by decide), if_neg (by decide), if_pos rfl]
      rw [e1]
      show ps.foldlM mprotSub ({ c with mprotProt := c.mprotProt ||| 1 }, b) = _
      rw [ih]
      simp only [(rights_step _ _ _ _).1]
      simp [Prod.mk.injEq, n2, n5.symm, n6.symm]
    · have e1 : mprotSub (c, b) (lit "write", none) = .ok ({ c with mprotProt := c.mprotProt ||| 2 }, b) := by
        unfold mprotSub
        rw [if_neg (by decide), if_neg (by decide), if_neg (by decide), if_neg (by decide), if_pos rfl]
      rw [e1]
      show ps.foldlM mprotSub ({ c with mprotProt := c.mprotProt ||| 2 }, b) = _
      rw [ih]
      simp only [(rights_step _ _ _ _).2.1]
      simp [Prod.mk.injEq, n3, n5, n7.symm]
    · have e1 : mprotSub (c, b) (lit "exec", none) = .ok ({ c with mprotProt := c.mprotProt ||| 4 }, b) := by
        unfold mprotSub
        rw [if_neg (by decide), if_neg (by decide), if_neg (by decide), if_neg (by decide), if_neg (by decide), if_pos rfl]
      rw [e1]
      show ps.foldlM mprotSub ({ c with mprotProt := c.mprotProt ||| 4 }, b) = _
      rw [ih]
      simp only [(rights_step _ _ _ _).2.2]
      simp [Prod.mk.injEq, n4, n6, n7]

/-- **C69** (`--mprotect`): for every address and length, in any order with any set of
rights: exactly those rights are asked for, whatever an earlier `--mprotect` said. -/
theorem C69_mprotect {e : Env} {A B : List Opt} {c : Cfg} {X Y : List Byte} {x y : BitVec 64} (hX : AddrText X x)
    (hY : AddrText Y y) {ps : List Sub}
    (hps : ∀ p ∈ ps, p = (lit "addr", some X) ∨ p = (lit "len", some Y) ∨ p = (lit "none", none) ∨
      p = (lit "read", none) ∨ p = (lit "write", none) ∨ p = (lit "exec", none))
    (hx : (lit "addr", some X) ∈ ps) (hy : (lit "len", some Y) ∈ ps)
    (h : taskParse e (A ++ .mprotect (argText ps) :: B) = .ok c) (hB : ∀ x ∈ B, x.change ≠ some .mprotect) :
    Only .mprotect c (.mprotect x y (rights (decide ((lit "read", none) ∈ ps)) (decide ((lit "write", none) ∈ ps))
      (decide ((lit "exec", none) ∈ ps)))) := by
  obtain ⟨a, b, d, _, e2, h2, hv⟩ := parse_split h hB
  have hpl : ∀ p ∈ ps, Plain p := by
    intro p hp
    rcases hps p hp with rfl | rfl | rfl | rfl | rfl | rfl
    · exact plain_lit (by decide) (by rintro x ⟨⟩; exact hX.plain)
    · exact plain_lit (by decide) (by rintro x ⟨⟩; exact hY.plain)
    all_goals exact plain_lit (by decide) (by rintro x ⟨⟩)
  rw [taskOpt, C69_subopts ps hpl, fold_mprot hX hY ps hps] at e2
  obtain ⟨w, ew, e2⟩ := bind_ok e2
  cases ew
  unfold mprotCheck at e2
  dsimp only at e2
  have z : ∀ v : BitVec 64, 0 ||| v = v := fun v => by simp
  rw [if_pos hx, if_pos hy, z] at e2
  split at e2
  · cases e2
  split at e2
  · cases e2
  next hn =>
  split at e2
  · cases e2
  cases e2
  obtain ⟨⟨m, hc, _⟩, _⟩ := check_ok h2
  have h1 : c.mprotAddr = x := by rw [hc]; have q := congrArg Cfg.mprotAddr hv; exact q
  have h2 : c.mprotLen = y := by rw [hc]; have q := congrArg Cfg.mprotLen hv; exact q
  have h3 : c.mprotProt = rights (decide ((lit "read", none) ∈ ps)) (decide ((lit "write", none) ∈ ps))
      (decide ((lit "exec", none) ∈ ps)) := by
    rw [hc]; have q := congrArg Cfg.mprotProt hv; exact q
  have := (acts_only c).1 (by rw [h1]; exact fun q => hn (Or.inl q))
  rwa [h1, h2, h3] at this

theorem fold_map {F X : List Byte} {x : BitVec 64} (hX : AddrText X x) (h0 : x ≠ 0) (ps : List Sub)
    (hps : ∀ p ∈ ps, p = (lit "file", some F) ∨ p = (lit "ro", none) ∨ p = (lit "noexec", none) ∨
      p = (lit "addr", some X)) : ∀ c : Cfg,
    ps.foldlM mapSub c = .ok { c with
      mapFile := if (lit "file", some F) ∈ ps then some F else c.mapFile
      mapRo := c.mapRo || decide ((lit "ro", none) ∈ ps)
      mapNoexec := c.mapNoexec || decide ((lit "noexec", none) ∈ ps)
      mapAddr := if (lit "addr", some X) ∈ ps then x else c.mapAddr } := by
  have n1 : lit "file" ≠ lit "addr" := by decide
  have n2 : lit "ro" ≠ lit "noexec" := by decide
  induction ps with
  | nil => intro c; simp; rfl
  | cons p ps ih =>
    intro c
    have ih := ih fun x hx => hps x (List.mem_cons_of_mem _ hx)
    rw [fold_cons]
    rcases hps p List.mem_cons_self with rfl | rfl | rfl | rfl
    · have e1 : mapSub c (lit "file", some F) = .ok { c with mapFile := some F } := by
        unfold mapSub; rw [if_pos rfl]
      rw [e1]
      show ps.foldlM mapSub { c with mapFile := some F } = _
      rw [ih]
      simp [Prod.mk.injEq, n1.symm]
    · have e1 : mapSub c (lit "ro", none) = .ok { c with mapRo := true } := by
        unfold mapSub; rw [if_neg (by decide), if_pos rfl]
      rw [e1]
      show ps.foldlM mapSub { c with mapRo := true } = _
      rw [ih]
      simp [Prod.mk.injEq, n2.symm]
    · have e1 : mapSub c (lit "noexec", none) = .ok { c with mapNoexec := true } := by
        unfold mapSub; rw [if_neg (by decide), if_neg (by decide), if_pos rfl]
      rw [e1]
      show ps.foldlM mapSub { c with mapNoexec := true } = _
      rw [ih]
      simp [Prod.mk.injEq, n2]
    · have e1 : mapSub c (lit "addr", some X) = .ok { c with mapAddr := x } := by
        unfold mapSub
        rw [if_neg n1.symm, if_neg (by dsimp only; decide), if_neg (by dsimp only; decide), if_pos rfl, addrOf, hX.value,
          if_neg h0]
      rw [e1]
      show ps.foldlM mapSub { c with mapAddr := x } = _
      rw [ih]
      simp [Prod.mk.injEq, n1]

/-- **C69** (`--map`): for every file and every choice of `ro`, `noexec` and `addr`, in
any order: exactly that mapping is asked for, of the file with that absolute name, or with
that name in the current directory of the process.  (As long as there is one `--map`.) -/
theorem C69_map {e : Env} {A B : List Opt} {c : Cfg} {F X G : List Byte} {x : BitVec 64} (hX : AddrText X x)
    (h0 : x ≠ 0) (hF : 44 ∉ F) {ps : List Sub}
    (hG : F.head? = some 47 ∧ G = F ∨ F.head? ≠ some 47 ∧ G = e.cwd ++ [47] ++ F ∧ G.length < 4096)
    (hps : ∀ p ∈ ps, p = (lit "file", some F) ∨ p = (lit "ro", none) ∨ p = (lit "noexec", none) ∨
      p = (lit "addr", some X))
    (hf : (lit "file", some F) ∈ ps)
    (h : taskParse e (A ++ .map (argText ps) :: B) = .ok c) (hA : ∀ x ∈ A, x.change ≠ some .map)
    (hB : ∀ x ∈ B, x.change ≠ some .map) :
    Only .map c (.map G (if (lit "addr", some X) ∈ ps then x else 0) (decide ((lit "ro", none) ∈ ps))
      (decide ((lit "noexec", none) ∈ ps))) ∧ e.exist G = true ∧ e.regular G = true ∧ e.size G ≠ 0 := by
  obtain ⟨a, b, d, e1, e2, h2, hv⟩ := parse_split h hB
  have ha := opts_view e.page .map A hA e1
  have hpl : ∀ p ∈ ps, Plain p := by
    intro p hp
    rcases hps p hp with rfl | rfl | rfl | rfl
    · exact plain_lit (by decide) (by rintro x ⟨⟩; exact hF)
    · exact plain_lit (by decide) (by rintro x ⟨⟩)
    · exact plain_lit (by decide) (by rintro x ⟨⟩)
    · exact plain_lit (by decide) (by rintro x ⟨⟩; exact hX.plain)
  have hr : realMap e F = G := by
    unfold realMap
    rcases hG with ⟨g1, g2⟩ | ⟨g1, g2, g3⟩
    · rw [if_pos g1, g2]
    · rw [if_neg g1, ← g2, List.take_of_length_le (by omega)]
  rw [taskOpt, C69_subopts ps hpl, fold_map hX h0 ps hps] at e2
  obtain ⟨w, ew, e2⟩ := bind_ok e2
  cases ew
  unfold mapCheck at e2
  dsimp only at e2
  rw [if_pos hf, if_neg (by simp)] at e2
  cases e2
  obtain ⟨⟨m, hc, _, hm⟩, _⟩ := check_ok h2
  have h0 : d.mapFile = some F := by have q := congrArg Cfg.mapFile hv; exact q
  obtain ⟨hm0, hm1⟩ := hm F h0
  rw [hr] at hm0 hm1
  subst hm0
  have h1 : c.mapFile = some G := by rw [hc]
  have h2 : c.mapAddr = if (lit "addr", some X) ∈ ps then x else a.mapAddr := by
    rw [hc]; have q := congrArg Cfg.mapAddr hv; exact q
  have h3 : c.mapRo = (a.mapRo || decide ((lit "ro", none) ∈ ps)) := by
    rw [hc]; have q := congrArg Cfg.mapRo hv; exact q
  have h4 : c.mapNoexec = (a.mapNoexec || decide ((lit "noexec", none) ∈ ps)) := by
    rw [hc]; have q := congrArg Cfg.mapNoexec hv; exact q
  have a2 : a.mapAddr = 0 := by have q := congrArg Cfg.mapAddr ha; exact q
  have a3 : a.mapRo = false := by have q := congrArg Cfg.mapRo ha; exact q
  have a4 : a.mapNoexec = false := by have q := congrArg Cfg.mapNoexec ha; exact q
  have := (acts_only c).2.1 G h1
  rw [h2, h3, h4, a2, a3, a4, Bool.false_or, Bool.false_or] at this
  exact ⟨this, hm1⟩

/-! ## Dumps -/

theorem opts_keep {β : Type} (g : Cfg → β) (q : Opt → Bool) (page : BitVec 64)
    (hg : ∀ c o c', q o = false → taskOpt page c o = .ok c' → g c' = g c) (os : List Opt)
    (hos : ∀ o ∈ os, q o = false) : ∀ {c c' : Cfg}, os.foldlM (taskOpt page) c = .ok c' → g c' = g c := by
  induction os with
  | nil => intro c c' h; cases h; rfl
  | cons o os ih =>
    intro c c' h
    rw [fold_cons] at h
    obtain ⟨d, h1, h2⟩ := bind_ok h
    exact (ih (fun x hx => hos x (List.mem_cons_of_mem _ hx)) h2).trans (hg c o d (hos o List.mem_cons_self) h1)

/-- The variables that the dumps depend on. -/
def dumpView (c : Cfg) : Cfg :=
  { dumpVma := c.dumpVma, dumpVdso := c.dumpVdso, dumpMem := c.dumpMem, disasm := c.disasm, vmaAddr := c.vmaAddr,
    dumpAddr := c.dumpAddr, dumpSize := c.dumpSize, disasmAddr := c.disasmAddr, disasmSize := c.disasmSize }

theorem opt_dumpView (page : BitVec 64) (c : Cfg) (o : Opt) (c' : Cfg) (hk : o.isDump = false)
    (h : taskOpt page c o = .ok c') : dumpView c' = dumpView c := by
  cases o with
  | dump a => cases hk
  | jmp a => have hb := congrArg dumpView (jmp_step h).1; exact hb
  | map a => have hb := congrArg dumpView (map_step h).1; exact hb
  | mprotect a => have hb := congrArg dumpView (mprot_step h).1; exact hb
  | unmap a => cases h; rfl
  | pid a => cases h; rfl
  | vmas => cases h; rfl
  | threads => cases h; rfl
  | fds => cases h; rfl
  | auxv => cases h; rfl
  | status => cases h; rfl
  | symbols => cases h; rfl
  | output a => cases h; rfl
  | dryRun => cases h; rfl
  | force => cases h; rfl
  | other => cases h; rfl
  | stop n => cases h
  | patch a => cases h
  | unpatch => cases h
  | function a => cases h
  | patchObj a => cases h

theorem opt_output (page : BitVec 64) (c : Cfg) (o : Opt) (c' : Cfg) (hk : o.isOutput = false)
    (h : taskOpt page c o = .ok c') : c'.output = c.output := by
  cases o with
  | dump a => have hb := congrArg Cfg.output (dump_step h); exact hb
  | jmp a => have hb := congrArg Cfg.output (jmp_step h).1; exact hb
  | map a => have hb := congrArg Cfg.output (map_step h).1; exact hb
  | mprotect a => have hb := congrArg Cfg.output (mprot_step h).1; exact hb
  | unmap a => cases h; rfl
  | pid a => cases h; rfl
  | vmas => cases h; rfl
  | threads => cases h; rfl
  | fds => cases h; rfl
  | auxv => cases h; rfl
  | status => cases h; rfl
  | symbols => cases h; rfl
  | output a => cases hk
  | dryRun => cases h; rfl
  | force => cases h; rfl
  | other => cases h; rfl
  | stop n => cases h
  | patch a => cases h
  | unpatch => cases h
  | function a => cases h
  | patchObj a => cases h

theorem opt_force (page : BitVec 64) (c : Cfg) (o : Opt) (c' : Cfg) (h : taskOpt page c o = .ok c') :
    c'.force = (c.force || decide (o = .force)) := by
  cases o with
  | dump a => have hb := congrArg Cfg.force (dump_step h); simp; exact hb
  | jmp a => have hb := congrArg Cfg.force (jmp_step h).1; simp; exact hb
  | map a => have hb := congrArg Cfg.force (map_step h).1; simp; exact hb
  | mprotect a => have hb := congrArg Cfg.force (mprot_step h).1; simp; exact hb
  | force => cases h; simp
  | unmap a => cases h; simp
  | pid a => cases h; simp
  | vmas => cases h; simp
  | threads => cases h; simp
  | fds => cases h; simp
  | auxv => cases h; simp
  | status => cases h; simp
  | symbols => cases h; simp
  | output a => cases h; simp
  | dryRun => cases h; simp
  | other => cases h; simp
  | stop n => cases h
  | patch a => cases h
  | unpatch => cases h
  | function a => cases h
  | patchObj a => cases h

theorem opts_output (page : BitVec 64) (os : List Opt) : ∀ {c c' : Cfg}, os.foldlM (taskOpt page) c = .ok c' →
    c'.output = c.output ∨ ∃ f, .output f ∈ os ∧ c'.output = some f := by
  induction os with
  | nil => intro c c' h; cases h; exact Or.inl rfl
  | cons o os ih =>
    intro c c' h
    rw [fold_cons] at h
    obtain ⟨d, h1, h2⟩ := bind_ok h
    rcases ih h2 with h3 | ⟨f, h3, h4⟩
    · by_cases hq : o.isOutput = true
      · cases o <;> first | (cases hq; done) | skip
        cases h1
        exact Or.inr ⟨_, List.mem_cons_self, h3⟩
      · rw [Bool.not_eq_true] at hq
        exact Or.inl (h3.trans (opt_output page c o d hq h1))
    · exact Or.inr ⟨f, List.mem_cons_of_mem _ h3, h4⟩

theorem acts_file {c : Cfg} {a : Act} {f : List Byte} (ha : a ∈ acts c) (hf : a.file = some f) :
    (c.dumpVma || c.dumpVdso || c.dumpMem) = true ∧ f = (match c.output with | none => [] | some o => o) := by
  simp only [acts, List.mem_append, mem_one] at ha
  rcases ha with ((((((((((((((⟨h, rfl⟩ | ⟨h, rfl⟩) | h) | ⟨h, rfl⟩) | ⟨h, rfl⟩) | ⟨h, rfl⟩) | ⟨h, rfl⟩) | ⟨h, rfl⟩) |
    ⟨h, rfl⟩) | ⟨h, rfl⟩) | ⟨h, rfl⟩) | ⟨h, rfl⟩) | ⟨h, rfl⟩) | ⟨h, rfl⟩) | ⟨h, rfl⟩)
  all_goals first
    | (cases hf; done)
    | (injection hf with hf; exact ⟨by simp [h], hf.symm⟩)
    | skip
  cases em : c.mapFile with
  | none => rw [em] at h; cases h
  | some g =>
    rw [em] at h
    dsimp only at h
    rw [List.mem_singleton] at h
    subst h
    cases hf

/-- **C69** (`-o`): every file that is written is one an option names, and without `-F`
it is not there yet: nothing is overwritten.  For every command line. -/
theorem C69_no_overwrite {e : Env} {opts : List Opt} {c : Cfg} (h : taskParse e opts = .ok c) {a : Act} (ha : a ∈ acts c)
    {f : List Byte} (hf : a.file = some f) : .output f ∈ opts ∧ (.force ∉ opts → e.exist f = false) := by
  obtain ⟨d, h1, h2⟩ := parse_ok h
  obtain ⟨⟨m, hc, _⟩, _, _, hex, hout⟩ := check_ok h2
  obtain ⟨g1, g2⟩ := acts_file ha hf
  have ho : c.output = d.output := by rw [hc]
  have hd : (d.dumpVma || d.dumpVdso || d.dumpMem) = true := by rw [hc] at g1; exact g1
  rcases opts_output e.page opts h1 with h3 | ⟨g, h3, h4⟩
  · exact absurd h3 (hout hd)
  · rw [ho, h4] at g2
    dsimp only at g2
    subst g2
    refine ⟨h3, fun hn => hex f h4 ?_⟩
    rw [fold_flag Cfg.force (fun o => decide (o = .force)) (opt_force e.page) opts h1]
    have : opts.any (fun o => decide (o = .force)) = false := by
      rw [List.any_eq_false]
      intro x hx
      rw [decide_eq_true_eq]
      rintro rfl
      exact hn hx
    rw [this]
    rfl

/-- **C69** (`-o`): the file named last is the one that is written. -/
theorem C69_output {e : Env} {A B : List Opt} {c : Cfg} {f : List Byte} (h : taskParse e (A ++ .output f :: B) = .ok c)
    (hB : ∀ x ∈ B, x.isOutput = false) {a : Act} (ha : a ∈ acts c) {g : List Byte} (hg : a.file = some g) : g = f := by
  obtain ⟨d, h1, h2⟩ := parse_ok h
  rw [fold_append] at h1
  obtain ⟨w, _, h1⟩ := bind_ok h1
  rw [fold_cons] at h1
  obtain ⟨b, e2, h1⟩ := bind_ok h1
  cases e2
  have := opts_keep Cfg.output Opt.isOutput e.page (opt_output e.page) B hB h1
  obtain ⟨⟨m, hc, _⟩, _⟩ := check_ok h2
  have ho : c.output = some f := by rw [hc]; exact this
  have := (acts_file ha hg).2
  rw [ho] at this
  exact this

theorem fold_dump {X Y : List Byte} {x y : BitVec 64} (hX : AddrText X x) (hY : SizeText Y y) (ps : List Sub)
    (hps : ∀ p ∈ ps, p = (lit "vma", none) ∨ p = (lit "vdso", none) ∨ p = (lit "disasm", none) ∨
      p = (lit "addr", some X) ∨ p = (lit "size", some Y)) : ∀ c : Cfg,
    ps.foldlM dumpSub c = .ok { c with
      dumpVma := c.dumpVma || decide ((lit "vma", none) ∈ ps)
      dumpVdso := c.dumpVdso || decide ((lit "vdso", none) ∈ ps)
      disasm := c.disasm || decide ((lit "disasm", none) ∈ ps)
      dumpAddr := if (lit "addr", some X) ∈ ps then x else c.dumpAddr
      dumpSize := if (lit "size", some Y) ∈ ps then y else c.dumpSize } := by
  have n1 : lit "vma" ≠ lit "vdso" := by decide
  have n2 : lit "vma" ≠ lit "disasm" := by decide
  have n3 : lit "vdso" ≠ lit "disasm" := by decide
  have n4 : lit "addr" ≠ lit "size" := by decide
  induction ps with
  | nil => intro c; simp; rfl
  | cons p ps ih =>
    intro c
    have ih := ih fun x hx => hps x (List.mem_cons_of_mem _ hx)
    rw [fold_cons]
    rcases hps p List.mem_cons_self with rfl | rfl | rfl | rfl | rfl
    · have e1 : dumpSub c (lit "vma", none) = .ok { c with dumpVma := true } := by unfold dumpSub; rw [if_pos rfl]
      rw [e1]
      show ps.foldlM dumpSub { c with dumpVma := true } = _
      rw [ih]
      simp [Prod.mk.injEq, n1.symm, n2.symm]
    · have e1 : dumpSub c (lit "vdso", none) = .ok { c with dumpVdso := true } := by
        unfold dumpSub; rw [if_neg (by decide), if_pos rfl]
      rw [e1]
      show ps.foldlM dumpSub { c with dumpVdso := true } = _
      rw [ih]
      simp [Prod.mk.injEq, n1, n3.symm]
    · have e1 : dumpSub c (lit "disasm", none) = .ok { c with disasm := true } := by
        unfold dumpSub; rw [if_neg (by decide), if_neg (by decide), if_pos rfl]
      rw [e1]
      show ps.foldlM dumpSub { c with disasm := true } = _
      rw [ih]
      simp [Prod.mk.injEq, n2, n3]
    · have e1 : dumpSub c (lit "addr", some X) = .ok { c with dumpAddr := x } := by
        unfold dumpSub
        rw [if_neg (by dsimp only; decide), if_neg (by dsimp only; decide), if_neg (by dsimp only; decide), if_pos rfl, addrOf, hX.value]
      rw [e1]
      show ps.foldlM dumpSub { c with dumpAddr := x } = _
      rw [ih]
      simp [Prod.mk.injEq, n4.symm]
    · have e1 : dumpSub c (lit "size", some Y) = .ok { c with dumpSize := y } := by
        unfold dumpSub
        rw [if_neg (by dsimp only; decide), if_neg (by dsimp only; decide), if_neg (by dsimp only; decide), if_neg n4.symm, if_pos rfl,
          sizeOf, hY.value]
      rw [e1]
      show ps.foldlM dumpSub { c with dumpSize := y } = _
      rw [ih]
      simp [Prod.mk.injEq, n4]

theorem acts_dumps (c : Cfg) (a : Act) (hd : a.dumps = true) : a ∈ acts c ↔
    (c.dumpVma = true ∧ a = .dumpVma (match c.output with | none => [] | some o => o) c.vmaAddr) ∨
    (c.dumpVdso = true ∧ a = .dumpVdso (match c.output with | none => [] | some o => o)) ∨
    (c.dumpMem = true ∧ a = .dumpMem (match c.output with | none => [] | some o => o) c.dumpAddr c.dumpSize) ∨
    (c.disasmAddr ≠ 0 ∧ c.disasmSize ≠ 0) ∧ a = .disasm c.disasmAddr c.disasmSize := by
  cases em : c.mapFile with
  | none =>
    simp only [acts, List.mem_append, mem_one, em]
    cases a <;> first | (cases hd; done) | (simp; done) | (simp; intros; exact Iff.rfl)
  | some f =>
    simp only [acts, List.mem_append, mem_one, em]
    cases a <;> first | (cases hd; done) | (simp; done) | (simp; intros; exact Iff.rfl)

/-- **C69** (`--dump`): a region, a mapping, the vdso or a disassembly, for every address
and size and every order of the sub-options: exactly what is asked for is taken out of the
process, and it goes to the output file.  (As long as there is one `--dump`.) -/
theorem C69_dump {e : Env} {A B : List Opt} {c : Cfg} {ps : List Sub} {r : List Byte → Act} (hps : DumpArg ps r)
    (h : taskParse e (A ++ .dump (argText ps) :: B) = .ok c) (hA : ∀ x ∈ A, x.isDump = false)
    (hB : ∀ x ∈ B, x.isDump = false) : ∃ f, ∀ a, a.dumps = true → (a ∈ acts c ↔ a = r f) := by
  obtain ⟨d, h1, h2⟩ := parse_ok h
  rw [fold_append] at h1
  obtain ⟨w, e1, h1⟩ := bind_ok h1
  rw [fold_cons] at h1
  obtain ⟨b, e2, h1⟩ := bind_ok h1
  have hw := opts_keep dumpView Opt.isDump e.page (opt_dumpView e.page) A hA e1
  have hb := opts_keep dumpView Opt.isDump e.page (opt_dumpView e.page) B hB h1
  obtain ⟨⟨m, hc, _⟩, _⟩ := check_ok h2
  have hv : dumpView c = dumpView b := by rw [hc]; exact hb
  have w1 : w.dumpVma = false := by have q := congrArg Cfg.dumpVma hw; exact q
  have w2 : w.dumpVdso = false := by have q := congrArg Cfg.dumpVdso hw; exact q
  have w3 : w.dumpMem = false := by have q := congrArg Cfg.dumpMem hw; exact q
  have w4 : w.disasm = false := by have q := congrArg Cfg.disasm hw; exact q
  have w5 : w.dumpAddr = 0 := by have q := congrArg Cfg.dumpAddr hw; exact q
  have w6 : w.dumpSize = 0 := by have q := congrArg Cfg.dumpSize hw; exact q
  have w7 : w.disasmAddr = 0 := by have q := congrArg Cfg.disasmAddr hw; exact q
  have c1 : c.dumpVma = b.dumpVma := by have q := congrArg Cfg.dumpVma hv; exact q
  have c2 : c.dumpVdso = b.dumpVdso := by have q := congrArg Cfg.dumpVdso hv; exact q
  have c3 : c.dumpMem = b.dumpMem := by have q := congrArg Cfg.dumpMem hv; exact q
  have c4 : c.vmaAddr = b.vmaAddr := by have q := congrArg Cfg.vmaAddr hv; exact q
  have c5 : c.dumpAddr = b.dumpAddr := by have q := congrArg Cfg.dumpAddr hv; exact q
  have c6 : c.dumpSize = b.dumpSize := by have q := congrArg Cfg.dumpSize hv; exact q
  have c7 : c.disasmAddr = b.disasmAddr := by have q := congrArg Cfg.disasmAddr hv; exact q
  have c8 : c.disasmSize = b.disasmSize := by have q := congrArg Cfg.disasmSize hv; exact q
  have n1 : lit "vma" ≠ lit "addr" := by decide
  have n2 : lit "vma" ≠ lit "size" := by decide
  have n3 : lit "vdso" ≠ lit "addr" := by decide
  have n4 : lit "vdso" ≠ lit "size" := by decide
  have n5 : lit "disasm" ≠ lit "addr" := by decide
  have n6 : lit "disasm" ≠ lit "size" := by decide
  have n7 : lit "vma" ≠ lit "disasm" := by decide
  have n8 : lit "vdso" ≠ lit "disasm" := by decide
  have n9 : lit "vma" ≠ lit "vdso" := by decide
  have n10 : lit "size" ≠ lit "addr" := by decide
  -- a text of an address and of a size for the forms that have none
  have zA : AddrText (lit "1") 1 := .dec (v := 1) (s := lit "1") (.one false (by decide : 1 < 10)) (by decide) (by decide)
  have zS : SizeText (lit "1") 1 := .dec (v := 1) (k := 1) (s := lit "1") (sf := []) (.one false (by decide : 1 < 10)) .none (by decide)
  refine ⟨match c.output with | none => [] | some o => o, fun a ha => ?_⟩
  rw [acts_dumps c a ha, c1, c2, c3, c4, c5, c6, c7, c8]
  generalize (match c.output with | none => [] | some o => o) = f
  cases hps with
  | @mem X Y x y hX hY hall hx hy =>
    have hpl : ∀ p ∈ ps, Plain p := by
      intro p hp
      rcases hall p hp with rfl | rfl
      · exact plain_lit (by decide) (by rintro x ⟨⟩; exact hX.plain)
      · exact plain_lit (by decide) (by rintro x ⟨⟩; exact hY.plain)
    rw [taskOpt, C69_subopts ps hpl, fold_dump hX hY ps fun p hp => by rcases hall p hp with q | q <;> simp [q]] at e2
    have k1 : (lit "vma", none) ∉ ps := fun q => by rcases hall _ q with q | q <;> cases q
    have k2 : (lit "vdso", none) ∉ ps := fun q => by rcases hall _ q with q | q <;> cases q
    have k3 : (lit "disasm", none) ∉ ps := fun q => by rcases hall _ q with q | q <;> cases q
    obtain ⟨v, ev, e2⟩ := bind_ok e2
    cases ev
    simp only [dumpCheck, w1, w2, w4, k1, k2, k3, hx, hy, decide_false, Bool.or_false, Bool.and_false, if_true,
      Bool.false_eq_true, if_false] at e2
    split at e2
    · cases e2
    cases e2
    simp [w7]
  | @disasm X Y x y hX hY hall hd hx hy =>
    have hpl : ∀ p ∈ ps, Plain p := by
      intro p hp
      rcases hall p hp with rfl | rfl | rfl
      · exact plain_lit (by decide) (by rintro x ⟨⟩)
      · exact plain_lit (by decide) (by rintro x ⟨⟩; exact hX.plain)
      · exact plain_lit (by decide) (by rintro x ⟨⟩; exact hY.plain)
    rw [taskOpt, C69_subopts ps hpl, fold_dump hX hY ps fun p hp => by rcases hall p hp with q | q | q <;> simp [q]] at e2
    have k1 : (lit "vma", none) ∉ ps := fun q => by rcases hall _ q with q | q | q <;> cases q
    have k2 : (lit "vdso", none) ∉ ps := fun q => by rcases hall _ q with q | q | q <;> cases q
    obtain ⟨v, ev, e2⟩ := bind_ok e2
    cases ev
    simp only [dumpCheck, w1, w2, w4, k1, k2, hd, hx, hy, decide_false, decide_true, Bool.or_false, Bool.or_true,
      Bool.and_true, Bool.and_false, if_true, Bool.false_eq_true, if_false] at e2
    split at e2
    · cases e2
    next hn =>
    cases e2
    have q1 : x ≠ 0 := fun q => hn (Or.inl q)
    have q2 : y ≠ 0 := fun q => hn (Or.inr q)
    simp [w3]
    exact fun _ => ⟨q1, q2⟩
  | @vma X x hX hall hd hx =>
    have hpl : ∀ p ∈ ps, Plain p := by
      intro p hp
      rcases hall p hp with rfl | rfl
      · exact plain_lit (by decide) (by rintro x ⟨⟩)
      · exact plain_lit (by decide) (by rintro x ⟨⟩; exact hX.plain)
    rw [taskOpt, C69_subopts ps hpl, fold_dump hX zS ps fun p hp => by rcases hall p hp with q | q <;> simp [q]] at e2
    have k2 : (lit "vdso", none) ∉ ps := fun q => by rcases hall _ q with q | q <;> cases q
    have k3 : (lit "disasm", none) ∉ ps := fun q => by rcases hall _ q with q | q <;> cases q
    obtain ⟨v, ev, e2⟩ := bind_ok e2
    cases ev
    simp only [dumpCheck, w1, w2, w4, k2, k3, hd, hx, decide_false, decide_true, Bool.or_false, Bool.or_true,
      Bool.and_false, if_true, Bool.false_eq_true, if_false] at e2
    split at e2
    · cases e2
    cases e2
    simp [w3, w7]
  | vdso hall hne =>
    have hpl : ∀ p ∈ ps, Plain p := by
      intro p hp
      rw [hall p hp]
      exact plain_lit (by decide) (by rintro x ⟨⟩)
    rw [taskOpt, C69_subopts ps hpl, fold_dump zA zS ps fun p hp => by simp [hall p hp]] at e2
    have k0 : (lit "vdso", none) ∈ ps := by
      cases ps with
      | nil => exact absurd rfl hne
      | cons p ps => rw [← hall p List.mem_cons_self]; exact List.mem_cons_self
    have k1 : (lit "vma", none) ∉ ps := fun q => by cases hall _ q
    have k3 : (lit "disasm", none) ∉ ps := fun q => by cases hall _ q
    obtain ⟨v, ev, e2⟩ := bind_ok e2
    cases ev
    have k4 : (lit "addr", some (lit "1")) ∉ ps := fun q => by cases hall _ q
    have k5 : (lit "size", some (lit "1")) ∉ ps := fun q => by cases hall _ q
    simp only [dumpCheck, w1, w2, w4, w5, w6, k0, k1, k3, k4, k5, decide_false, decide_true, Bool.or_false, Bool.or_true,
      Bool.and_false, if_true, Bool.false_eq_true, if_false, ne_eq, not_true, or_self] at e2
    cases e2
    simp [w3, w7]

/-! ## The process -/

theorem atoi_numeral {P : List Byte} {v : Nat} (h : Numeral 10 P v) (hv : v < 2 ^ 31) : atoi P = BitVec.ofNat 32 v := by
  have hne := h.ne_nil
  cases P with
  | nil => exact absurd rfl hne
  | cons c r =>
    have hsp : isSpace c = false := by
      cases e : isSpace c with
      | false => rfl
      | true =>
        have : c.toNat < 48 := by simp [isSpace] at e; omega
        exact absurd List.mem_cons_self (numeral_no (by omega) h this)
    have h45 : c ≠ 45 := by
      rintro rfl; exact absurd List.mem_cons_self (numeral_no (by omega) h (by decide))
    have h43 : c ≠ 43 := by
      rintro rfl; exact absurd List.mem_cons_self (numeral_no (by omega) h (by decide))
    have hd := digits_numeral (by omega) h (t := []) (by intro c r e; cases e)
    rw [List.append_nil] at hd
    unfold atoi
    rw [List.dropWhile_cons_of_neg (by simp [hsp])]
    dsimp only
    rw [if_neg h45, if_neg h43, hd, if_pos (by omega)]

theorem opt_pid (page : BitVec 64) (c : Cfg) (o : Opt) (c' : Cfg) (hk : o.isPid = false)
    (h : taskOpt page c o = .ok c') : c'.pid = c.pid := by
  cases o with
  | dump a => have hb := congrArg Cfg.pid (dump_step h); exact hb
  | jmp a => have hb := congrArg Cfg.pid (jmp_step h).1; exact hb
  | map a => have hb := congrArg Cfg.pid (map_step h).1; exact hb
  | mprotect a => have hb := congrArg Cfg.pid (mprot_step h).1; exact hb
  | pid a => cases hk
  | unmap a => cases h; rfl
  | vmas => cases h; rfl
  | threads => cases h; rfl
  | fds => cases h; rfl
  | auxv => cases h; rfl
  | status => cases h; rfl
  | symbols => cases h; rfl
  | output a => cases h; rfl
  | dryRun => cases h; rfl
  | force => cases h; rfl
  | other => cases h; rfl
  | stop n => cases h
  | patch a => cases h
  | unpatch => cases h
  | function a => cases h
  | patchObj a => cases h

/-- **C69** (`-p`): the process that is opened is the one with that number, and it is
there. -/
theorem C69_pid {e : Env} {A B : List Opt} {c : Cfg} {P : List Byte} {v : Nat} (hP : Numeral 10 P v) (hv : v < 2 ^ 31)
    (h : taskParse e (A ++ .pid P :: B) = .ok c) (hB : ∀ x ∈ B, x.isPid = false) :
    c.pid = BitVec.ofNat 32 v ∧ e.pidExists c.pid = true := by
  obtain ⟨d, h1, h2⟩ := parse_ok h
  rw [fold_append] at h1
  obtain ⟨w, _, h1⟩ := bind_ok h1
  rw [fold_cons] at h1
  obtain ⟨b, e2, h1⟩ := bind_ok h1
  cases e2
  have := opts_keep Cfg.pid Opt.isPid e.page (opt_pid e.page) B hB h1
  obtain ⟨⟨m, hc, _⟩, _, hp, _⟩ := check_ok h2
  have ho : c.pid = d.pid := by rw [hc]
  rw [ho, this]
  exact ⟨atoi_numeral hP hv, by rw [this] at hp; exact hp⟩

/-- **C69**: the command lines are accepted: for every process that is there, a jump
between two addresses that are not zero, and that is all that is done. -/
theorem C69_jmp_accepted {e : Env} {P F T : List Byte} {f t : BitVec 64} (hp : atoi P ≠ -1) (he : e.pidExists (atoi P) = true)
    (hF : AddrText F f) (hT : AddrText T t) (f0 : f ≠ 0) (t0 : t ≠ 0) {ps : List Sub}
    (hps : ∀ p ∈ ps, p = (lit "from", some F) ∨ p = (lit "to", some T))
    (hf : (lit "from", some F) ∈ ps) (ht : (lit "to", some T) ∈ ps) :
    ∃ c, taskParse e [.pid P, .jmp (argText ps)] = .ok c ∧ acts c = [.jmp f t] := by
  have hpl : ∀ p ∈ ps, Plain p := by
    intro p hp
    rcases hps p hp with rfl | rfl
    · exact plain_lit (by decide) (by rintro x ⟨⟩; exact hF.plain)
    · exact plain_lit (by decide) (by rintro x ⟨⟩; exact hT.plain)
  have f0' : ¬ f = 0#64 := f0
  have t0' : ¬ t = 0#64 := t0
  have hp' : ¬ atoi P = 4294967295#32 := hp
  refine ⟨{ pid := atoi P, jmpFrom := f, jmpTo := t, rdonly := false }, ?_, ?_⟩
  · have : taskOpt e.page { pid := atoi P } (.jmp (argText ps)) =
        .ok { pid := atoi P, jmpFrom := f, jmpTo := t, rdonly := false } := by
      rw [taskOpt, C69_subopts ps hpl, fold_jmp hF hT ps hps, if_pos hf, if_pos ht]
      show jmpCheck _ = _
      rw [jmpCheck, if_neg (by simp [f0', t0'])]
    rw [taskParse, fold_cons]
    show (List.foldlM (taskOpt e.page) { pid := atoi P } [.jmp (argText ps)]).bind (taskCheck e) = _
    rw [fold_cons, this]
    show taskCheck e _ = _
    simp [taskCheck, hp', he]
    rfl
  · simp [acts, idle, one, f0', t0']

/-- **C69**: the same for rights over a region of whole pages. -/
theorem C69_mprotect_accepted {e : Env} {P X Y : List Byte} {x y : BitVec 64} (hp : atoi P ≠ -1)
    (he : e.pidExists (atoi P) = true) (hX : AddrText X x) (hY : AddrText Y y) (x0 : x ≠ 0) (y0 : y ≠ 0)
    (xp : x % e.page = 0) (yp : y % e.page = 0) {ps : List Sub}
    (hps : ∀ p ∈ ps, p = (lit "addr", some X) ∨ p = (lit "len", some Y) ∨ p = (lit "none", none) ∨
      p = (lit "read", none) ∨ p = (lit "write", none) ∨ p = (lit "exec", none))
    (hx : (lit "addr", some X) ∈ ps) (hy : (lit "len", some Y) ∈ ps)
    (hn : (lit "none", none) ∈ ps → (lit "read", none) ∉ ps ∧ (lit "write", none) ∉ ps ∧ (lit "exec", none) ∉ ps) :
    ∃ c, taskParse e [.pid P, .mprotect (argText ps)] = .ok c ∧
      acts c = [.mprotect x y (rights (decide ((lit "read", none) ∈ ps)) (decide ((lit "write", none) ∈ ps))
        (decide ((lit "exec", none) ∈ ps)))] := by
  have hpl : ∀ p ∈ ps, Plain p := by
    intro p hp
    rcases hps p hp with rfl | rfl | rfl | rfl | rfl | rfl
    · exact plain_lit (by decide) (by rintro x ⟨⟩; exact hX.plain)
    · exact plain_lit (by decide) (by rintro x ⟨⟩; exact hY.plain)
    all_goals exact plain_lit (by decide) (by rintro x ⟨⟩)
  have z : ∀ v : BitVec 64, 0 ||| v = v := fun v => by simp
  have hz : decide ((lit "none", none) ∈ ps) = true → rights (decide ((lit "read", none) ∈ ps))
      (decide ((lit "write", none) ∈ ps)) (decide ((lit "exec", none) ∈ ps)) = 0 := by
    intro q
    obtain ⟨n1, n2, n3⟩ := hn (by simpa using q)
    simp only [n1, n2, n3, decide_false]
    rfl
  generalize hr : rights (decide ((lit "read", none) ∈ ps)) (decide ((lit "write", none) ∈ ps))
      (decide ((lit "exec", none) ∈ ps)) = r at hz ⊢
  have x0' : ¬ x = 0#64 := x0
  have y0' : ¬ y = 0#64 := y0
  have hp' : ¬ atoi P = 4294967295#32 := hp
  refine ⟨{ pid := atoi P, mprotAddr := x, mprotLen := y, mprotProt := r, rdonly := false }, ?_, ?_⟩
  · have : taskOpt e.page { pid := atoi P } (.mprotect (argText ps)) =
        .ok { pid := atoi P, mprotAddr := x, mprotLen := y, mprotProt := r, rdonly := false } := by
      rw [taskOpt, C69_subopts ps hpl, fold_mprot hX hY ps hps, if_pos hx, if_pos hy, hr, z]
      show mprotCheck _ _ = _
      rw [mprotCheck, if_neg (by rintro ⟨q1, q2⟩; exact q2 (hz (by simpa using q1))), if_neg (by simp [x0', y0']),
        if_neg (by simp [xp, yp])]
    rw [taskParse, fold_cons]
    show (List.foldlM (taskOpt e.page) { pid := atoi P } [.mprotect (argText ps)]).bind (taskCheck e) = _
    rw [fold_cons, this]
    show taskCheck e _ = _
    simp [taskCheck, hp', he]
    rfl
  · simp [acts, idle, one, x0']

/-- **C69**: the same for a region of memory, if the output file is not there yet. -/
theorem C69_dump_accepted {e : Env} {P X Y O : List Byte} {x y : BitVec 64} (hp : atoi P ≠ -1)
    (he : e.pidExists (atoi P) = true) (hX : AddrText X x) (hY : SizeText Y y) (x0 : x ≠ 0) (y0 : y ≠ 0)
    (ho : e.exist O = false) {ps : List Sub}
    (hps : ∀ p ∈ ps, p = (lit "addr", some X) ∨ p = (lit "size", some Y))
    (hx : (lit "addr", some X) ∈ ps) (hy : (lit "size", some Y) ∈ ps) :
    ∃ c, taskParse e [.pid P, .dump (argText ps), .output O] = .ok c ∧ acts c = [.dumpMem O x y] ∧
      opensForWriting c = false := by
  have hpl : ∀ p ∈ ps, Plain p := by
    intro p hp
    rcases hps p hp with rfl | rfl
    · exact plain_lit (by decide) (by rintro x ⟨⟩; exact hX.plain)
    · exact plain_lit (by decide) (by rintro x ⟨⟩; exact hY.plain)
  have k1 : (lit "vma", none) ∉ ps := fun q => by rcases hps _ q with q | q <;> cases q
  have k2 : (lit "vdso", none) ∉ ps := fun q => by rcases hps _ q with q | q <;> cases q
  have k3 : (lit "disasm", none) ∉ ps := fun q => by rcases hps _ q with q | q <;> cases q
  have x0' : ¬ x = 0#64 := x0
  have y0' : ¬ y = 0#64 := y0
  have hp' : ¬ atoi P = 4294967295#32 := hp
  refine ⟨{ pid := atoi P, dumpAddr := x, dumpSize := y, dumpMem := true, output := some O }, ?_, ?_, rfl⟩
  · have : taskOpt e.page { pid := atoi P } (.dump (argText ps)) =
        .ok { pid := atoi P, dumpAddr := x, dumpSize := y, dumpMem := true } := by
      rw [taskOpt, C69_subopts ps hpl, fold_dump hX hY ps (fun p hp => by rcases hps p hp with q | q <;> simp [q]),
        if_pos hx, if_pos hy]
      show dumpCheck _ = _
      simp only [dumpCheck, k1, k2, k3, decide_false, Bool.or_false, Bool.and_false, Bool.false_eq_true, if_false]
      rw [if_neg (by simp [x0', y0'])]
    rw [taskParse, fold_cons]
    show (List.foldlM (taskOpt e.page) { pid := atoi P } [.dump (argText ps), .output O]).bind (taskCheck e) = _
    rw [fold_cons, this]
    show taskCheck e _ = _
    simp [taskCheck, hp', he]
    show (if false = false ∧ e.exist O = true then _ else _) = _
    rw [if_neg (by simp [ho])]
  · simp [acts, idle, one]

deriving instance DecidableEq for Except

/-- A system with every process and no file. -/
def exEnv : Env where
  page := 4096
  pidExists := fun _ => true
  exist := fun _ => false
  regular := fun _ => false
  size := fun _ => 0
  cwd := []
  relocatable := fun _ => false
  patchOk := fun _ => false

/-! ## Dry run -/

/-- All but whether `--dry-run` was given. -/
def dry (c : Cfg) : Cfg := { c with dryRun := false }

/-- A step that does not look at `--dry-run`. -/
theorem fold_dry {α σ : Type} (f : σ → σ) {g : σ → α → Except Int σ} (h : ∀ c p, g (f c) p = (g c p).map f) (l : List α) :
    ∀ c, l.foldlM g (f c) = (l.foldlM g c).map f := by
  induction l with
  | nil => intro c; rfl
  | cons p l ih =>
    intro c
    rw [List.foldlM_cons, List.foldlM_cons, h]
    cases hg : g c p with
    | error n => rfl
    | ok d => exact ih d

theorem bind_dry {α β : Type} (f : α → α) (f' : β → β) {x y : Except Int α} {k : α → Except Int β} (hx : y = x.map f)
    (hk : ∀ a, k (f a) = (k a).map f') : y.bind k = (x.bind k).map f' := by
  subst hx
  cases x with
  | error n => rfl
  | ok a => exact hk a

def setDry (c : Cfg) : Cfg := { c with dryRun := true }

theorem opt_dry (page : BitVec 64) (c : Cfg) (o : Opt) : taskOpt page (setDry c) o = (taskOpt page c o).map setDry := by
  cases o with
  | dump a =>
    refine bind_dry setDry setDry (fold_dry setDry ?_ _ c) ?_
    · intro c p
      unfold dumpSub
      repeat' split
      all_goals rfl
    · intro c
      cases c
      unfold dumpCheck
      simp only [apply_ite (Except.map setDry)]
      rfl
  | jmp a =>
    refine bind_dry setDry setDry (fold_dry setDry ?_ _ c) ?_
    · intro c p
      unfold jmpSub
      repeat' split
      all_goals rfl
    · intro c
      cases c
      unfold jmpCheck
      rw [apply_ite (Except.map setDry)]
      rfl
  | map a =>
    refine bind_dry setDry setDry (fold_dry setDry ?_ _ c) ?_
    · intro c p
      unfold mapSub
      repeat' split
      all_goals rfl
    · intro c
      cases c
      unfold mapCheck
      simp only [apply_ite (Except.map setDry)]
      rfl
  | mprotect a =>
    refine bind_dry (fun x => (setDry x.1, x.2)) setDry
      (fold_dry (fun x => (setDry x.1, x.2)) ?_ _ ({ c with mprotProt := 0 }, false)) ?_
    · intro c p
      unfold mprotSub
      repeat' split
      all_goals rfl
    · rintro ⟨c, k⟩
      cases c
      unfold mprotCheck
      simp only [apply_ite (Except.map setDry)]
      rfl
  | _ => rfl

theorem check_dry (e : Env) (c : Cfg) : taskCheck e (setDry c) = (taskCheck e c).map setDry := by
  unfold taskCheck
  change (if c.pid = -1 then Except.error 1
    else if e.pidExists c.pid = false then .error 1
    else if (c.dumpVma || c.dumpVdso) && c.output.isNone then .error 1
    else if c.dumpMem && c.output.isNone then .error 1
    else _) = _
  by_cases h1 : c.pid = -1
  · rw [if_pos h1, if_pos h1]; rfl
  rw [if_neg h1, if_neg h1]
  by_cases h2 : e.pidExists c.pid = false
  · rw [if_pos h2, if_pos h2]; rfl
  rw [if_neg h2, if_neg h2]
  by_cases h3 : ((c.dumpVma || c.dumpVdso) && c.output.isNone) = true
  · rw [if_pos h3, if_pos h3]; rfl
  rw [if_neg h3, if_neg h3]
  by_cases h4 : (c.dumpMem && c.output.isNone) = true
  · rw [if_pos h4, if_pos h4]; rfl
  rw [if_neg h4, if_neg h4]
  refine bind_dry setDry setDry ?_ ?_
  · cases c
    dsimp only [setDry]
    split
    · rfl
    · rw [apply_ite (Except.map setDry), apply_ite (Except.map setDry), apply_ite (Except.map setDry)]
      rfl
  · intro c
    cases c
    dsimp only [setDry]
    split
    · rw [apply_ite (Except.map setDry)]
      rfl
    · rfl

/-- With `--dry-run` somewhere on the command line, only the mark of this option is different. -/
theorem parse_dry (e : Env) (a b : List Opt) :
    taskParse e (a ++ .dryRun :: b) = (taskParse e (a ++ b)).map setDry := by
  refine bind_dry setDry setDry ?_ (check_dry e)
  rw [List.foldlM_append, List.foldlM_append]
  cases List.foldlM (taskOpt e.page) {} a with
  | error n => rfl
  | ok c => exact fold_dry setDry (opt_dry e.page) b c

/-- C70 is violated: `--dry-run`, wherever it is put on a command line and whatever the
others are, changes nothing of what is done to the process: the command line is accepted or
refused as without it, and there are the same actions, with the process opened in the
same way, and with the same status at the end. -/
theorem C70_ignored (e : Env) (a b : List Opt) :
    (∀ n, taskParse e (a ++ .dryRun :: b) = .error n ↔ taskParse e (a ++ b) = .error n) ∧
    ∀ c, taskParse e (a ++ b) = .ok c → ∃ c', taskParse e (a ++ .dryRun :: b) = .ok c' ∧
      acts c' = acts c ∧ opensForWriting c' = opensForWriting c ∧ ∀ res, taskStatus res c' = taskStatus res c := by
  rw [parse_dry]
  constructor
  · intro n
    cases taskParse e (a ++ b) with
    | error m => rfl
    | ok c => exact ⟨nofun, nofun⟩
  · intro c h
    rw [h]
    exact ⟨setDry c, rfl, rfl, rfl, fun _ => rfl⟩

theorem patch_dry (e : Env) (a b : List Opt) :
    patchParse e (a ++ .dryRun :: b) = (patchParse e (a ++ b)).map fun c => { c with dryRun := true } := by
  refine bind_dry (fun c => { c with dryRun := true }) _ ?_ ?_
  · rw [List.foldlM_append, List.foldlM_append]
    cases List.foldlM patchOpt {} a with
    | error n => rfl
    | ok c =>
      refine fold_dry (fun c => { c with dryRun := true }) (g := patchOpt) ?_ b c
      intro c o
      cases o <;> rfl
  · intro c
    unfold patchCheck
    dsimp only
    by_cases h1 : c.cmd = .none
    · rw [if_pos h1, if_pos h1]; rfl
    rw [if_neg h1, if_neg h1]
    by_cases h2 : c.pid = -1
    · rw [if_pos h2, if_pos h2]; rfl
    rw [if_neg h2, if_neg h2]
    by_cases h3 : e.pidExists c.pid = false
    · rw [if_pos h3, if_pos h3]; rfl
    rw [if_neg h3, if_neg h3]
    by_cases h4 : c.cmd = .patch
    · rw [if_pos h4, if_pos h4]
      cases hf : c.file with
      | none => rfl
      | some f =>
        dsimp only
        rw [← hf]
        by_cases h5 : e.exist f = true ∧ e.patchOk f = true
        · rw [if_pos h5, if_pos h5]; rfl
        · rw [if_neg h5, if_neg h5]; rfl
    · rw [if_neg h4, if_neg h4]; rfl

theorem trace_dry (e : Env) (dflt : List Byte) (a b : List Opt) :
    traceParse e dflt (a ++ .dryRun :: b) = (traceParse e dflt (a ++ b)).map fun c => { c with dryRun := true } := by
  refine bind_dry (fun c => { c with dryRun := true }) _ ?_ ?_
  · rw [List.foldlM_append, List.foldlM_append]
    cases List.foldlM traceOpt {} a with
    | error n => rfl
    | ok c =>
      refine fold_dry (fun c => { c with dryRun := true }) (g := traceOpt) ?_ b c
      intro c o
      cases o <;> rfl
  · intro c
    unfold traceCheck
    dsimp only
    by_cases h1 : c.pid = -1
    · rw [if_pos h1, if_pos h1]; rfl
    rw [if_neg h1, if_neg h1]
    by_cases h2 : c.func = none
    · rw [if_pos h2, if_pos h2]; rfl
    rw [if_neg h2, if_neg h2]
    by_cases h3 : e.pidExists c.pid = false
    · rw [if_pos h3, if_pos h3]; rfl
    rw [if_neg h3, if_neg h3]
    by_cases h4 : e.exist (traceObj dflt c.obj) = false
    · rw [if_pos h4, if_pos h4]; rfl
    rw [if_neg h4, if_neg h4]
    by_cases h5 : e.relocatable (traceObj dflt c.obj) = false
    · rw [if_pos h5, if_pos h5]; rfl
    rw [if_neg h5, if_neg h5]
    rfl

/-- C70 is violated by `ulpatch` as well: with `--dry-run` anywhere on its command line, the same
patch file is applied to, or the patch taken out of, the same process. -/
theorem C70_patch_ignored (e : Env) (a b : List Opt) :
    (∀ n, patchParse e (a ++ .dryRun :: b) = .error n ↔ patchParse e (a ++ b) = .error n) ∧
    ∀ c, patchParse e (a ++ b) = .ok c → ∃ c', patchParse e (a ++ .dryRun :: b) = .ok c' ∧
      c'.pid = c.pid ∧ c'.cmd = c.cmd ∧ c'.file = c.file := by
  rw [patch_dry]
  constructor
  · intro n
    cases patchParse e (a ++ b) with
    | error m => rfl
    | ok c => exact ⟨nofun, nofun⟩
  · intro c h
    rw [h]
    exact ⟨_, rfl, rfl, rfl, rfl⟩

/-- C70 is violated by `ulftrace` as well: with `--dry-run` anywhere on its command line, the same
function of the same process is traced. -/
theorem C70_trace_ignored (e : Env) (dflt : List Byte) (a b : List Opt) :
    (∀ n, traceParse e dflt (a ++ .dryRun :: b) = .error n ↔ traceParse e dflt (a ++ b) = .error n) ∧
    ∀ c, traceParse e dflt (a ++ b) = .ok c → ∃ c', traceParse e dflt (a ++ .dryRun :: b) = .ok c' ∧
      c'.pid = c.pid ∧ c'.func = c.func ∧ c'.obj = c.obj := by
  rw [trace_dry]
  constructor
  · intro n
    cases traceParse e dflt (a ++ b) with
    | error m => rfl
    | ok c => exact ⟨nofun, nofun⟩
  · intro c h
    rw [h]
    exact ⟨_, rfl, rfl, rfl, rfl⟩

/-- `ulpatch -p 42 --unpatch --dry-run` takes out a patch. -/
example : (patchParse exEnv [.pid (lit "42"), .unpatch, .dryRun]).map (fun c => (c.pid, c.cmd)) =
    .ok (42, .unpatch) := by decide +kernel

/-- C70 is violated: the full command line, here `-p 42 --dry-run --jmp from=0x1000,to=0x2000`,
writes the jump. -/
theorem C70_violated : ∃ (e : Env) (opts : List Opt) (c : Cfg), .dryRun ∈ opts ∧ taskParse e opts = .ok c ∧
    .jmp 0x1000 0x2000 ∈ acts c ∧ opensForWriting c = true := by
  refine ⟨exEnv, [.pid (lit "42"), .dryRun, .jmp (lit "from=0x1000,to=0x2000")],
    { pid := 42, dryRun := true, jmpFrom := 0x1000, jmpTo := 0x2000, rdonly := false }, by decide, ?_, by decide, rfl⟩
  decide +kernel

/-- **C70** (part): a command line without `--mprotect`, `--map`, `--unmap` and `--jmp`
changes nothing in the process, and opens it for reading only, with or without
`--dry-run`. -/
theorem C70_look_partial {e : Env} {opts : List Opt} {c : Cfg} (h : taskParse e opts = .ok c)
    (hl : ∀ o ∈ opts, o.change = none) : (∀ a ∈ acts c, a.change = none) ∧ opensForWriting c = false := by
  obtain ⟨h1, h2⟩ := C69_asked h
  constructor
  · intro a ha
    cases hk : a.change with
    | none => rfl
    | some k =>
      obtain ⟨o, ho, hc⟩ := (h1 k).1 ⟨a, ha, hk⟩
      rw [hl o ho] at hc
      cases hc
  · cases hw : opensForWriting c with
    | false => rfl
    | true =>
      obtain ⟨o, ho, hc⟩ := h2.1 hw
      exact absurd (hl o ho) hc

/-! ## The exit status -/

theorem foldl_add (g : Act → Int) (as : List Act) : ∀ n : Int, as.foldl (fun r a => r + g a) n = n + as.foldl (fun r a => r + g a) 0 := by
  induction as with
  | nil => intro n; simp
  | cons a as ih =>
    intro n
    rw [List.foldl_cons, List.foldl_cons, ih, ih (0 + g a)]
    omega

theorem sum_zero (g : Act → Int) (as : List Act) (h : ∀ a ∈ as, g a ≤ 0) :
    as.foldl (fun r a => r + g a) 0 ≤ 0 ∧ (as.foldl (fun r a => r + g a) 0 = 0 ↔ ∀ a ∈ as, g a = 0) := by
  induction as with
  | nil => simp
  | cons a as ih =>
    have ih := ih fun x hx => h x (List.mem_cons_of_mem _ hx)
    have h1 := h a List.mem_cons_self
    rw [List.foldl_cons, foldl_add]
    constructor
    · omega
    · constructor
      · intro q x hx
        rcases List.mem_cons.1 hx with rfl | hx
        · omega
        · exact ih.2.1 (by omega) x hx
      · intro q
        have q1 := q a List.mem_cons_self
        have q2 := ih.2.2 fun x hx => q x (List.mem_cons_of_mem _ hx)
        omega

/-- **C71** (part): the status is zero exactly if changing the rights, mapping and
unmapping all worked, for every command line and all results (0, or the negative number of
an error).  Missing: the results of the other things that are asked for. -/
theorem C71_status_partial (res : Act → Int) (c : Cfg) (hres : ∀ a ∈ acts c, res a ≤ 0) :
    taskStatus res c = 0 ↔ ∀ a ∈ acts c, (a.change = some .mprotect ∨ a.change = some .map ∨ a.change = some .unmap) →
      res a = 0 := by
  unfold taskStatus
  rw [(sum_zero res _ fun a ha => hres a (List.mem_filter.1 ha).1).2]
  have hc : ∀ a : Act, counted a = true ↔ (a.change = some .mprotect ∨ a.change = some .map ∨ a.change = some .unmap) := by
    intro a; cases a <;> simp [counted, Act.change]
  constructor
  · intro q a ha hk
    exact q a (List.mem_filter.2 ⟨ha, (hc a).2 hk⟩)
  · intro q a ha
    obtain ⟨h1, h2⟩ := List.mem_filter.1 ha
    exact q a h1 ((hc a).1 h2)

/-- C71 is violated: a jump that could not be written and a region that could not be
dumped: the status is zero, for every result. -/
theorem C71_violated : ∃ (e : Env) (opts : List Opt) (c : Cfg), taskParse e opts = .ok c ∧
    acts c = [.dumpMem (lit "out") 0x3000 16, .jmp 0x1000 0x2000] ∧ ∀ res, taskStatus res c = 0 := by
  refine ⟨exEnv, [.pid (lit "42"), .jmp (lit "from=0x1000,to=0x2000"), .dump (lit "addr=0x3000,size=16"), .output (lit "out")],
    { pid := 42, jmpFrom := 0x1000, jmpTo := 0x2000, rdonly := false, dumpMem := true, dumpAddr := 0x3000, dumpSize := 16,
      output := some (lit "out") }, ?_, ?_, fun _ => rfl⟩
  · decide +kernel
  · decide +kernel

/-! ## What the options do not do -/

/-- C69 is violated: a length for `--mprotect` with a unit ("SIZE: 123KB") is read without
it: 4 KiB become 4 bytes, and that is refused, 4096 KiB become one page, and the rights of
the rest stay as they are. -/
theorem C69_len_unit :
    taskParse exEnv [.pid (lit "42"), .mprotect (lit "addr=0x1000,len=4KB,read")] = .error 1 ∧
    (∃ c, taskParse exEnv [.pid (lit "42"), .mprotect (lit "addr=0x1000,len=4096KB,read")] = .ok c ∧
      acts c = [.mprotect 0x1000 4096 1]) ∧ SizeText (lit "4096KB") (4096 * 1024) := by
  refine ⟨by decide +kernel, ⟨{ pid := 42, mprotAddr := 0x1000, mprotLen := 4096, mprotProt := 1, rdonly := false },
    by decide +kernel, by decide +kernel⟩, ?_⟩
  exact .dec (s := lit "4096") (sf := lit "KB") (v := 4096) (k := 1024)
    (.snoc (s := lit "409") (v := 409) (d := 6) false (.snoc (s := lit "40") (v := 40) (d := 9) false
      (.snoc (s := lit "4") (v := 4) (d := 0) false (.one (d := 4) false (by omega)) (by omega)) (by omega)) (by omega)) .kb (by omega)

/-- C69 is violated: the second `--dump` is mixed with the first: asked for a mapping and
for a region, ultask dumps the mapping that the region is in, and not the region. -/
theorem C69_dump_twice : ∃ c,
    taskParse exEnv [.pid (lit "42"), .dump (lit "vma,addr=0x1000"), .dump (lit "addr=0x5000,size=16"), .output (lit "out")] = .ok c ∧
      acts c = [.dumpVma (lit "out") 0x5000] :=
  ⟨{ pid := 42, dumpVma := true, vmaAddr := 0x5000, dumpAddr := 0x5000, dumpSize := 16, output := some (lit "out") },
    by decide +kernel, by decide +kernel⟩

/-- C69 is violated: a number that is no process identifier is cut to one: `-p 4294967297`
is process 1, and what follows the digits is not looked at. -/
theorem C69_pid_cut : atoi (lit "4294967297") = 1 ∧ atoi (lit "12x7") = 12 := ⟨by decide +kernel, by decide +kernel⟩

/-- C69 is violated: "the input will be take as base 16" (src/ultask.c:202), but `7f00`
without `0x` is read as 7. -/
theorem C69_base16 : ∃ c,
    taskParse exEnv [.pid (lit "42"), .dump (lit "vma,addr=7f00"), .output (lit "out")] = .ok c ∧
      acts c = [.dumpVma (lit "out") 7] :=
  ⟨{ pid := 42, dumpVma := true, vmaAddr := 7, dumpAddr := 7, output := some (lit "out") }, by decide +kernel, by decide +kernel⟩

/-! ## ulpatch -/

/-- The command and the file after the options. -/
def cmdIs (c : PatchCfg) : Option Opt → PatchCfg → Prop
  | none, c' => c'.cmd = c.cmd ∧ c'.file = c.file
  | some (.patch f), c' => c'.cmd = .patch ∧ c'.file = some f
  | some _, c' => c'.cmd = .unpatch

def pidIs (c : PatchCfg) : Option Opt → PatchCfg → Prop
  | some (.pid a), c' => c'.pid = atoi a
  | _, c' => c'.pid = c.pid

theorem getLast_cons (o : Opt) (l : List Opt) : (o :: l).getLast? = match l.getLast? with | none => some o | some x => some x := by
  cases l with
  | nil => rfl
  | cons a l => rw [List.getLast?_cons_cons]; cases h : (a :: l).getLast? with
    | none => simp at h
    | some x => rfl

theorem patch_fold (os : List Opt) : ∀ c : PatchCfg,
    (∀ c', os.foldlM patchOpt c = .ok c' → (∀ o ∈ os, o.ofPatch = true) ∧ cmdIs c (lastCmd os) c' ∧ pidIs c (lastPid os) c') ∧
    ((∀ o ∈ os, o.ofPatch = true) → ∃ c', os.foldlM patchOpt c = .ok c') := by
  induction os with
  | nil =>
    intro c
    refine ⟨fun c' h => ?_, fun _ => ⟨c, rfl⟩⟩
    cases h
    exact ⟨by simp, ⟨rfl, rfl⟩, rfl⟩
  | cons o os ih =>
    intro c
    have key : ∀ d : PatchCfg, patchOpt c o = .ok d → o.ofPatch = true ∧
        (cmdIs c (if o.isCmd then some o else none) d ∧ pidIs c (if o.isPid then some o else none) d) := by
      intro d h
      cases o <;> first | (cases h; done) | skip
      all_goals
        cases h
        simp [Opt.ofPatch, Opt.isCmd, Opt.isPid, cmdIs, pidIs]
    constructor
    · intro c' h
      rw [fold_cons] at h
      obtain ⟨d, h1, h2⟩ := bind_ok h
      obtain ⟨k1, k2, k3⟩ := key d h1
      obtain ⟨i1, i2, i3⟩ := (ih d).1 c' h2
      refine ⟨fun x hx => ?_, ?_, ?_⟩
      · rcases List.mem_cons.1 hx with rfl | hx
        · exact k1
        · exact i1 x hx
      · unfold lastCmd at i2 ⊢
        by_cases hc : o.isCmd = true
        · rw [List.filter_cons_of_pos hc, getLast_cons]
          rw [if_pos hc] at k2
          cases hl : (os.filter Opt.isCmd).getLast? with
          | none =>
            rw [hl] at i2
            dsimp only [cmdIs] at i2
            cases o <;> first | (cases hc; done) | skip
            · exact ⟨i2.1.trans k2.1, i2.2.trans k2.2⟩
            · exact i2.1.trans k2
          | some x =>
            rw [hl] at i2
            cases x <;> exact i2
        · rw [List.filter_cons_of_neg hc]
          rw [if_neg hc] at k2
          cases hl : (os.filter Opt.isCmd).getLast? with
          | none =>
            rw [hl] at i2
            exact ⟨i2.1.trans k2.1, i2.2.trans k2.2⟩
          | some x =>
            rw [hl] at i2
            cases x <;> exact i2
      · unfold lastPid at i3 ⊢
        by_cases hc : o.isPid = true
        · rw [List.filter_cons_of_pos hc, getLast_cons]
          rw [if_pos hc] at k3
          cases hl : (os.filter Opt.isPid).getLast? with
          | none =>
            rw [hl] at i3
            cases o <;> first | (cases hc; done) | skip
            exact Eq.trans i3 k3
          | some x =>
            rw [hl] at i3
            have hx : x.isPid = true := (List.mem_filter.1 (List.mem_of_getLast? hl)).2
            cases x <;> first | (cases hx; done) | exact i3
        · rw [List.filter_cons_of_neg hc]
          rw [if_neg hc] at k3
          cases hl : (os.filter Opt.isPid).getLast? with
          | none =>
            rw [hl] at i3
            exact Eq.trans i3 k3
          | some x =>
            rw [hl] at i3
            have hx : x.isPid = true := (List.mem_filter.1 (List.mem_of_getLast? hl)).2
            cases x <;> first | (cases hx; done) | exact i3
    · intro hall
      have ho := hall o List.mem_cons_self
      have : ∃ d, patchOpt c o = .ok d := by
        cases o <;> first | (cases ho; done) | exact ⟨_, rfl⟩
      obtain ⟨d, hd⟩ := this
      obtain ⟨c', hc'⟩ := (ih d).2 fun x hx => hall x (List.mem_cons_of_mem _ hx)
      exact ⟨c', by rw [fold_cons, hd]; exact hc'⟩

theorem patch_check {e : Env} {c c' : PatchCfg} : patchCheck e c = .ok c' ↔
    c' = c ∧ c.pid ≠ -1 ∧ e.pidExists c.pid = true ∧
      ((c.cmd = .unpatch) ∨ (c.cmd = .patch ∧ ∃ f, c.file = some f ∧ e.exist f = true ∧ e.patchOk f = true)) := by
  unfold patchCheck
  cases hc : c.cmd with
  | none => simp
  | patch =>
    by_cases h1 : c.pid = -1
    · simp [h1]
    · cases h2 : e.pidExists c.pid with
      | false => simp
      | true =>
        cases hf : c.file with
        | none => simp
        | some f =>
          rw [if_neg (by simp), if_neg h1, if_neg (by simp), if_pos rfl]
          dsimp only
          by_cases h3 : e.exist f = true ∧ e.patchOk f = true
          · rw [if_pos h3]
            constructor
            · rintro ⟨⟩
              exact ⟨rfl, h1, rfl, Or.inr ⟨rfl, f, rfl, h3⟩⟩
            · rintro ⟨rfl, _⟩; rfl
          · rw [if_neg h3]
            constructor
            · rintro ⟨⟩
            · rintro ⟨_, _, _, q | ⟨_, g, q, q2⟩⟩
              · cases q
              · cases q; exact absurd q2 h3
  | unpatch =>
    by_cases h1 : c.pid = -1
    · simp [h1]
    · cases h2 : e.pidExists c.pid with
      | false => simp
      | true =>
        rw [if_neg (by simp), if_neg h1, if_neg (by simp), if_neg (by simp)]
        constructor
        · rintro ⟨⟩
          exact ⟨rfl, h1, rfl, Or.inl rfl⟩
        · rintro ⟨rfl, _⟩; rfl

/-- **C72** (part): for every command line of ulpatch: a file is loaded into a process
exactly if all options are known, the last command is `--patch` with that file, the last
`-p` names that process, the process is there, and the file is there and is a patch.
Missing: two commands are not refused (`C72_violated`). -/
theorem C72_patch_partial (e : Env) (opts : List Opt) (f P : List Byte) (hP : lastPid opts = some (.pid P)) :
    (∃ c, patchParse e opts = .ok c ∧ c.cmd = .patch ∧ c.file = some f ∧ c.pid = atoi P) ↔
      (∀ o ∈ opts, o.ofPatch = true) ∧ lastCmd opts = some (.patch f) ∧ atoi P ≠ -1 ∧ e.pidExists (atoi P) = true ∧
        e.exist f = true ∧ e.patchOk f = true := by
  unfold patchParse
  constructor
  · rintro ⟨c, h, h1, h2, h3⟩
    obtain ⟨d, k1, k2⟩ := bind_ok h
    obtain ⟨q1, q2, q3⟩ := (patch_fold opts {}).1 d k1
    obtain ⟨rfl, r1, r2, r3⟩ := patch_check.1 k2
    refine ⟨q1, ?_, h3 ▸ r1, h3 ▸ r2, ?_⟩
    · cases hl : lastCmd opts with
      | none =>
        rw [hl] at q2
        have := q2.1
        rw [h1] at this
        cases this
      | some x =>
        rw [hl] at q2
        have hx : x.isCmd = true := (List.mem_filter.1 (List.mem_of_getLast? hl)).2
        cases x <;> first | (cases hx; done) | skip
        · have := q2.2
          rw [h2] at this
          cases this
          rfl
        · have : c.cmd = .unpatch := q2
          rw [h1] at this
          cases this
    · rcases r3 with r | ⟨_, g, r, r4⟩
      · rw [h1] at r; cases r
      · rw [h2] at r; cases r; exact r4
  · rintro ⟨h1, h2, h3, h4, h5⟩
    obtain ⟨d, hd⟩ := (patch_fold opts {}).2 h1
    obtain ⟨_, q2, q3⟩ := (patch_fold opts {}).1 d hd
    rw [h2] at q2
    rw [hP] at q3
    have q3 : d.pid = atoi P := q3
    refine ⟨d, ?_, q2.1, q2.2, q3⟩
    rw [hd]
    exact patch_check.2 ⟨rfl, q3 ▸ h3, q3 ▸ h4, Or.inr ⟨q2.1, f, q2.2, h5⟩⟩

/-- **C72** (part): and a patch is taken out exactly if the last command is `--unpatch`. -/
theorem C72_unpatch_partial (e : Env) (opts : List Opt) (P : List Byte) (hP : lastPid opts = some (.pid P)) :
    (∃ c, patchParse e opts = .ok c ∧ c.cmd = .unpatch ∧ c.pid = atoi P) ↔
      (∀ o ∈ opts, o.ofPatch = true) ∧ lastCmd opts = some .unpatch ∧ atoi P ≠ -1 ∧ e.pidExists (atoi P) = true := by
  unfold patchParse
  constructor
  · rintro ⟨c, h, h1, h3⟩
    obtain ⟨d, k1, k2⟩ := bind_ok h
    obtain ⟨q1, q2, q3⟩ := (patch_fold opts {}).1 d k1
    obtain ⟨rfl, r1, r2, r3⟩ := patch_check.1 k2
    refine ⟨q1, ?_, h3 ▸ r1, h3 ▸ r2⟩
    cases hl : lastCmd opts with
    | none =>
      rw [hl] at q2
      have := q2.1
      rw [h1] at this
      cases this
    | some x =>
      rw [hl] at q2
      have hx : x.isCmd = true := (List.mem_filter.1 (List.mem_of_getLast? hl)).2
      cases x <;> first | (cases hx; done) | skip
      · have := q2.1
        rw [h1] at this
        cases this
      · rfl
  · rintro ⟨h1, h2, h3, h4⟩
    obtain ⟨d, hd⟩ := (patch_fold opts {}).2 h1
    obtain ⟨_, q2, q3⟩ := (patch_fold opts {}).1 d hd
    rw [h2] at q2
    rw [hP] at q3
    have q3 : d.pid = atoi P := q3
    refine ⟨d, ?_, q2, q3⟩
    rw [hd]
    exact patch_check.2 ⟨rfl, q3 ▸ h3, q3 ▸ h4, Or.inl q2⟩

/-- **C72** (part): without a process nothing is done. -/
theorem C72_no_pid (e : Env) (opts : List Opt) (hP : lastPid opts = none) : ∀ c, patchParse e opts ≠ .ok c := by
  intro c h
  obtain ⟨d, k1, k2⟩ := bind_ok h
  obtain ⟨_, _, q3⟩ := (patch_fold opts {}).1 d k1
  rw [hP] at q3
  exact (patch_check.1 k2).2.1 q3

/-- C72 is violated: both commands at once are taken, and a patch is taken out of the
process; the file is not looked at. -/
theorem C72_violated : ∃ c,
    patchParse exEnv [.pid (lit "42"), .patch (lit "no-such-file"), .unpatch] = .ok c ∧ c.cmd = .unpatch :=
  ⟨{ pid := 42, cmd := .unpatch, file := some (lit "no-such-file") }, by decide +kernel, rfl⟩

example : ∃ (e : Env) (c : PatchCfg), patchParse e [.patch (lit "p.ulp"), .pid (lit "42")] = .ok c ∧ c.cmd = .patch ∧
    c.file = some (lit "p.ulp") ∧ c.pid = atoi (lit "42") :=
  ⟨{ exEnv with exist := fun _ => true, patchOk := fun _ => true }, { pid := 42, cmd := .patch, file := some (lit "p.ulp") },
    by decide +kernel, rfl, rfl, by decide +kernel⟩

/-! ## ulftrace -/

/-- C73 is violated: the object given with `-j` is looked at, but it is not the one that
is loaded. -/
theorem C73_violated (dflt f : List Byte) (hne : f ≠ dflt) : ∃ (e : Env) (c : TraceCfg),
    traceParse e dflt [.pid (lit "42"), .function (lit "main"), .patchObj f] = .ok c ∧ c.obj = some f ∧ traceLoads dflt c ≠ f := by
  refine ⟨{ exEnv with exist := fun _ => true, relocatable := fun _ => true },
    { pid := atoi (lit "42"), func := some (lit "main"), obj := some f }, ?_, rfl, fun q => hne q.symm⟩
  have h42 : atoi (lit "42") = 42 := by decide +kernel
  rw [h42]
  rfl

/-- **C73** (part): what is accepted has a process that is there and a function, and
without `-j` the object that is loaded is there and is relocatable. -/
theorem C73_default_partial {e : Env} {dflt : List Byte} {opts : List Opt} {c : TraceCfg}
    (h : traceParse e dflt opts = .ok c) :
    e.pidExists c.pid = true ∧ c.func ≠ none ∧
      ((∀ o ∈ opts, ∀ f, o ≠ .patchObj f) → e.exist (traceLoads dflt c) = true ∧ e.relocatable (traceLoads dflt c) = true) := by
  obtain ⟨d, k1, k2⟩ := bind_ok h
  unfold traceCheck at k2
  split at k2
  · cases k2
  split at k2
  · cases k2
  next hf =>
  split at k2
  · cases k2
  next hp =>
  dsimp only at k2
  generalize ho : traceObj dflt d.obj = ob at k2
  by_cases he : e.exist ob = false
  · rw [if_pos he] at k2; cases k2
  rw [if_neg he] at k2
  by_cases hr : e.relocatable ob = false
  · rw [if_pos hr] at k2; cases k2
  rw [if_neg hr] at k2
  cases k2
  refine ⟨by simpa using hp, hf, fun hno => ?_⟩
  have hobj : ∀ (os : List Opt), (∀ o ∈ os, ∀ f, o ≠ Opt.patchObj f) → ∀ {c c' : TraceCfg},
      os.foldlM traceOpt c = .ok c' → c'.obj = c.obj := by
    intro os
    induction os with
    | nil => intro _ c c' h; cases h; rfl
    | cons o os ih =>
      intro hos c c' h
      rw [fold_cons] at h
      obtain ⟨x, h1, h2⟩ := bind_ok h
      rw [ih (fun y hy => hos y (List.mem_cons_of_mem _ hy)) h2]
      cases o <;> first | (cases h1; done) | (cases h1; rfl) | exact absurd rfl (hos _ List.mem_cons_self _)
  have := hobj opts hno k1
  have hd : d.obj = none := this
  rw [hd] at ho
  dsimp only [traceObj] at ho
  subst ho
  dsimp only [traceLoads]
  exact ⟨by simpa using he, by simpa using hr⟩

/-! ## Examples -/

/-- The texts of addresses and sizes in the theorems exist. -/
example : AddrText (lit "0x10") 16 :=
  .hex (s := lit "10") (v := 16) (.snoc (s := lit "1") (v := 1) (d := 0) false (.one (d := 1) false (by omega)) (by omega)) (by omega)
example : argText [(lit "from", some (lit "0x10")), (lit "to", some (lit "0x20"))] = lit "from=0x10,to=0x20" := by decide +kernel
example : ∃ c, taskParse exEnv [.pid (lit "42"), .vmas, .jmp (lit "to=0x20,from=0x10"), .unmap (lit "0x30")] = .ok c ∧
    acts c = [.unmap 0x30, .vmas, .jmp 0x10 0x20] :=
  ⟨{ pid := 42, vmas := true, jmpFrom := 0x10, jmpTo := 0x20, unmapIt := true, unmapAddr := 0x30, rdonly := false },
    by decide +kernel, by decide +kernel⟩
example : ∃ c, taskParse { exEnv with exist := fun f => f = lit "/d/f", regular := fun _ => true, size := fun _ => 10, cwd := lit "/d" }
    [.map (lit "file=f,noexec"), .pid (lit "42")] = .ok c ∧ acts c = [.map (lit "/d/f") 0 false true] :=
  ⟨{ pid := 42, mapFile := some (lit "/d/f"), mapNoexec := true, rdonly := false }, by decide +kernel, by decide +kernel⟩
example : ∃ c, taskParse exEnv [.pid (lit "42"), .dump (lit "disasm,size=16,addr=0x10")] = .ok c ∧ acts c = [.disasm 16 16] :=
  ⟨{ pid := 42, disasm := true, dumpAddr := 16, dumpSize := 16, disasmAddr := 16, disasmSize := 16 }, by decide +kernel, by decide +kernel⟩
example : ∃ c, taskParse exEnv [.pid (lit "42"), .dump (lit "vdso"), .output (lit "o")] = .ok c ∧ acts c = [.dumpVdso (lit "o")] :=
  ⟨{ pid := 42, dumpVdso := true, output := some (lit "o") }, by decide +kernel, by decide +kernel⟩
example : taskParse { exEnv with exist := fun _ => true } [.pid (lit "42"), .dump (lit "vdso"), .output (lit "o")] = .error 1 := by
  decide +kernel

end Ulp.Cli
