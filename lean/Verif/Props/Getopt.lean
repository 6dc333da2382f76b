/-
C132: options mean what the help texts say, however they are written.
-/
import Verif.Proof.GetoptRead
import Verif.Props.Again
namespace Ulp.Getopt
open Ulp.Load (lit)
open Ulp.Cli (Opt AOpt Tool Outcome Vars)

/-- **C132**: whatever options are written on a command line of one of the tools, in whatever
order and in whichever of the ways - `-p X`, `-pX`, `--pid X`, `--pid=X`, a name cut short as long as
no other begins so, letters one behind the other -, with other words anywhere between them and
anything behind `--`: the tool sees exactly these options, in this order, with these arguments to
the last byte. -/
theorem C132_read (p : Prog) (posix : Bool) (ws : List Word) (os : List AOpt) (h : p.Spelled posix ws os) :
    p.cases posix ws = os.map .opt := read_spelled (fits p) h

theorem opt_inj : ∀ {os ps : List AOpt}, os.map Case.opt = ps.map Case.opt → os = ps
  | [], [], _ => rfl
  | [], _ :: _, h => nomatch h
  | _ :: _, [], h => nomatch h
  | o :: os, q :: ps, h => by
    rw [List.map_cons, List.map_cons] at h
    injection h with h1 h2
    cases h1
    rw [opt_inj h2]

/-- **C132**: a command line is one list of options or none. -/
theorem C132_one (p : Prog) (posix : Bool) (ws : List Word) (os ps : List AOpt) (h : p.Spelled posix ws os) (g : p.Spelled posix ws ps) :
    os = ps := by
  have e := (C132_read p posix ws os h).symm.trans (C132_read p posix ws ps g)
  exact opt_inj e

theorem flags_fine {t : Table} {case : Ret → Case} {D : List Doc} (F : Fits t case D) {cs : Word} {os : List AOpt} (h : Flags D cs os) :
    AOpt.own (.stop 1) ∉ os := by
  induction h with
  | nil => exact nofun
  | cons hd hc ho _ ih =>
    intro hm
    rcases List.mem_cons.mp hm with e | hm
    · exact (F.flag hd hc ho).2.2 e.symm
    · exact ih hm

theorem names_fine {t : Table} {case : Ret → Case} {D : List Doc} (F : Fits t case D) {d : Doc} {n : Word} (hd : d ∈ D) (hn : Names D n d) :
    match d.mean with
    | .inl o => o ≠ .own (.stop 1)
    | .inr f => ∀ a, f a ≠ .own (.stop 1) := by
  obtain ⟨l, _, h2, h3, _⟩ := row_of F hd hn
  cases hm : d.mean with
  | inl o => exact (F.lflag hd h2 h3 hm).2.2
  | inr f => exact (F.larg hd h2 h3 hm).2.2

theorem not_mem_snoc {os : List AOpt} {o x : AOpt} (h : x ∉ os) (ho : o ≠ x) : x ∉ os ++ [o] := by
  intro hm
  rcases List.mem_append.mp hm with hm | hm
  · exact h hm
  · exact ho (List.mem_singleton.mp hm).symm

theorem writes_fine {t : Table} {case : Ret → Case} {D : List Doc} (F : Fits t case D) {V : Word → Prop} {xs : List Word}
    {os : List AOpt} (h : Writes D V xs os) : AOpt.own (.stop 1) ∉ os := by
  cases h with
  | name hd hn ho => have := names_fine F hd hn; rw [ho] at this; exact not_mem_snoc (os := []) nofun this
  | nameEq a hd hn ho => have := names_fine F hd hn; rw [ho] at this; exact not_mem_snoc (os := []) nofun (this a)
  | nameArg a hd hn ho => have := names_fine F hd hn; rw [ho] at this; exact not_mem_snoc (os := []) nofun (this a)
  | flags _ hf => exact flags_fine F hf
  | letterArg a hf hd hc ho _ => exact not_mem_snoc (flags_fine F hf) ((F.arg hd hc ho).2.2 a)
  | letterSep a hf hd hc ho => exact not_mem_snoc (flags_fine F hf) ((F.arg hd hc ho).2.2 a)
  | verbose vs hf _ => exact not_mem_snoc (flags_fine F hf) nofun

theorem spelled_fine {t : Table} {case : Ret → Case} {D : List Doc} (F : Fits t case D) {V : Word → Prop} {posix : Bool}
    {ws : List Word} {os : List AOpt} (h : Spelled D V posix ws os) : AOpt.own (.stop 1) ∉ os := by
  induction h with
  | done => exact nofun
  | dashes => exact nofun
  | word _ _ _ ih => exact ih
  | posix => exact nofun
  | opts hw _ ih =>
    intro hm
    rcases List.mem_append.mp hm with hm | hm
    · exact writes_fine F hw hm
    · exact ih hm

/-- **C132**: nothing else is taken: the command lines on which none of the calls of `getopt_long`
ends the program with status 1 are those that write options of the help text (with anything
behind the letter `v`). -/
theorem C132_only_partial (p : Prog) (posix : Bool) (ws : List Word) :
    (∃ os, p.Loose posix ws os) ↔ Case.opt (.own (.stop 1)) ∉ p.cases posix ws := by
  constructor
  · intro ⟨os, h⟩ hm
    have e : p.cases posix ws = os.map .opt := read_spelled (fits p) h
    rw [e] at hm
    obtain ⟨o, ho, e⟩ := List.mem_map.mp hm
    cases e
    exact spelled_fine (fits p) h ho
  · intro h
    refine only_spelled (fits p) posix ws.length ws (Nat.le_refl _) fun hb => h ?_
    exact List.mem_map.mpr ⟨.bad, hb, (fits p).bad⟩

theorem stops {C R : Type} (t : Tool C R) (ht : ∀ c n, t.opt c (.stop n) = .error n) (n : Int) :
    ∀ (os : List AOpt) (v : Vars C), AOpt.own (.stop n) ∈ os → (Cli.optLoop t v os).2 ≠ none := by
  intro os
  induction os with
  | nil => intro v h; cases h
  | cons o os ih =>
    intro v h
    cases o with
    | verbose k =>
      rw [Cli.optLoop]
      exact ih _ ((List.mem_cons.mp h).resolve_left nofun)
    | level l =>
      rw [Cli.optLoop]
      exact ih _ ((List.mem_cons.mp h).resolve_left nofun)
    | info =>
      rw [Cli.optLoop]
      exact nofun
    | own o =>
      rw [Cli.optLoop]
      cases hr : t.opt v.own o with
      | error k => exact nofun
      | ok c =>
        dsimp only
        rcases List.mem_cons.mp h with e | h
        · cases e
          rw [ht] at hr
          cases hr
        · exact ih _ h

theorem idle_call {C R : Type} (t : Tool C R) (ht : ∀ c n, t.opt c (.stop n) = .error n) (exist : List Byte → Bool) (env : Bool)
    (os : List AOpt) (v : Vars C) (n : Int) (h : AOpt.own (.stop n) ∈ os) :
    ¬ ∃ r l k b, (Cli.call t exist env os v).2 = .works r l k b := by
  rintro ⟨r, l, k, b, e⟩
  have hs := stops t ht n os (Cli.resetVars t v) h
  rcases Cli.call_cases t exist env os v with ⟨m, hc⟩ | hc | ⟨-, l', m, hc⟩ | ⟨hn, _⟩
  · rw [hc] at e; cases e
  · rw [hc] at e; cases e
  · rw [hc] at e; cases e
  · exact hs hn

/-! ### Nothing but options of the help text -/

/-- What a return value of `getopt_long` may be. -/
def Fine (case : Ret → Case) (D : List Doc) (r : Ret) : Prop := r = .bad ∨ ∃ o, case r = .opt o ∧ Known D o

theorem letters_fine {t : Table} {case : Ret → Case} {D : List Doc} (F : Fits t case D) : ∀ cs : Word,
    (∀ r ∈ (letters t.shorts cs).1, Fine case D r) ∧
    ∀ v, (letters t.shorts cs).2 = some v → ∀ a, Fine case D (.opt v (some a))
  | [] => ⟨nofun, nofun⟩
  | c :: r => by
    obtain ⟨i1, i2⟩ := letters_fine F r
    rcases F.letters c with hl | hl | ⟨d, hd, hc⟩
    · rw [letters, hl]
      refine ⟨fun x hx => ?_, i2⟩
      rcases List.mem_cons.mp hx with rfl | hx
      · exact .inl rfl
      · exact i1 x hx
    · subst hl
      rw [letters, F.v]
      refine ⟨fun x hx => ?_, nofun⟩
      rw [List.mem_singleton.mp hx]
      exact .inr ⟨_, F.vs _, .inl ⟨_, rfl⟩⟩
    · cases hm : d.mean with
      | inl o =>
        obtain ⟨g1, g2, _⟩ := F.flag hd hc hm
        rw [letters, g1]
        refine ⟨fun x hx => ?_, i2⟩
        rcases List.mem_cons.mp hx with rfl | hx
        · exact .inr ⟨o, g2, .inr ⟨d, hd, .inl hm⟩⟩
        · exact i1 x hx
      | inr f =>
        obtain ⟨g1, g2, _⟩ := F.arg hd hc hm
        have good : ∀ a, Fine case D (.opt c.toNat (some a)) := fun a => .inr ⟨f a, g2 a, .inr ⟨d, hd, .inr ⟨f, a, hm, rfl⟩⟩⟩
        rw [letters, g1]
        dsimp only
        by_cases hr : r = []
        · rw [if_pos hr]
          exact ⟨nofun, fun v hv a => by cases hv; exact good a⟩
        · rw [if_neg hr]
          exact ⟨fun x hx => by rw [List.mem_singleton.mp hx]; exact good r, nofun⟩

theorem long_fine {t : Table} {case : Ret → Case} {D : List Doc} (F : Fits t case D) (s : Word) :
    (∀ r, long t.longs s = .inl r → Fine case D r) ∧ ∀ v, long t.longs s = .inr v → ∀ a, Fine case D (.opt v (some a)) := by
  unfold long
  cases hr : row t.longs (s.takeWhile (· ≠ 61)) with
  | none => exact ⟨fun r h => by cases h; exact .inl rfl, nofun⟩
  | some l =>
    dsimp only
    obtain ⟨hl, d, hd, hn, -⟩ := of_row F hr
    cases hm : d.mean with
    | inl o =>
      obtain ⟨g1, g2, _⟩ := F.lflag hd hl hn hm
      cases hs : s.dropWhile (· ≠ 61) with
      | nil =>
        dsimp only
        rw [if_neg (by simp [g1])]
        exact ⟨fun r h => by cases h; exact .inr ⟨o, g2, .inr ⟨d, hd, .inl hm⟩⟩, nofun⟩
      | cons c v =>
        dsimp only
        rw [if_neg (by simp [g1])]
        exact ⟨fun r h => by cases h; exact .inl rfl, nofun⟩
    | inr f =>
      obtain ⟨g1, g2, _⟩ := F.larg hd hl hn hm
      have good : ∀ a, Fine case D (.opt l.val (some a)) := fun a => .inr ⟨f a, g2 a, .inr ⟨d, hd, .inr ⟨f, a, hm, rfl⟩⟩⟩
      cases hs : s.dropWhile (· ≠ 61) with
      | nil =>
        dsimp only
        rw [if_pos g1]
        exact ⟨nofun, fun v h a => by cases h; exact good a⟩
      | cons c v =>
        dsimp only
        rw [if_pos g1]
        exact ⟨fun r h => by cases h; exact good v, nofun⟩

theorem scan_fine {t : Table} {case : Ret → Case} {D : List Doc} (F : Fits t case D) (posix : Bool) : ∀ (k : Nat) (ws : List Word),
    ws.length ≤ k → ∀ r ∈ scan t posix ws, Fine case D r := by
  intro k
  induction k with
  | zero =>
    intro ws hk r hr
    cases ws with
    | nil => cases hr
    | cons w ws => simp at hk
  | succ k ih =>
    intro ws hk r hr
    cases ws with
    | nil => cases hr
    | cons w ws =>
      rw [List.length_cons] at hk
      have i0 := ih ws (by omega)
      rw [scan] at hr
      by_cases h1 : w = lit "-" ∨ w.head? ≠ some 45
      · rw [if_pos h1] at hr
        cases posix with
        | true => cases hr
        | false => exact i0 r hr
      rw [if_neg h1] at hr
      by_cases h2 : w = lit "--"
      · rw [if_pos h2] at hr
        cases hr
      rw [if_neg h2] at hr
      by_cases h3 : w.take 2 = lit "--"
      · rw [if_pos h3] at hr
        obtain ⟨l1, l2⟩ := long_fine F (w.drop 2)
        cases hl : long t.longs (w.drop 2) with
        | inl x =>
          rw [hl] at hr
          rcases List.mem_cons.mp hr with rfl | hr
          · exact l1 _ hl
          · exact i0 r hr
        | inr v =>
          rw [hl] at hr
          cases ws with
          | nil => rw [List.mem_singleton.mp hr]; exact .inl rfl
          | cons a ws =>
            rw [List.length_cons] at hk
            rcases List.mem_cons.mp hr with rfl | hr
            · exact l2 v hl a
            · exact ih ws (by omega) r hr
      · rw [if_neg h3] at hr
        obtain ⟨l1, l2⟩ := letters_fine F (w.drop 1)
        cases hl : (letters t.shorts (w.drop 1)).2 with
        | none =>
          rw [hl] at hr
          rcases List.mem_append.mp hr with hr | hr
          · exact l1 r hr
          · exact i0 r hr
        | some v =>
          rw [hl] at hr
          cases ws with
          | nil =>
            rcases List.mem_append.mp hr with hr | hr
            · exact l1 r hr
            · rw [List.mem_singleton.mp hr]; exact .inl rfl
          | cons a ws =>
            rw [List.length_cons] at hk
            rcases List.mem_append.mp hr with hr | hr
            · exact l1 r hr
            · rcases List.mem_cons.mp hr with rfl | hr
              · exact l2 v hl a
              · exact ih ws (by omega) r hr

theorem all_opts : ∀ ks : List Case, (∀ k ∈ ks, ∃ o, k = .opt o) → ∃ os : List AOpt, ks = os.map Case.opt
  | [], _ => ⟨[], rfl⟩
  | k :: ks, h => by
    obtain ⟨o, rfl⟩ := h k List.mem_cons_self
    obtain ⟨os, rfl⟩ := all_opts ks fun k hk => h k (List.mem_cons_of_mem _ hk)
    exact ⟨o :: os, rfl⟩

/-- **C132**: on every command line whatsoever, the tool sees options of its help text, each with an
argument if and only if it takes one, or ends with status 1; it never reads an argument that is
not there. -/
theorem C132_known (p : Prog) (posix : Bool) (ws : List Word) :
    ∃ os : List AOpt, p.cases posix ws = os.map .opt ∧ ∀ o ∈ os, o = .own (.stop 1) ∨ Known p.doc o := by
  have key : ∀ k ∈ p.cases posix ws, ∃ o, k = .opt o ∧ (o = .own (.stop 1) ∨ Known p.doc o) := by
    intro k hk
    obtain ⟨r, hr, rfl⟩ := List.mem_map.mp hk
    rcases scan_fine (fits p) posix ws.length ws (Nat.le_refl _) r hr with rfl | ⟨o, h1, h2⟩
    · exact ⟨_, (fits p).bad, .inl rfl⟩
    · exact ⟨o, h1, .inr h2⟩
  obtain ⟨os, e⟩ := all_opts (p.cases posix ws) fun k hk => (key k hk).imp fun o h => h.1
  refine ⟨os, e, fun o ho => ?_⟩
  obtain ⟨o', h1, h2⟩ := key (.opt o) (by rw [e]; exact List.mem_map_of_mem ho)
  cases h1
  exact h2

/-- **C132**: on a command line that does not write options of the help text, the tool does not begin
to work, whatever the system is like and whatever was called before. -/
theorem C132_refused_partial (p : Prog) (posix : Bool) (ws : List Word) (h : ¬ ∃ os, p.Loose posix ws os) (os : List AOpt)
    (ho : p.cases posix ws = os.map .opt) (e : Cli.Env) (dflt : Word) (env : Bool) (w : Cli.World) :
    ¬ p.Works e dflt env os w := by
  have hm : Case.opt (.own (.stop 1)) ∈ p.cases posix ws := Classical.not_not.mp fun hn => h ((C132_only_partial p posix ws).mpr hn)
  rw [ho] at hm
  obtain ⟨o, hm, e1⟩ := List.mem_map.mp hm
  cases e1
  cases p with
  | ultask => exact idle_call _ (fun _ _ => rfl) _ _ _ _ 1 hm
  | ulpatch => exact idle_call _ (fun _ _ => rfl) _ _ _ _ 1 hm
  | ulftrace => exact idle_call _ (fun _ _ => rfl) _ _ _ _ 1 hm
  | ulpinfo => exact idle_call _ (fun _ _ => rfl) _ _ _ _ 1 hm

/-! ### Where it is not so -/

/-- **C132**: what is missing from `C132_only_partial` and `C132_refused_partial`.  The letter `v` takes
everything behind it: letters of other options behind it are lost, and any others are taken for
good. -/
theorem C132_behind_v (p : Prog) (posix : Bool) (x : Word) (ws : List Word) :
    p.cases posix ((lit "-v" ++ x) :: ws) = .opt (.verbose (BitVec.ofNat 32 (x.count 118))) :: p.cases posix ws := by
  have h : Writes p.doc (fun _ => True) [lit "-" ++ [] ++ lit "v" ++ x] ([] ++ [.verbose (BitVec.ofNat 32 (x.count 118))]) :=
    .verbose x .nil trivial
  obtain ⟨rs, h1, h2⟩ := read_writes (fits p) _ posix h ws
  have e : [lit "-" ++ [] ++ lit "v" ++ x] ++ ws = (lit "-v" ++ x) :: ws := rfl
  rw [e] at h2
  unfold Prog.cases
  rw [h2, List.map_append, h1]
  rfl

/-- **C132**: `-uv` asks for a dry run, `-vu` does not; `-vF` does not force, `-vh` shows no help and
goes on. -/
theorem C132_violated (p : Prog) :
    p.cases false [lit "-uv"] = [.opt (.own .dryRun), .opt (.verbose 0)] ∧ p.cases false [lit "-vu"] = [.opt (.verbose 0)] ∧
    p.cases false [lit "-vF"] = [.opt (.verbose 0)] ∧ p.cases false [lit "-vh"] = [.opt (.verbose 0)] ∧
    p.cases false [lit "-v?"] = [.opt (.verbose 0)] := by
  cases p <;> exact ⟨by decide +kernel, by decide +kernel, by decide +kernel, by decide +kernel, by decide +kernel⟩

/-- **C132**: the usage line of every tool ends with `[FILE]...`, but words that are no options are
passed over without a word. -/
theorem C132_files_ignored (p : Prog) (w : Word) (hw : w.head? ≠ some 45) (ws : List Word) : p.cases false (w :: ws) = p.cases false ws := by
  unfold Prog.cases
  rw [scan_word false (.inr hw)]
  rfl

/-- **C132**: an option without the argument it needs takes the next word for it, whatever it is:
here the file to load is `-p`. -/
theorem C132_next_word : Prog.ulpatch.cases false [lit "--patch", lit "-p", lit "12"] = [.opt (.own (.patch (lit "-p")))] := by
  decide +kernel

/-! ### The hypotheses are met -/

theorem mem_doc {D : List Doc} {d : Doc} (i : Nat) (h : D[i]? = some d) : d ∈ D := List.mem_of_getElem? h

/-- `ulpatch patches.txt -uF --pat=a.ulp -vv --pid 12 -- x` -/
theorem ex_spelled : Prog.ulpatch.Spelled false
    [lit "patches.txt", lit "-uF", lit "--pat=a.ulp", lit "-vv", lit "--pid", lit "12", lit "--", lit "x"]
    [.own .dryRun, .own .force, .own (.patch (lit "a.ulp")), .verbose 1, .own (.pid (lit "12"))] := by
  refine .word rfl (.inr (by decide)) ?_
  refine .opts (xs := [lit "-uF"]) (os := [.own .dryRun, .own .force])
    (.flags (cs := lit "uF") (by decide) (.cons (mem_doc 7 rfl) rfl rfl (.cons (mem_doc 11 rfl) rfl rfl .nil))) ?_
  refine .opts (xs := [lit "--pat=a.ulp"]) (os := [.own (.patch (lit "a.ulp"))])
    (.nameEq (f := fun a => .own (.patch a)) (n := lit "pat") (lit "a.ulp") (mem_doc 1 rfl) (.inr ⟨⟨lit "patch", List.mem_singleton.mpr rfl, by decide⟩, ?_⟩) rfl) ?_
  · decide +kernel
  refine .opts (xs := [lit "-vv"]) (os := [.verbose 1]) (.verbose (cs := []) (lit "v") .nil (by unfold OnlyVs; decide)) ?_
  refine .opts (xs := [lit "--pid", lit "12"]) (os := [.own (.pid (lit "12"))])
    (.nameArg (f := fun a => .own (.pid a)) (lit "12") (mem_doc 0 rfl) (.inl (List.mem_singleton.mpr rfl)) rfl) ?_
  exact .dashes _

example : Prog.ulpatch.cases false
    [lit "patches.txt", lit "-uF", lit "--pat=a.ulp", lit "-vv", lit "--pid", lit "12", lit "--", lit "x"] =
    [.opt (.own .dryRun), .opt (.own .force), .opt (.own (.patch (lit "a.ulp"))), .opt (.verbose 1), .opt (.own (.pid (lit "12")))] :=
  C132_read _ _ _ _ ex_spelled

/-- The letters: `ultask -uo out -p12 --sy`. -/
theorem ex_letters : Prog.ultask.Spelled true [lit "-uo", lit "out", lit "-p12", lit "--sy", lit "x", lit "-F"]
    [.own .dryRun, .own (.output (lit "out")), .own (.pid (lit "12")), .own .symbols] := by
  refine .opts (xs := [lit "-uo", lit "out"]) (os := [.own .dryRun, .own (.output (lit "out"))])
    (.letterSep (f := fun a => .own (.output a)) (cs := lit "u") (os := [.own .dryRun]) (c := 111) (lit "out") (.cons (mem_doc 16 rfl) rfl rfl .nil) (mem_doc 12 rfl) rfl rfl) ?_
  refine .opts (xs := [lit "-p12"]) (os := [.own (.pid (lit "12"))])
    (.letterArg (f := fun a => .own (.pid a)) (cs := []) (c := 112) (lit "12") .nil (mem_doc 0 rfl) rfl rfl (by decide)) ?_
  refine .opts (xs := [lit "--sy"]) (os := [.own .symbols])
    (.name (n := lit "sy") (mem_doc 11 rfl) (.inr ⟨⟨lit "syms", by decide, by decide⟩, by decide +kernel⟩) rfl) ?_
  exact .posix _ rfl (.inr (by decide))

/-- A command line that is not taken: `--lo` may be three options, and ulpatch has no `-o`. -/
example : (¬ ∃ os, Prog.ulpatch.Loose false [lit "--lo"] os) ∧ ¬ ∃ os, Prog.ulpatch.Loose false [lit "-o"] os :=
  ⟨fun h => absurd ((C132_only_partial _ _ _).mp h) (by decide +kernel), fun h => absurd ((C132_only_partial _ _ _).mp h) (by decide +kernel)⟩

end Ulp.Getopt
