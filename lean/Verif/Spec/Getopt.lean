/-
How the options of the tools are written on a command line: what the help texts say
(src/args-common.c:21-49, src/ulpatch.c:54-80, src/ultask.c:182-246, src/ulftrace.c:49-76,
src/ulpinfo.c:37-57) together with the conventions of the GNU tools for writing options.

Nothing here refers to the tables of options or to how the words are read.
-/
import Verif.Model.Getopt
namespace Ulp.Getopt
open Ulp.Load (lit)
open Ulp.Cli (Opt AOpt)

/-- An option of a help text: its letter, its names, and what it means: alone, or with its
argument. -/
structure Doc where
  short : Option Byte
  longs : List Word
  mean : AOpt ⊕ (Word → AOpt)

/-- The letter of an option. -/
def chr (c : Char) : Option Byte := some (BitVec.ofNat 8 c.toNat)

/-- `print_usage_common`.  The letter `-v` is `Writes.verbose`. -/
def commonDoc : List Doc :=
  [⟨none, [lit "log-level", lit "lv"], .inr levelOpt⟩,
    ⟨none, [lit "log-debug"], .inl (.level 7)⟩,
    ⟨none, [lit "log-error"], .inl (.level 3)⟩,
    ⟨chr 'u', [lit "dry-run"], .inl (.own .dryRun)⟩,
    ⟨none, [lit "verbose"], .inl (.verbose 0)⟩,
    ⟨chr 'h', [lit "help"], .inl (.own (.stop 0))⟩,
    ⟨chr 'V', [lit "version"], .inl (.own (.stop 0))⟩,
    ⟨chr 'F', [lit "force"], .inl (.own .force)⟩,
    ⟨none, [lit "info"], .inl .info⟩]

/-- The help texts of the tools. -/
def Prog.doc : Prog → List Doc
  | .ultask =>
    [⟨chr 'p', [lit "pid"], .inr fun a => .own (.pid a)⟩,
      ⟨none, [lit "dump"], .inr fun a => .own (.dump a)⟩,
      ⟨none, [lit "jmp"], .inr fun a => .own (.jmp a)⟩,
      ⟨none, [lit "map"], .inr fun a => .own (.map a)⟩,
      ⟨none, [lit "unmap"], .inr fun a => .own (.unmap a)⟩,
      ⟨none, [lit "mprotect"], .inr fun a => .own (.mprotect a)⟩,
      ⟨none, [lit "vmas"], .inl (.own .vmas)⟩,
      ⟨none, [lit "threads"], .inl (.own .threads)⟩,
      ⟨none, [lit "fds"], .inl (.own .fds)⟩,
      ⟨none, [lit "auxv"], .inl (.own .auxv)⟩,
      ⟨none, [lit "status"], .inl (.own .status)⟩,
      ⟨none, [lit "syms", lit "symbols"], .inl (.own .symbols)⟩,
      ⟨chr 'o', [lit "output"], .inr fun a => .own (.output a)⟩] ++ commonDoc
  | .ulpatch =>
    [⟨chr 'p', [lit "pid"], .inr fun a => .own (.pid a)⟩,
      ⟨none, [lit "patch"], .inr fun a => .own (.patch a)⟩,
      ⟨none, [lit "unpatch"], .inl (.own .unpatch)⟩,
      ⟨none, [lit "map-pfx"], .inl (.own (.stop 0))⟩] ++ commonDoc
  | .ulftrace =>
    [⟨chr 'p', [lit "pid"], .inr fun a => .own (.pid a)⟩,
      ⟨chr 'f', [lit "function"], .inr fun a => .own (.function a)⟩,
      ⟨chr 'j', [lit "patch-obj"], .inr fun a => .own (.patchObj a)⟩] ++ commonDoc
  | .ulpinfo =>
    [⟨chr 'i', [lit "patch"], .inr fun a => .own (.patch a)⟩,
      ⟨chr 'p', [lit "pid"], .inr fun a => .own (.pid a)⟩] ++ commonDoc

/-- `n` names the option: it is one of its names, or the beginning of one and of no name of
another option. -/
def Names (D : List Doc) (n : Word) (d : Doc) : Prop :=
  n ∈ d.longs ∨ ((∃ m ∈ d.longs, n <+: m) ∧ ∀ e ∈ D, ∀ m ∈ e.longs, n <+: m → m ∈ d.longs)

/-- Letters of options without an argument, one behind the other. -/
inductive Flags (D : List Doc) : Word → List AOpt → Prop
  | nil : Flags D [] []
  | cons {d c o cs os} : d ∈ D → d.short = some c → d.mean = .inl o → Flags D cs os → Flags D (c :: cs) (o :: os)

/-- The words that write options.  `V` is what may be behind the letter `v`. -/
inductive Writes (D : List Doc) (V : Word → Prop) : List Word → List AOpt → Prop
  /-- `--name` -/
  | name {d n o} : d ∈ D → Names D n d → d.mean = .inl o → Writes D V [lit "--" ++ n] [o]
  /-- `--name=argument` -/
  | nameEq {d n f} (a : Word) : d ∈ D → Names D n d → d.mean = .inr f → Writes D V [lit "--" ++ n ++ lit "=" ++ a] [f a]
  /-- `--name argument` -/
  | nameArg {d n f} (a : Word) : d ∈ D → Names D n d → d.mean = .inr f → Writes D V [lit "--" ++ n, a] [f a]
  /-- `-xyz` -/
  | flags {cs os} : cs ≠ [] → Flags D cs os → Writes D V [lit "-" ++ cs] os
  /-- `-xyzargument` -/
  | letterArg {d cs os c f} (a : Word) : Flags D cs os → d ∈ D → d.short = some c → d.mean = .inr f → a ≠ [] →
      Writes D V [lit "-" ++ cs ++ c :: a] (os ++ [f a])
  /-- `-xyz argument` -/
  | letterSep {d cs os c f} (a : Word) : Flags D cs os → d ∈ D → d.short = some c → d.mean = .inr f →
      Writes D V [lit "-" ++ cs ++ [c], a] (os ++ [f a])
  /-- `-v`, `-vv` and so on -/
  | verbose {cs os} (vs : Word) : Flags D cs os → V vs →
      Writes D V [lit "-" ++ cs ++ lit "v" ++ vs] (os ++ [.verbose (BitVec.ofNat 32 (vs.count 118))])

/-- The words of a command line and the options they are: words that write options, with other
words between them (unless `POSIXLY_CORRECT` is set: then the options end there) and anything
behind a `--`. -/
inductive Spelled (D : List Doc) (V : Word → Prop) (posix : Bool) : List Word → List AOpt → Prop
  | done : Spelled D V posix [] []
  | dashes (ws : List Word) : Spelled D V posix (lit "--" :: ws) []
  | word {w ws os} : posix = false → (w = lit "-" ∨ w.head? ≠ some 45) → Spelled D V posix ws os → Spelled D V posix (w :: ws) os
  | posix {w} (ws : List Word) : posix = true → (w = lit "-" ∨ w.head? ≠ some 45) → Spelled D V posix (w :: ws) []
  | opts {xs ws os ps} : Writes D V xs os → Spelled D V posix ws ps → Spelled D V posix (xs ++ ws) (os ++ ps)

/-- `-v[v...]` as the help text has it. -/
def OnlyVs (vs : Word) : Prop := ∀ c ∈ vs, c = 118

/-- A command line of a tool as its help text has it. -/
def Prog.Spelled (p : Prog) (posix : Bool) (ws : List Word) (os : List AOpt) : Prop :=
  Getopt.Spelled p.doc OnlyVs posix ws os

/-- The same with anything behind the letter `v`. -/
def Prog.Loose (p : Prog) (posix : Bool) (ws : List Word) (os : List AOpt) : Prop :=
  Getopt.Spelled p.doc (fun _ => True) posix ws os

/-- An option of the help text, with an argument if it takes one, or `-v` as often as one likes. -/
def Known (D : List Doc) (o : AOpt) : Prop :=
  (∃ n, o = .verbose n) ∨ ∃ d ∈ D, d.mean = .inl o ∨ ∃ f a, d.mean = .inr f ∧ o = f a

/-- The tool, called with these options, begins to work on the process or the file. -/
def Prog.Works (p : Prog) (e : Cli.Env) (dflt : Word) (env : Bool) (os : List AOpt) (w : Cli.World) : Prop :=
  match p with
  | .ultask => ∃ r l n b, (w.callTask e env os).2 = .works r l n b
  | .ulpatch => ∃ r l n b, (w.callPatch e env os).2 = .works r l n b
  | .ulftrace => ∃ r l n b, (w.callTrace e dflt env os).2 = .works r l n b
  | .ulpinfo => ∃ r l n b, (w.callInfo e env os).2 = .works r l n b

end Ulp.Getopt
