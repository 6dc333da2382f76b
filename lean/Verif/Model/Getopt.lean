/-
From the words of a command line to the options of `Verif.Model.Cli` and
`Verif.Model.Again`: the tables of options of the tools (src/args-common.c:51-63 and the
`parse_config` of each tool), `getopt_long` of the GNU C library as the tools call it, and
the `switch` over what it returns.

`argv[0]` is not among the words.  The message printed for `'?'` (src/args-common.c:99) is not
modelled: it reads `argv[optind - 1]`, and `optind` is at least 1 then.
-/
import Verif.Model.Again
import Verif.Model.Log
namespace Ulp.Getopt
open Ulp.Load (lit)
open Ulp.Cli (Opt AOpt)

abbrev Word := List Byte

/-- A row of a `struct option` table (getopt.h); `arg` is `required_argument`, otherwise
`no_argument`.  `flag` is 0 in every row of the tools. -/
structure Long where
  name : Word
  arg : Bool
  val : Nat
  deriving DecidableEq

/-- What a letter of the option string says of its argument: `x`, `x:`, `x::`. -/
inductive Takes where
  | no | required | optional
  deriving DecidableEq

/-- What `getopt_long` returns: a value with `optarg` (`none` is NULL), or `'?'`. -/
inductive Ret where
  | opt (val : Nat) (arg : Option Word)
  | bad
  deriving DecidableEq

/-- The table and the option string of a tool. -/
structure Table where
  longs : List Long
  shorts : List Byte

/-- The letter in the option string (glibc, posix/getopt.c, `strchr (optstring, c)` and the
tests behind it).  `W;` is in none of the option strings and left out. -/
def letter : List Byte → Byte → Option Takes
  | [], _ => none
  | x :: s, c =>
    if c = 58 ∨ c = 59 then none
    else if x = c then
      match s with
      | 58 :: 58 :: _ => some .optional
      | 58 :: _ => some .required
      | _ => some .no
    else letter s c

/-- The letters behind one `-` (glibc, posix/getopt.c, `_getopt_internal_r`, from
`Look at and handle the next short option-character`).  The second part is the letter whose
argument is the next word. -/
def letters (s : List Byte) : Word → List Ret × Option Nat
  | [] => ([], none)
  | c :: r =>
    match letter s c with
    | none => (.bad :: (letters s r).1, (letters s r).2)
    | some .no => (.opt c.toNat none :: (letters s r).1, (letters s r).2)
    | some .optional => ([.opt c.toNat (if r = [] then none else some r)], none)
    | some .required => if r = [] then ([], some c.toNat) else ([.opt c.toNat (some r)], none)

/-- The row of the table a name stands for: the row of this name, or else the only one it is
the beginning of; rows that agree in everything but the name count as one (glibc,
posix/getopt.c, `process_long_option`). -/
def row (t : List Long) (n : Word) : Option Long :=
  match t.find? fun l => l.name = n with
  | some l => some l
  | none =>
    match t.filter fun l => n.isPrefixOf l.name with
    | [] => none
    | l :: ls => if ls.all fun m => m.arg = l.arg && m.val = l.val then some l else none

/-- What is behind `--` (glibc, posix/getopt.c, `process_long_option`): the return value, or
the value that takes the next word as its argument. -/
def long (t : List Long) (s : Word) : Ret ⊕ Nat :=
  match row t (s.takeWhile (· ≠ 61)) with
  | none => .inl .bad
  | some l =>
    match s.dropWhile (· ≠ 61) with
    | [] => if l.arg then .inr l.val else .inl (.opt l.val none)
    | _ :: v => if l.arg then .inl (.opt l.val (some v)) else .inl .bad

/-- All that `getopt_long` returns when it is called until it returns -1 (glibc,
posix/getopt.c).  Words that are no options are passed over (`PERMUTE`), unless
`POSIXLY_CORRECT` is in the environment: then the first of them ends it
(`REQUIRE_ORDER`).  A missing argument is `'?'` because the option strings do not begin with
`:`. -/
def scan (t : Table) (posix : Bool) : List Word → List Ret
  | [] => []
  | w :: ws =>
    if w = lit "-" ∨ w.head? ≠ some 45 then
      if posix then [] else scan t posix ws
    else if w = lit "--" then []
    else if w.take 2 = lit "--" then
      match long t.longs (w.drop 2) with
      | .inl r => r :: scan t posix ws
      | .inr v =>
        match ws with
        | [] => [.bad]
        | a :: ws => .opt v (some a) :: scan t posix ws
    else
      match (letters t.shorts (w.drop 1)).2 with
      | none => (letters t.shorts (w.drop 1)).1 ++ scan t posix ws
      | some v =>
        match ws with
        | [] => (letters t.shorts (w.drop 1)).1 ++ [.bad]
        | a :: ws => (letters t.shorts (w.drop 1)).1 ++ .opt v (some a) :: scan t posix ws

/-- `COMMON_OPTIONS` (src/args-common.c:51-61); `ARG_LOG_LEVEL` is 139, and `ARG_LOG_DEBUG`,
`ARG_LOG_ERR`, `ARG_LOG_INFO` follow (src/args-common.c:13-19). -/
def commonLongs : List Long :=
  [⟨lit "version", false, 86⟩, ⟨lit "help", false, 104⟩, ⟨lit "log-level", true, 139⟩,
    ⟨lit "lv", true, 139⟩, ⟨lit "log-debug", false, 140⟩, ⟨lit "log-error", false, 141⟩,
    ⟨lit "dry-run", false, 117⟩, ⟨lit "verbose", false, 118⟩, ⟨lit "info", false, 142⟩,
    ⟨lit "force", false, 70⟩]

/-- `COMMON_GETOPT_OPTSTRING` (src/args-common.c:62). -/
def commonShorts : List Byte := lit "uVv::hF"

/-- ultask (src/ultask.c:251-268, 276); the values are those of the `enum` at
src/ultask.c:28-41, which begins at `ARG_COMMON_MAX`, 143. -/
def taskTable : Table where
  longs :=
    [⟨lit "pid", true, 112⟩, ⟨lit "vmas", false, 145⟩, ⟨lit "threads", false, 150⟩,
      ⟨lit "fds", false, 151⟩, ⟨lit "auxv", false, 152⟩, ⟨lit "status", false, 153⟩,
      ⟨lit "dump", true, 146⟩, ⟨lit "jmp", true, 144⟩, ⟨lit "map", true, 147⟩,
      ⟨lit "mprotect", true, 148⟩, ⟨lit "unmap", true, 149⟩, ⟨lit "symbols", false, 154⟩,
      ⟨lit "syms", false, 154⟩, ⟨lit "output", true, 111⟩] ++ commonLongs
  shorts := lit "p:o:" ++ commonShorts

/-- ulpatch (src/ulpatch.c:86-93, 98); the values are those of the `enum` at
src/ulpatch.c:36-41. -/
def patchTable : Table where
  longs :=
    [⟨lit "pid", true, 112⟩, ⟨lit "patch", true, 144⟩, ⟨lit "unpatch", false, 145⟩,
      ⟨lit "map-pfx", false, 146⟩] ++ commonLongs
  shorts := lit "p:" ++ commonShorts

/-- ulftrace (src/ulftrace.c:80-86, 91). -/
def traceTable : Table where
  longs :=
    [⟨lit "pid", true, 112⟩, ⟨lit "function", true, 102⟩, ⟨lit "patch-obj", true, 106⟩] ++ commonLongs
  shorts := lit "p:f:j:" ++ commonShorts

/-- ulpinfo (src/ulpinfo.c:61-66, 71). -/
def infoTable : Table where
  longs := [⟨lit "patch", true, 105⟩, ⟨lit "pid", true, 112⟩] ++ commonLongs
  shorts := lit "i:p:" ++ commonShorts

/-- How the `switch` goes on: with an option, or with NULL where the argument is read
(`atoi(NULL)`, `strdup(NULL)`, `*subopts` of NULL). -/
inductive Case where
  | opt (o : AOpt)
  | null
  deriving DecidableEq

/-- A case that reads `optarg`. -/
def reads (f : Word → AOpt) : Option Word → Case
  | none => .null
  | some a => .opt (f a)

/-- A case that keeps `optarg` as it is: without an argument, the variable stays NULL, as if the
option were not there. -/
def keeps (f : Word → AOpt) : Option Word → Case
  | none => .opt (.own .other)
  | some a => .opt (f a)

/-- `--log-level` (src/args-common.c:79-86). -/
def levelOpt (a : Word) : AOpt :=
  match Log.optLogLevel a with
  | none => .own (.stop (-22))
  | some l => .level l

/-- `COMMON_GETOPT_CASES` (src/args-common.c:65-100) with the `default` of the tool, which exits
with `dflt`. -/
def commonCase (dflt : Int) : Ret → Case
  | .bad => .opt (.own (.stop 1))
  | .opt v a =>
    if v = 86 then .opt (.own (.stop 0))
    else if v = 104 then .opt (.own (.stop 0))
    else if v = 118 then .opt (.verbose (match a with | none => 0 | some a => BitVec.ofNat 32 (Str.str2verbose a)))
    else if v = 117 then .opt (.own .dryRun)
    else if v = 139 then reads levelOpt a
    else if v = 140 then .opt (.level 7)
    else if v = 141 then .opt (.level 3)
    else if v = 142 then .opt .info
    else if v = 70 then .opt (.own .force)
    else .opt (.own (.stop dflt))

/-- The `switch` of ultask (src/ultask.c:281-489). -/
def taskCase : Ret → Case
  | .opt v a =>
    if v = 112 then reads (fun a => .own (.pid a)) a
    else if v = 145 then .opt (.own .vmas)
    else if v = 146 then reads (fun a => .own (.dump a)) a
    else if v = 144 then reads (fun a => .own (.jmp a)) a
    else if v = 147 then reads (fun a => .own (.map a)) a
    else if v = 149 then reads (fun a => .own (.unmap a)) a
    else if v = 148 then reads (fun a => .own (.mprotect a)) a
    else if v = 154 then .opt (.own .symbols)
    else if v = 150 then .opt (.own .threads)
    else if v = 151 then .opt (.own .fds)
    else if v = 152 then .opt (.own .auxv)
    else if v = 153 then .opt (.own .status)
    else if v = 111 then keeps (fun a => .own (.output a)) a
    else commonCase 1 (.opt v a)
  | r => commonCase 1 r

/-- The `switch` of ulpatch (src/ulpatch.c:103-123). -/
def patchCase : Ret → Case
  | .opt v a =>
    if v = 112 then reads (fun a => .own (.pid a)) a
    else if v = 144 then reads (fun a => .own (.patch a)) a
    else if v = 145 then .opt (.own .unpatch)
    else if v = 146 then .opt (.own (.stop 0))
    else commonCase 1 (.opt v a)
  | r => commonCase 1 r

/-- The `switch` of ulftrace (src/ulftrace.c:96-111). -/
def traceCase : Ret → Case
  | .opt v a =>
    if v = 112 then reads (fun a => .own (.pid a)) a
    else if v = 102 then keeps (fun a => .own (.function a)) a
    else if v = 106 then keeps (fun a => .own (.patchObj a)) a
    else commonCase 2 (.opt v a)
  | r => commonCase 2 r

/-- The `switch` of ulpinfo (src/ulpinfo.c:76-88). -/
def infoCase : Ret → Case
  | .opt v a =>
    if v = 105 then keeps (fun a => .own (.patch a)) a
    else if v = 112 then reads (fun a => .own (.pid a)) a
    else commonCase 1 (.opt v a)
  | r => commonCase 1 r

/-- The four tools. -/
inductive Prog where
  | ultask | ulpatch | ulftrace | ulpinfo
  deriving DecidableEq

def Prog.table : Prog → Table
  | .ultask => taskTable
  | .ulpatch => patchTable
  | .ulftrace => traceTable
  | .ulpinfo => infoTable

def Prog.case : Prog → Ret → Case
  | .ultask => taskCase
  | .ulpatch => patchCase
  | .ulftrace => traceCase
  | .ulpinfo => infoCase

/-- What the loop `while (1) switch (getopt_long(..))` sees, in order (src/ultask.c:271-489 and
those of the other tools).  `Ulp.Cli.optLoop` ends at the first option that ends the program;
what is behind it is never looked at. -/
def Prog.cases (p : Prog) (posix : Bool) (ws : List Word) : List Case := (scan p.table posix ws).map p.case

end Ulp.Getopt
