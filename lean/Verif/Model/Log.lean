/-
Log levels (src/utils/log.c) and the option that sets them (src/args-common.c).
-/
import Verif.Model.Str
namespace Ulp.Log
open Ulp.Load (lit)

/-- The static variables of src/utils/log.c:28-30, without the stream. -/
structure LogState where
  level : Int
  prefixOn : Bool

/-- `LOG_EMERG` ... `LOG_DEBUG` (`<syslog.h>`) and `EINVAL`. -/
def LOG_EMERG : Int := 0
def LOG_ALERT : Int := 1
def LOG_CRIT : Int := 2
def LOG_ERR : Int := 3
def LOG_WARNING : Int := 4
def LOG_NOTICE : Int := 5
def LOG_INFO : Int := 6
def LOG_DEBUG : Int := 7
def EINVAL : Int := 22

/-- The state at start (src/utils/log.c:28-29) -/
def logInit : LogState := ⟨LOG_ERR, false⟩

/-- `set_log_level` (src/utils/log.c:43-50), without opening syslog again -/
def setLogLevel (st : LogState) (level : Int) : LogState :=
  if st.level ≠ level then { st with level := level } else st

/-- `set_log_prefix` (src/utils/log.c:66-69) -/
def setLogPrefix (st : LogState) (on : Bool) : LogState := { st with prefixOn := on }

/-- `level_prefix` (src/utils/log.c:17-26), without the colours -/
def levelPrefix : List (List Byte) :=
  [lit "EMERG", lit "ALERT", lit " CRIT", lit "ERROR", lit " WARN", lit "NOTIC", lit " INFO",
   lit "DEBUG"]

/-- `ulp_log` (src/utils/log.c:117-158): the bytes written to the log stream.
`time` and `place` are the texts of the time and of file, function and line;
`err` is the text of `errno`, none if `errno` is 0; `msg` the formatted message.
`level_prefix[level]` outside of the table is undefined. -/
def ulpLog (st : LogState) (level : Int) (hasPrefix : Bool) (time place : List Byte)
    (err : Option (List Byte)) (msg : List Byte) : Option (List Byte) :=
  if level > st.level then some []
  else if hasPrefix && st.prefixOn then
    if level < 0 then none
    else
      (levelPrefix[level.toNat]?).bind fun lp =>
        let head := time ++ lit " " ++ lit "[" ++ lp ++ lit "]" ++ lit "[" ++ place ++ lit "]"
        let head := match err with
          | some e => if level ≤ LOG_ERR then head ++ lit "[" ++ e ++ lit "]" else head
          | none => head
        some (head ++ lit " " ++ msg)
  else some msg

/-- `tolower` in the C locale (libc) -/
def tolower (c : Byte) : Byte := if 65 ≤ c.toNat ∧ c.toNat ≤ 90 then c + 32 else c

/-- `strcasecmp(a, b) == 0` (libc) -/
def casecmpEq (a b : List Byte) : Bool := a.map tolower = b.map tolower

/-- `str2loglevel` (src/utils/log.c:83-109); `none` is a null pointer. -/
def str2loglevel (str : Option (List Byte)) : Int :=
  match str with
  | none => -EINVAL
  | some str =>
    if casecmpEq str (lit "debug") || casecmpEq str (lit "dbg") then LOG_DEBUG
    else if casecmpEq str (lit "info") || casecmpEq str (lit "inf") then LOG_INFO
    else if casecmpEq str (lit "notice") || casecmpEq str (lit "note") then LOG_NOTICE
    else if casecmpEq str (lit "warning") || casecmpEq str (lit "warn") then LOG_WARNING
    else if casecmpEq str (lit "error") || casecmpEq str (lit "err") then LOG_ERR
    else if casecmpEq str (lit "crit") then LOG_CRIT
    else if casecmpEq str (lit "alert") then LOG_ALERT
    else if casecmpEq str (lit "emerg") then LOG_EMERG
    else -EINVAL

/-- `atoi` (libc), that is `(int)strtol(s, NULL, 10)`: blanks, sign, digits; values
that do not fit into `long` are clamped, then the low 32 bits are taken. -/
def atoi (s : List Byte) : Int :=
  let cut (v : Int) : Int := (BitVec.ofInt 32 v).toInt
  match s.dropWhile Str.isSpace with
  | [] => 0
  | c :: r =>
    if c = 45 then cut (max (- (Str.digits 10 0 r : Int)) (-(2 ^ 63)))
    else if c = 43 then cut (min (Str.digits 10 0 r) (2 ^ 63 - 1))
    else cut (min (Str.digits 10 0 (c :: r)) (2 ^ 63 - 1))

/-- The option `--log-level` (src/args-common.c:79-86): the level chosen, or `none`
if the program stops with an error. -/
def optLogLevel (optarg : List Byte) : Option Int :=
  let l := atoi optarg
  if l = 0 then
    let l := str2loglevel (some optarg)
    if l < 0 then none else some l
  else some l

end Ulp.Log
