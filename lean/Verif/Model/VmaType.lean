/-
What kind of mapping a name in `/proc/PID/maps` stands for
(src/task/vma.c:207-286), and the names given to patch mappings
(src/patch/patch.c:150-175).
-/
import Verif.Model.Str
namespace Ulp.VmaType
open Ulp.Load (lit)
open Ulp.Str (hasSub startswith)

/-- `enum vma_type` (src/task/vma.h:15-41) -/
inductive VmaType
  | none | self | libc | heap | ld | stack | uprobes | vvar | vvarVclock | vdso | vsyscall
  | libUnknown | anon | ulpatch
  deriving DecidableEq

/-- What follows the last `/`. -/
def lastPart (s : List Byte) : List Byte := (s.reverse.takeWhile (· ≠ 47)).reverse

/-- `basename` of `<libgen.h>` (libc): the last component, and the string after
the call, from which trailing slashes were cut off. -/
def basename (s : List Byte) : List Byte × List Byte :=
  if s = [] then (lit ".", s)
  else if s.getLast? ≠ some 47 then (lastPart s, s)
  else
    let t := (s.reverse.dropWhile (· = 47)).reverse
    if t = [] then (lit "/", s) else (lastPart t, t)

/-- `"%d"` of a number that is not negative (libc) -/
def dec (n : Nat) : List Byte :=
  if n < 10 then [BitVec.ofNat 8 (48 + n)] else dec (n / 10) ++ [BitVec.ofNat 8 (48 + n % 10)]

/-- `get_vma_type` (src/task/vma.c:207-257).  `basename` may shorten `name`, so
the string is handed on from call to call; process ids are not negative, and
the text of one fits into 64 bytes. -/
def getVmaType (pid : Nat) (exe name : List Byte) : VmaType :=
  let sPid := dec pid
  if name = exe then .self
  else
    let b1 := basename name
    if startswith b1.1 (lit "libc.so") then .libc
    else
      let b2 := basename b1.2
      if startswith b2.1 (lit "libssp") then .libc
      else
        let b3 := basename b2.2
        if startswith b3.1 (lit "libc-") then .libc
        else if b3.2 = lit "[heap]" then .heap
        else
          let b4 := basename b3.2
          if startswith b4.1 (lit "ld-linux") then .ld
          else if b4.2 = lit "[stack]" then .stack
          else if b4.2 = lit "[uprobes]" then .uprobes
          else if b4.2 = lit "[vvar]" then .vvar
          else if b4.2 = lit "[vvar_vclock]" then .vvarVclock
          else if b4.2 = lit "[vdso]" then .vdso
          else if b4.2 = lit "[vsyscall]" then .vsyscall
          else
            let b5 := basename b4.2
            if startswith b5.1 (lit "lib") && hasSub (lit ".so") b5.2 then .libUnknown
            else if b5.2.length = 0 then .anon
            else if hasSub (lit "ulp-") b5.2 && hasSub sPid b5.2 then .ulpatch
            else .none

/-- `__vma_type_names` (src/task/vma.c:259-277) -/
def vmaTypeNames : List (VmaType × List Byte) :=
  [(.none, lit "unknown"), (.self, lit "self"), (.libc, lit "libc"), (.heap, lit "heap"),
   (.ld, lit "ld"), (.stack, lit "stack"), (.uprobes, lit "uprobes"), (.vvar, lit "vvar"),
   (.vvarVclock, lit "vvar_vclock"), (.vdso, lit "vdso"), (.vsyscall, lit "vsyscall"),
   (.libUnknown, lit "lib?"), (.anon, lit "anon"), (.ulpatch, lit "ulpatch")]

/-- The loop of `vma_type_name` (src/task/vma.c:282-284) -/
def nameLoop (type : VmaType) : List (VmaType × List Byte) → List Byte
  | [] => lit "Unknown"
  | e :: rest => if e.1 = type then e.2 else nameLoop type rest

/-- `vma_type_name` (src/task/vma.c:279-286) -/
def vmaTypeName (type : VmaType) : List Byte := nameLoop type vmaTypeNames

/-- `__make_pid_ulpname` (src/patch/patch.c:150-175) with the six characters
`mkstemp` put in the place of `XXXXXX`.  The text is far shorter than `PATH_MAX`. -/
def makePidUlpname (pid : Nat) (tmp : List Byte) : List Byte :=
  lit "/tmp/ulpatch" ++ lit "/" ++ dec pid ++ lit "/" ++ lit "map_files" ++ lit "/" ++
    (lit "ulp-" ++ tmp)

/-- `elf_vma_is_interp_exception` (src/task/vma.c:288-315).  `name + strlen(name) - 3`
is inside the name whenever it is used, because the name is longer than three. -/
def isInterpException (name : List Byte) : Bool :=
  (startswith name (lit "libc") && decide (name.drop (name.length - 3) = lit ".so")) ||
  startswith name (lit "libssp") ||
  (startswith name (lit "libpthread") && decide (name.drop (name.length - 3) = lit ".so")) ||
  (startswith name (lit "libdl") && decide (name.drop (name.length - 3) = lit ".so"))

end Ulp.VmaType
