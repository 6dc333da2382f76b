/-
What loading a patch writes to the log: the dump of the string table
(src/patch/patch.c:555) and what the log level changes.
-/
import Verif.Model.LoadBytes
import Verif.Model.Dump
import Verif.Model.Log
namespace Ulp.LoadLog
open Load LoadBytes

/-- `memshowinlog` (src/utils/log.c:160-165).  `mem` are the bytes that can be read at
`data`; the log has a stream. -/
def memshowinlog (logLevel level : Int) (mem : List Byte) (dataLen : Int) :
    Except Dump.Crash (List Byte × Int) :=
  if level > logLevel then .ok ([], 0) else Dump.memshow true (some mem) dataLen

/-- The memory that can be read from the start of a mapped file on (`mmap`, for
src/utils/file.c:338-339): its bytes and zeros up to the end of its last page. -/
def paged (img : Image) : List Byte := img ++ List.replicate ((4096 - img.length % 4096) % 4096) 0

/-- The dump of the string table (src/patch/patch.c:552-555): from its first byte on, with
the size of the symbol table (`sechdrs[i]`), as an `int`. -/
def strtabDump (logLevel : Int) (img : Image) (inf : Info) :
    Option (Except Dump.Crash (List Byte × Int)) :=
  match shdrAt img inf.symIdx with
  | none => none
  | some s =>
    some (memshowinlog logLevel Log.LOG_DEBUG ((paged img).drop inf.strtab.toNat)
      (s.size.setWidth 32).toInt)

/-- Loading the image with a log level: the dumped text and the result, `none` if
something is undefined.  Simplification: the other messages to the log, and the dumps
before each relocation (src/arch/x86_64/patch.c:94), are left out. -/
def loadLog (logLevel : Int) (M : Machine) (E : Env) (img : Image) :
    Option (List Byte × Except Int Loaded) :=
  match setupLoadInfo img with
  | some (.ok inf) =>
    match strtabDump logLevel img inf with
    | some (.ok (t, _)) => (load M E img).map fun r => (t, r)
    | _ => none
  | _ => (load M E img).map fun r => ([], r)

end Ulp.LoadLog
