/-
`init_patch` on the bytes of a patch file: the patch and unpatch commands of
`Patch` with `load_patch` as in `LoadBytes`.
-/
import Verif.Model.Patch
import Verif.Model.LoadBytes
namespace Ulp.LoadBytes
open Load

/-- The characters of a text. -/
def textOf (s : String) : List Byte := s.toList.map fun c => BitVec.ofNat 8 c.toNat

/-- What `load_patch` gets from the session (src/patch/patch.c:931-940, 839-843: the
Build IDs of `ulp_root.list` and `ulp_root.max_id`), the place of the image in the
host (`hdr`) and in the target (`th`), the symbols of the target and the time. -/
def sessionEnv (s : Patch.Session) (hdr th : Addr) (find : List Byte → Option (BitVec 64))
    (now : BitVec 64) : Env :=
  { hdr := hdr, th := th, find := find, bids := s.ulps.map fun u => textOf u.bid
    maxId := s.maxId, now := now }

/-- Where the target maps the file (`info->target_hdr`, src/patch/patch.c:349-354);
when the call cannot be injected the address is not used. -/
def mmapAddr : Patch.MmapRes → Addr
  | .created a => a
  | .errno v => v
  | .inject _ => 0

/-- The environment `e` of `init_patch` with what `load_patch` has made of the file.
`kick_target_process` (src/patch/patch.c:859-917) stores the original code into the
record, at offset 28 (an array of 16 bytes), before it copies the image. -/
def withFile (e : Patch.PatchEnv) (f : Image) (L : Loaded) : Patch.PatchEnv :=
  { e with
    len := f.length, setup := none, rewrite := none, simplify := none, apply := none
    target := some L.record.target, source := some L.record.patch
    image := fun i => store L.img (L.inf.ulpInfo.toNat + 28) (i.orig.take 16) }

/-- Has `load_patch`, when it fails, come past `rewrite_section_headers`
(src/patch/patch.c:919-950)? -/
def headersDone (E : Env) (img : Image) : Bool :=
  match shoff img, setupLoadInfo img with
  | some o, some (.ok inf) =>
    match inf.buildId with
    | some b => !E.bids.contains b && headersOk o inf
    | none => headersOk o inf
  | _, _ => false
where
  headersOk (o : Nat) (inf : Info) : Bool :=
    match rewriteHeaders (BitVec.ofNat 64 o) inf.secstrings E.th inf.infoIdx img with
    | some (_, e) => decide (e = 0)
    | none => false

/-- The environment `e` of `init_patch` for a file that `load_patch` refuses with `n`
(src/patch/patch.c:919-967): `setup_load_info`, the comparison of Build IDs or
`rewrite_section_headers` fails, or one of the later steps does (`done`), when the headers in
the mapping have been rewritten.  The record in the mapping is the one in the file. -/
def refused (e : Patch.PatchEnv) (f : Image) (done : Bool) (n : Int) : Patch.PatchEnv :=
  { e with
    len := f.length
    setup := if done then none else some (n.natAbs - 1)
    rewrite := none, simplify := some (n.natAbs - 1) }

/-- `ulpatch -p PID --patch FILE` (src/ulpatch.c:189-245): open the process, then
`init_patch` (src/patch/patch.c:976-1037) with the file `f`.  Everything that is
not decided by the file is in `e`. -/
def patchFile (M : Machine) (w : Patch.World) (rd : Patch.Mapping → Patch.ReadRes) (hdr : Addr)
    (find : List Byte → Option (BitVec 64)) (now : BitVec 64) (f : Image) (e : Patch.PatchEnv) :
    Option (Patch.World × Int) :=
  match Patch.openTask true rd w with
  | none => none
  | some s =>
    match load M (sessionEnv s hdr (mmapAddr e.mmap) find now) f with
    | none => none
    | some (.error n) =>
      let r := Patch.initPatch w s
        (refused e f (headersDone (sessionEnv s hdr (mmapAddr e.mmap) find now) f) n)
      some (r.1, r.2.2)
    | some (.ok L) =>
      let r := Patch.initPatch w s (withFile e f L)
      some (r.1, r.2.2)

/-- `ulftrace -p PID -f FUNC` (src/ulftrace.c:182-203) with the file `f` of
`ULPATCH_OBJ_FTRACE_MCOUNT_PATH`: open the process, look for the function `func`, then
`init_patch`, whose result is not looked at, and `delete_patch` in the same session. -/
def traceFile (M : Machine) (w : Patch.World) (rd : Patch.Mapping → Patch.ReadRes) (hdr : Addr)
    (find : List Byte → Option (BitVec 64)) (now : BitVec 64) (func : List Byte) (f : Image)
    (e : Patch.PatchEnv) (d : Patch.DeleteEnv) : Option (Patch.World × Int) :=
  match Patch.openTask true rd w with
  | none => none
  | some s =>
    match find func with
    | none => some (w, 1)
    | some _ =>
      match load M (sessionEnv s hdr (mmapAddr e.mmap) find now) f with
      | none => none
      | some (.error n) =>
        let x := Patch.traceSession w s
          (refused e f (headersDone (sessionEnv s hdr (mmapAddr e.mmap) find now) f) n) d
        some (x.1, x.2.2)
      | some (.ok L) =>
        let x := Patch.traceSession w s (withFile e f L) d
        some (x.1, x.2.2)

end Ulp.LoadBytes
