/-
Specification: a process after commands on patch files.
-/
import Verif.Model.FileHist
import Verif.Spec.LiveUlp
import Verif.Spec.Patch
namespace Ulp.LoadBytes
open PatchFile

/-- What a patch file consists of: sections, the place of their table, names, symbols,
relocations, and the names of the new and of the replaced function. -/
structure Parts where
  secs : List Sec
  o : Nat
  strs : Sec
  si : Nat
  st : Sec
  str : Sec
  syms : List SymEntry
  rels : Nat → List RelEntry
  src : List Byte
  dst : List Byte

/-- `f` is a patch file with these parts, laid out as linkers do it. -/
structure WellMade (width : Nat → Nat) (f : List Byte) (p : Parts) : Prop where
  elf : [0x7f, 0x45, 0x4c, 0x46] <+: f
  laid : Laid f p.secs p.o p.strs
  readable : Readable f p.secs
  names : Meta f p.secs p.src p.dst
  symbols : Symbols f p.secs p.si p.st p.str p.syms
  relocs : Relocs width f p.secs p.syms.length p.rels
  plain : Plain f p.secs p.rels

/-- A live patch: the file, where it was loaded and when, with which symbols of the process,
the addresses of the replaced and of the new function, its number, the code that was
replaced, its Build ID, and whether the replacement is in effect (it is not after an
unpatch command that put the code back but could not unmap the file). -/
structure LiveFile where
  file : List Byte
  parts : Parts
  start : Addr
  find : List Byte → Option (BitVec 64)
  now : BitVec 64
  target : Addr
  entry : Addr
  number : BitVec 32
  saved : List Byte
  bid : String
  active : Bool

/-- What the process has of it. -/
def LiveFile.mapping (v : LiveFile) : Patch.Mapping :=
  ⟨v.start, v.file.length, v.bid, true, ⟨v.number, v.target, v.entry, v.target, v.saved⟩⟩

/-- The 16 bytes at the start of the replaced function. -/
def LiveFile.redirect (arch : Arch) (v : LiveFile) : Overlay := ⟨v.target, jmpEntry arch v.entry⟩

/-- The patch is whole in the memory `m`: it is a complete patch file, linked at its address
(`width` and `value` say how relocations are done), but with the replaced code in its
record; and the new function is the last symbol of this name. -/
structure LiveFile.In (width : Nat → Nat)
    (value : Nat → BitVec 64 → BitVec 64 → BitVec 64 → Option (Nat × BitVec 64))
    (m : Mem) (v : LiveFile) : Prop where
  made : WellMade width v.file v.parts
  complete : Complete v.file v.parts.secs
  buildId : BuildIdText v.file v.parts.secs (textOf v.bid)
  target : v.find v.parts.dst = some v.target
  entry : ∃ k s, LastNamed v.parts.syms v.parts.src k s ∧ SymAddr v.parts.secs v.start v.find k s v.entry
  saved : v.saved.length = 16
  image : ∃ g inf, Has v.parts.secs ".ulpatch.info" inf ∧
    Linked width value v.file v.parts.secs v.parts.o v.parts.st v.parts.syms v.parts.rels v.start v.find
      v.parts.src v.target v.now v.number g ∧
    (∀ (k : Nat) (b : Byte), g[k]? = some b → ¬ (inf.offset + 28 ≤ k ∧ k < inf.offset + 44) →
      m (v.start + BitVec.ofNat 64 k) = b) ∧
    m.read (v.start + BitVec.ofNat 64 (inf.offset + 28)) 16 = v.saved

/-- The process `w`, whose code was `base`, has the live patches `st` (newest first) and no
others.  `R` are the addresses where patches may be mapped. -/
structure Holds (width : Nat → Nat)
    (value : Nat → BitVec 64 → BitVec 64 → BitVec 64 → Option (Nat × BitVec 64))
    (R : Addr → Prop) (base : Mem) (w : Patch.World) (st : List LiveFile) : Prop where
  maps : (st.map LiveFile.mapping).Perm w.maps
  /-- The oldest has number 1, the next 2, and so on. -/
  numbers : ∀ (k : Nat) (v : LiveFile), st[k]? = some v → v.number.toNat + k = st.length
  whole : ∀ v ∈ st, v.In width value w.mem
  apart : st.Pairwise fun u v => ∀ i j, i < u.file.length → j < v.file.length →
    u.start + BitVec.ofNat 64 i ≠ v.start + BitVec.ofNat 64 j
  buildIds : (st.map LiveFile.bid).Nodup
  text : ∀ v ∈ st, WindowOff R v.target 16
  area : ∀ v ∈ st, ∀ i, i < v.file.length → R (v.start + BitVec.ofNat 64 i)
  /-- The code is the original code with the redirects of the patches that are in effect,
  the newest on top. -/
  code : EqOff R w.mem (overlayAll base ((st.reverse.filter LiveFile.active).map (LiveFile.redirect w.arch)))
  /-- Every patch has kept the code that it replaced. -/
  under : ∀ (newer older : List LiveFile) (v : LiveFile), st = newer ++ v :: older →
    v.saved = (overlayAll base ((older.reverse.filter LiveFile.active).map (LiveFile.redirect w.arch))).read v.target 16

/-- The patch `v` comes from the command. -/
def FileCmd.Gives (c : FileCmd) (v : LiveFile) : Prop :=
  ∃ rd hdr e, c = .patch rd hdr v.find v.now v.file e ∧ e.mmap = .created v.start ∧ e.bid = v.bid ∧
    v.active = true

/-- What a command with result `r` does to the list of live patches. -/
inductive Does : List LiveFile → FileCmd → Int → List LiveFile → Prop
  | patched {st c v} : c.Gives v → Does st c 0 (v :: st)
  | refused {st rd hdr find now f e r} : r ≠ 0 → Does st (.patch rd hdr find now f e) r st
  | unpatched {v st rd d} : Does (v :: st) (.unpatch rd d) 0 st
  | failed {st rd d r} : r ≠ 0 → Does st (.unpatch rd d) r st
  /-- The code is put back, and the file is gone although the system call failed. -/
  | gone {v st rd d r} : r ≠ 0 → d.munmap = .failed true → Does (v :: st) (.unpatch rd d) r st
  /-- The code is put back, but the file stays. -/
  | stays {v st rd d r} : r ≠ 0 → d.munmap = .failed false →
      Does (v :: st) (.unpatch rd d) r ({ v with active := false } :: st)
  /-- `ulftrace` does not find the function it is given. -/
  | noFunction {st rd hdr find now func f e d} : find func = none →
      Does st (.trace rd hdr find now func f e d) 1 st
  /-- `ulftrace` loads its object, and leaves it. -/
  | traced {st rd hdr find now func f e d v} : (FileCmd.patch rd hdr find now f e).Gives v →
      Does st (.trace rd hdr find now func f e d) (-2) (v :: st)
  /-- `ulftrace` could not load its object, and does what `--unpatch` does. -/
  | traceFails {st st' rd hdr find now func f e d r} : Does st (.unpatch rd d) r st' →
      Does st (.trace rd hdr find now func f e d) r st'

/-- The same for commands one after the other. -/
inductive AllDo : List LiveFile → List FileCmd → List Int → List LiveFile → Prop
  | nil {st} : AllDo st [] [] st
  | cons {st st' st'' c r cs rs} : Does st c r st' → AllDo st' cs rs st'' → AllDo st (c :: cs) (r :: rs) st''

/-- A well-made patch file, and system calls that behave: live patches can be read, the
mapping is in `R`, where no other live patch and no replaced function is, 16 bytes are
written all or nothing, and cleaning up works. -/
def GoodPatch (width : Nat → Nat) (R : Addr → Prop) (w : Patch.World) (rd : Patch.Mapping → Patch.ReadRes)
    (find : List Byte → Option (BitVec 64)) (f : List Byte) (e : Patch.PatchEnv) : Prop :=
  (∀ m, rd m = .ok) ∧ e.info0.orig.length = 16 ∧ e.EntryAtomic ∧ e.CleanupOk ∧
    (match e.mmap with
      | .created a => (∀ i, i < f.length → R (a + BitVec.ofNat 64 i)) ∧
          ∀ m ∈ w.maps, ∀ i j, i < f.length → j < m.len → a + BitVec.ofNat 64 i ≠ m.start + BitVec.ofNat 64 j
      | .errno v => ∀ m ∈ w.maps, m.start ≠ v
      | .inject l => l = none) ∧
    ∃ p, WellMade width f p ∧ BuildIdText f p.secs (textOf e.bid) ∧
      ∀ t, find p.dst = some t → WindowOff R t 16

/-- The same for a command. -/
def GoodFile (width : Nat → Nat) (R : Addr → Prop) (w : Patch.World) : FileCmd → Prop
  | .patch rd _ find _ f e => GoodPatch width R w rd find f e
  | .unpatch rd d => (∀ m, rd m = .ok) ∧ d.Good
  | .trace rd _ find _ _ f e d => GoodPatch width R w rd find f e ∧ d.Good

/-- `GoodFile` for commands one after the other. -/
def GoodFiles (M : Machine) (width : Nat → Nat) (R : Addr → Prop) : Patch.World → List FileCmd → Prop
  | _, [] => True
  | w, c :: cs => GoodFile width R w c ∧ ∀ w' r, runFile M w c = some (w', r) → GoodFiles M width R w' cs

end Ulp.LoadBytes
