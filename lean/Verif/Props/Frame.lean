/-
C129: whatever fails and whatever the files contain, `ulpatch` and `ulftrace` change nothing in
a process but the memory where they map their files and the first 16 bytes of the functions
that the files name.
-/
import Verif.Proof.Frame
import Verif.Props.FileHist
namespace Ulp.LoadBytes
open Load PatchFile

/-- C129, x86_64.  Any commands on any files, with any results of the system calls, in a process
without live patches.  A byte that is not the same afterwards is where one of the commands
mapped its file, or one of the first 16 of a function that a file names.  Missing: a command
that fails may leave its file in the process, and then the 16 bytes at the address in the
record of this file may be changed as well (see `C129_record`). -/
theorem C129_x86_partial (w0 w : Patch.World) (cs : List FileCmd) (rs : List Int) (h0 : w0.maps = [])
    (hr : ∀ c ∈ cs, c.Record) (h : runFiles x86 w0 cs = some (w, rs)) (x : Addr) (hx : w.mem x ≠ w0.mem x) :
    ∃ c ∈ cs, c.Area x ∨ (∃ t, c.Function Psabi.x86Width t ∧ Within x t 16) ∨ ∃ t, c.Leftover t ∧ Within x t 16 := by
  apply Classical.byContradiction
  intro hn
  refine hx (frame links_x86 cs (V := fun _ => False) hr (fun m hm => by rw [h0] at hm; cases hm) h x (fun _ => False.elim) ?_ ?_)
  · intro c hc v hv hw
    rcases hv with hv | hv
    · exact hn ⟨c, hc, .inr (.inl ⟨v, hv, hw⟩)⟩
    · exact hn ⟨c, hc, .inr (.inr ⟨v, hv, hw⟩)⟩
  · exact fun c hc ha => hn ⟨c, hc, .inl ha⟩

/-- C129, aarch64. -/
theorem C129_a64_partial (junk : Bool) (w0 w : Patch.World) (cs : List FileCmd) (rs : List Int) (h0 : w0.maps = [])
    (hr : ∀ c ∈ cs, c.Record) (h : runFiles (a64 junk) w0 cs = some (w, rs)) (x : Addr) (hx : w.mem x ≠ w0.mem x) :
    ∃ c ∈ cs, c.Area x ∨ (∃ t, c.Function Psabi.a64Width t ∧ Within x t 16) ∨ ∃ t, c.Leftover t ∧ Within x t 16 := by
  apply Classical.byContradiction
  intro hn
  refine hx (frame (links_a64 junk) cs (V := fun _ => False) hr (fun m hm => by rw [h0] at hm; cases hm) h x
    (fun _ => False.elim) ?_ ?_)
  · intro c hc v hv hw
    rcases hv with hv | hv
    · exact hn ⟨c, hc, .inr (.inl ⟨v, hv, hw⟩)⟩
    · exact hn ⟨c, hc, .inr (.inr ⟨v, hv, hw⟩)⟩
  · exact fun c hc ha => hn ⟨c, hc, .inl ha⟩

/-! ### Examples -/

/-- The commands of `Props/FileHist` meet the conditions. -/
example : fhWorld.maps = [] ∧ (∀ c ∈ fhCmds, c.Record) ∧ ∃ w rs, runFiles x86 fhWorld fhCmds = some (w, rs) := by
  refine ⟨rfl, ?_, ?_⟩
  · intro c hc
    rcases List.mem_cons.1 hc with rfl | hc
    · rfl
    · rcases List.mem_cons.1 hc with rfl | hc
      · rfl
      · rcases List.mem_singleton.1 hc with rfl
        trivial
  · obtain ⟨w, rs, _, h, _⟩ := C119_x86_partial fhR fhWorld fhCmds rfl (by decide) fh_cmds
    exact ⟨w, rs, h⟩

/-- The function that the example file names. -/
example (e : Patch.PatchEnv) (t : Addr) (h : (fhPatch e).Function Psabi.x86Width t) : t = 0x401000 := by
  cases h with
  | patch h =>
    have := h.2 fhParts fh_made
    rw [show lkEnv.find fhParts.dst = some 0x401000 by decide +kernel] at this
    exact (Option.some.inj this).symm

/-- The same file, but with an address in its record, as nobody makes it. -/
def lkForged : Image := store lkFile 121 (leBytes 8 0x500000)

def frEnv : Patch.PatchEnv :=
  { pfEnv with info0 := ⟨0, 0, 0, 0x500000, List.replicate 16 0⟩, munmap3 := .failed false }

theorem forged_record : (readInfo lkForged 101).map ULPInfo.virtual = some 0x500000 ∧
    (readInfo lkForged 101).map (fun r => (r.ulpId, r.orig0, r.orig1)) = some (0, 0, 0) := by decide +kernel

/-- A refusal as a number. -/
def refusal (M : Machine) (E : Env) (f : Image) : Option Int :=
  match load M E f with
  | some (.error n) => some n
  | _ => none

theorem refusal_load {M : Machine} {E : Env} {f : Image} {n : Int} (h : refusal M E f = some n) :
    load M E f = some (.error n) := by
  unfold refusal at h
  cases hl : load M E f with
  | none => rw [hl] at h; cases h
  | some r =>
    rw [hl] at h
    cases r with
    | error k => cases h; rfl
    | ok L => cases h

def frE : Env := sessionEnv ⟨[], 0, true⟩ 0x7f0000000000 0x10000000 (fun _ => none) 77

theorem forged_refused : refusal x86 frE lkForged = some (-2) := by decide +kernel

theorem forged_headers : headersDone frE lkForged = true := by decide +kernel

theorem patchFile_refused {M : Machine} {w : Patch.World} {rd : Patch.Mapping → Patch.ReadRes} {hdr : Addr}
    {find : List Byte → Option (BitVec 64)} {now : BitVec 64} {f : List Byte} {e : Patch.PatchEnv} {s : Patch.Session}
    {n : Int} {E : Env} (ho : Patch.openTask true rd w = some s) (hE : sessionEnv s hdr (mmapAddr e.mmap) find now = E)
    (hl : load M E f = some (.error n)) (hh : headersDone E f = true) :
    runFile M w (.patch rd hdr find now f e) =
      some ((Patch.initPatch w s (refused e f true n)).1, (Patch.initPatch w s (refused e f true n)).2.2) := by
  change patchFile _ _ _ _ _ _ _ _ = _
  unfold patchFile
  rw [ho]
  dsimp only
  rw [hE, hl]
  dsimp only
  rw [hh]

/-- Finding.  A file is refused because a symbol that it needs is not there, and cannot be
unmapped.  Then `--unpatch` succeeds, and it writes the 16 bytes of the record of this file to
the address in the record, where no command has ever replaced anything. -/
theorem C129_record : ∃ w1 w2 r, runFile x86 fhWorld
      (.patch Patch.allOk 0x7f0000000000 (fun _ => none) 77 lkForged frEnv) = some (w1, r) ∧ r ≠ 0 ∧ w1.mem = fhWorld.mem ∧
    runFile x86 w1 (.unpatch Patch.allOk ⟨.ok, some 16, .done⟩) = some (w2, 0) ∧
    w2.mem.read 0x500000 16 = List.replicate 16 0 ∧ fhWorld.mem.read 0x500000 16 = List.replicate 16 0x55 := by
  have hp := patchFile_refused (M := x86) (w := fhWorld) (rd := Patch.allOk) (hdr := 0x7f0000000000) (find := fun _ => none)
    (now := 77) (e := frEnv) (s := ⟨[], 0, true⟩) (E := frE) rfl rfl (refusal_load forged_refused) forged_headers
  obtain ⟨h1, h2⟩ := initPatch_setup fhWorld ⟨[], 0, true⟩ _ (stops_refused frEnv lkForged true (-2))
  refine ⟨_, _, _, hp, h1, h2, rfl, ?_, by decide +kernel⟩
  change (Mem.write (fun _ => 0x55) 0x500000 (List.replicate 16 0)).read 0x500000 16 = _
  decide +kernel

end Ulp.LoadBytes
