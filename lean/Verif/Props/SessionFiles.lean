/-
C117 (the files and headers kept for the mappings of a process) and C118 (the general information
about a process).
-/
import Verif.Model.SessionFiles
import Verif.Spec.ElfHdr
import Verif.Spec.ProcMaps
import Verif.Props.PeekElf
import Verif.Props.TaskList
import Verif.Props.Listing
import Verif.Props.Patch
import Verif.Props.Proc
import Verif.Spec.SessionFiles
namespace Ulp.SessionFiles
open Ulp.Load (lit)
open Ulp.Str (startswith)
open Ulp.Peek
open Ulp.ElfHdr (Hdr)
open Ulp.MapKind (text)
open Ulp.ProcMaps (decimal hex)

/-! ### One mapping -/

/-- The names that are not looked at. -/
def skipped (n : List Byte) : Bool := startswith n (lit "/etc") || startswith n (lit "/sys")

theorem peekDone_keeps (shift : Nat) (e : Ehdr) (ps : List Phdr) (v : Area) (sibs : List Area) (self : Option Bool)
    (h1 : v.isElf = true) :
    (peekDone shift e ps v sibs self).vma.name = v.name ∧ (peekDone shift e ps v sibs self).vma.type = v.type ∧
    (peekDone shift e ps v sibs self).self = self ∧
    (((peekDone shift e ps v sibs self).vma.isElf = false ∧ (peekDone shift e ps v sibs self).vma.elf = .null) ∨
     ((peekDone shift e ps v sibs self).vma.isElf = true ∧ ∃ m, (peekDone shift e ps v sibs self).vma.elf = .live m)) := by
  unfold peekDone
  dsimp only
  split
  · exact ⟨rfl, rfl, rfl, Or.inl ⟨rfl, rfl⟩⟩
  · obtain ⟨a, b, c, -, d⟩ := matchPhdrs_keep shift
      (v.start - (scanPhdrs shift v.prot ps (BitVec.allOnes 64) none sibs).1)
      (scanPhdrs shift v.prot ps (BitVec.allOnes 64) none sibs).2.1 ps
      { v with isShareLib := shareLib v e ps, elf := .live ⟨e, ps, v.start - (scanPhdrs shift v.prot ps (BitVec.allOnes 64) none sibs).1⟩ }
      (scanPhdrs shift v.prot ps (BitVec.allOnes 64) none sibs).2.2
    exact ⟨d, c, rfl, Or.inr ⟨b.trans h1, _, a⟩⟩

/-- What is known of the result `r` for a mapping `v`. -/
def PeekOk (mem : Mem) (v : Area) (r : PeekRes) : Prop :=
  r.vma.name = v.name ∧ r.vma.type = v.type ∧
    (r.self = if v.type = .self ∧ skipped v.name = false ∧ ehdrOk (parseEhdr (mem.read v.start 64)) = true
      then some (decide ((parseEhdr (mem.read v.start 64)).type = 3)) else none) ∧
    ((r.vma.isElf = false ∧ r.vma.elf = .null) ∨
     (v.type ≠ .ulpatch ∧ r.vma.isElf = true ∧ ∃ m, r.vma.elf = .live m))

theorem peek_full (shift : Nat) (mem : Mem) (ulp : Int) (v : Area) (he : v.elf = .null) (hi : v.isElf = false) :
    ∃ r, peekElfHdrs shift (fun a n => .got (mem.read a n)) true true ulp v [] = some r ∧ PeekOk mem v r := by
  have len : ¬ (mem.read v.start 64).length < 64 := by simp
  have len2 : ∀ a n, ¬ (mem.read a n).length < n := by simp
  have triv : v.type ≠ .self → ∀ n, PeekOk mem v ⟨n, v, [], none⟩ := by
    intro ht n
    refine ⟨rfl, rfl, ?_, Or.inl ⟨hi, he⟩⟩
    rw [if_neg (fun h => ht h.1)]
  have main : v.type ≠ .ulpatch →
    ∃ r, (if (match v.elf with | .null => v.isElf | _ => true) = true then some (PeekRes.mk 0 v [] none)
    else if (startswith v.name (lit "/etc") || startswith v.name (lit "/sys")) = true then
      some ⟨0, v, [], none⟩
    else
      match (if (mem.read v.start 64).length < 64 then none else some (parseEhdr (mem.read v.start 64))) with
      | none => some ⟨-11, v, [], none⟩
      | some e =>
        if (!ehdrOk e) = true then some ⟨0, v, [], none⟩
        else
          if (!true) = true then some ⟨-12, { v with isElf := true }, [], if v.type = .self then some (decide (e.type = ET_DYN)) else none⟩
          else if e.phnum = 0 then some (peekDone shift e [] { v with isElf := true } [] (if v.type = .self then some (decide (e.type = ET_DYN)) else none))
          else if (!true) = true then some ⟨-12, { v with isElf := true, elf := .freed }, [], if v.type = .self then some (decide (e.type = ET_DYN)) else none⟩
          else
              if (mem.read (v.start + e.phoff) (e.phnum * 56)).length < e.phnum * 56 then some ⟨-11, { v with isElf := true, elf := .freed }, [], if v.type = .self then some (decide (e.type = ET_DYN)) else none⟩
              else some (peekDone shift e (parsePhdrs e.phnum (mem.read (v.start + e.phoff) (e.phnum * 56))) { v with isElf := true } [] (if v.type = .self then some (decide (e.type = ET_DYN)) else none)))
      = some r ∧ PeekOk mem v r := by
    intro ht
    rw [he, hi, if_neg (by simp), if_neg len]
    dsimp only
    by_cases hs : (startswith v.name (lit "/etc") || startswith v.name (lit "/sys")) = true
    · rw [if_pos hs]
      refine ⟨_, rfl, rfl, rfl, ?_, Or.inl ⟨hi, he⟩⟩
      rw [if_neg (fun h => by have := h.2.1; unfold skipped at this; rw [hs] at this; cases this)]
    · rw [if_neg hs]
      by_cases ho : ehdrOk (parseEhdr (mem.read v.start 64)) = true
      · have hv : skipped v.name = false := by unfold skipped; simpa using hs
        rw [ho, if_neg (by decide), if_neg (by decide)]
        have fin : ∀ ps, PeekOk mem v (peekDone shift (parseEhdr (mem.read v.start 64)) ps { v with isElf := true } []
            (if v.type = .self then some (decide ((parseEhdr (mem.read v.start 64)).type = ET_DYN)) else none)) := by
          intro ps
          obtain ⟨a, b, c, d⟩ := peekDone_keeps shift (parseEhdr (mem.read v.start 64)) ps
            { v with isElf := true } []
            (if v.type = .self then some (decide ((parseEhdr (mem.read v.start 64)).type = ET_DYN)) else none) rfl
          refine ⟨a, b, c.trans ?_, d.imp id (fun h => ⟨ht, h⟩)⟩
          simp only [hv, ho, and_true]
          rfl
        by_cases hp : (parseEhdr (mem.read v.start 64)).phnum = 0
        · rw [if_pos hp]
          exact ⟨_, rfl, fin _⟩
        · rw [if_neg hp, if_neg (by decide), if_neg (len2 _ _)]
          exact ⟨_, rfl, fin _⟩
      · rw [if_pos (by simpa using ho)]
        refine ⟨_, rfl, rfl, rfl, ?_, Or.inl ⟨hi, he⟩⟩
        rw [if_neg (fun h => ho h.2.2)]
  unfold peekElfHdrs
  cases hty : v.type <;> rw [hty] at main triv <;>
    first
    | exact main (by simp)
    | exact ⟨_, rfl, triv (by simp) _⟩

/-! ### All mappings -/

/-- All reads are complete and memory is available. -/
def Full (e : Env) (mem : Mem) : Prop :=
  e.rd = (fun a n => .got (mem.read a n)) ∧ (∀ i, e.malloc1 i = true) ∧ ∀ i, e.malloc2 i = true

/-- A mapping as it was just read from the list of mappings. -/
def New (v : Vma) : Prop := v.area.elf = .null ∧ v.area.isElf = false ∧ v.bfd = none

/-- Is a file opened for the mapping `v` at position `i`? -/
def Opened (e : Env) (i : Nat) (v : Vma) : Prop :=
  v.area.isElf = true ∧ e.fexist v.area.name = true ∧ e.bfdOpen i = true

instance (e : Env) (i : Nat) (v : Vma) : Decidable (Opened e i v) := by unfold Opened; infer_instance

/-- What is known of a mapping after it was looked at. -/
structure Looked (e : Env) (i : Nat) (v w : Vma) : Prop where
  name : w.area.name = v.area.name
  type : w.area.type = v.area.type
  bfd : w.bfd = if Opened e i w then some i else none
  closes : ClosesCleanly w.area

/-- The files of the mappings from position `i` on. -/
def filesOf (e : Env) : Nat → List Vma → List Nat
  | _, [] => []
  | i, w :: ws => (if Opened e i w then [i] else []) ++ filesOf e (i + 1) ws

theorem has_file {flag : BitVec 32} (hf : has flag FTO_VMA_ELF = true) : has flag FTO_VMA_ELF_FILE = true := by
  unfold has FTO_VMA_ELF_FILE FTO_VMA_ELF at *
  simp only [ne_eq, decide_eq_true_eq] at *
  intro h
  apply hf
  have : flag &&& 2 = (flag &&& (4 ||| 2)) &&& 2 := by rw [BitVec.and_assoc]; rfl
  rw [this, h]; rfl

/-- What becomes of a mapping that is an ELF file. -/
theorem loadElfFile_eq (flag : BitVec 32) (hf : has flag FTO_VMA_ELF = true) (e : Env) (i : Nat) (v : Vma) (s : St)
    (hv : v.area.isElf = true) (hb : v.bfd = none) :
    ∃ s', (loadElfFile flag e i v s).2 = ({ v with bfd := if Opened e i v then some i else none }, s') ∧
      s'.pie = s.pie ∧ s'.files = (if Opened e i v then [i] else []) ++ s.files := by
  unfold loadElfFile
  rw [hv, has_file hf, if_neg (by decide), Bool.true_and]
  by_cases hx : e.fexist v.area.name = true
  · rw [if_pos hx]
    by_cases ho : e.bfdOpen i = true
    · rw [if_neg (by rw [ho]; decide)]
      have hop : Opened e i v := ⟨hv, hx, ho⟩
      rw [if_pos hop, if_pos hop]
      refine ⟨_, rfl, ?_, ?_⟩ <;> cases v.area.type <;> rfl
    · have hop : ¬ Opened e i v := fun h => ho h.2.2
      rw [if_pos (by simpa using ho), if_neg hop, if_neg hop]
      exact ⟨_, rfl, rfl, rfl⟩
  · have hop : ¬ Opened e i v := fun h => hx h.2.1
    rw [if_neg hx, if_neg hop, if_neg hop]
    refine ⟨s, ?_, rfl, rfl⟩
    cases v; simp only at hb; rw [hb]

/-- What the mapping `v` says about the kind of the executable. -/
def pieSays (mem : Mem) (v : Area) : Option Bool :=
  if v.type = .self ∧ skipped v.name = false ∧ ehdrOk (parseEhdr (mem.read v.start 64)) = true
    then some (decide ((parseEhdr (mem.read v.start 64)).type = 3)) else none

/-- The kind of the executable after all mappings: the last one that says something decides. -/
def pieAfter (mem : Mem) : List Vma → Bool → Bool
  | [], p => p
  | v :: vs, p => pieAfter mem vs ((pieSays mem v.area).getD p)

theorem loadOne_full (flag : BitVec 32) (hf : has flag FTO_VMA_ELF = true) (e : Env) (mem : Mem) (he : Full e mem)
    (i : Nat) (v : Vma) (s : St) (hn : New v) :
    ∃ w s', loadOne flag e i v s = some (w, s') ∧ Looked e i v w ∧
      s'.files = (if Opened e i w then [i] else []) ++ s.files ∧ s'.pie = (pieSays mem v.area).getD s.pie := by
  obtain ⟨r, hr, h1, h2, h3, h4⟩ := peek_full e.shift mem (e.ulp i) v.area hn.1 hn.2.1
  unfold loadOne
  rw [he.1, he.2.1, he.2.2, hr]
  dsimp only
  have h3 : r.self = pieSays mem v.area := h3
  generalize hs1 : setPie r.self s = s1
  have hp1 : s1.pie = (pieSays mem v.area).getD s.pie ∧ s1.files = s.files := by
    rw [← hs1, ← h3]; cases r.self <;> exact ⟨rfl, rfl⟩
  generalize ha : (if v.area.type = .ulpatch then { r.vma with isElf := v.area.isElf || e.ulpElf i } else r.vma : Area) = a
  have hn' : a.name = v.area.name := by rw [← ha, ← h1]; split <;> rfl
  have ht' : a.type = v.area.type := by rw [← ha, ← h2]; split <;> rfl
  have hc : ClosesCleanly a := by
    rw [← ha]
    by_cases hu : v.area.type = .ulpatch
    · rw [if_pos hu]
      unfold ClosesCleanly
      have hz : r.vma.elf = .null := by
        rcases h4 with h4 | h4
        · exact h4.2
        · exact absurd hu h4.1
      exact ⟨_, if_pos (by simp [h2, hu]), fun m => by dsimp only; rw [hz]; simp⟩
    · rw [if_neg hu]
      rcases h4 with h4 | h4
      · exact closes_of_not h4.1 h4.2
      · obtain ⟨m, hm⟩ := h4.2.2
        exact closes_of_live h4.2.1 hm (h2 ▸ h4.1)
  by_cases hel : a.isElf = true
  · rw [if_pos hel]
    obtain ⟨s', e1, e2, e3⟩ := loadElfFile_eq flag hf e i { v with area := a } s1 hel hn.2.2
    refine ⟨_, s', congrArg some e1, ⟨hn', ht', rfl, hc⟩, ?_, e2.trans hp1.1⟩
    rw [e3, hp1.2]; rfl
  · rw [if_neg hel]
    have hop : ¬ Opened e i { v with area := a } := fun h => hel h.1
    refine ⟨_, _, rfl, ⟨hn', ht', ?_, hc⟩, ?_, hp1.1⟩
    · rw [if_neg hop]; exact hn.2.2
    · rw [if_neg hop]; exact hp1.2

theorem loadLoop_full (flag : BitVec 32) (hf : has flag FTO_VMA_ELF = true) (e : Env) (mem : Mem) (he : Full e mem) :
    ∀ (vs : List Vma) (i : Nat) (s : St), (∀ v ∈ vs, New v) →
    ∃ ws s', loadLoop flag e i vs s = some (ws, s') ∧ ws.length = vs.length ∧
      (∀ (k : Nat) (v w : Vma), vs[k]? = some v → ws[k]? = some w → Looked e (i + k) v w) ∧
      s'.files.Perm (filesOf e i ws ++ s.files) ∧ s'.pie = pieAfter mem vs s.pie
  | [], i, s, _ => ⟨[], s, rfl, rfl, by simp, .refl _, rfl⟩
  | v :: vs, i, s, hn => by
    obtain ⟨w, s1, e1, l1, f1, p1⟩ := loadOne_full flag hf e mem he i v s (hn v List.mem_cons_self)
    obtain ⟨ws, s2, e2, n2, l2, f2, p2⟩ := loadLoop_full flag hf e mem he vs (i + 1) s1
      (fun x hx => hn x (List.mem_cons_of_mem _ hx))
    refine ⟨w :: ws, s2, ?_, congrArg (· + 1) n2, ?_, ?_, ?_⟩
    · rw [loadLoop, e1]; dsimp only; rw [e2]
    · intro k v' w' hv hw
      cases k with
      | zero => cases hv; cases hw; exact l1
      | succ k =>
        have := l2 k v' w' hv hw
        rwa [show i + (k + 1) = i + 1 + k by omega]
    · rw [f1] at f2
      refine f2.trans ?_
      rw [filesOf]
      split
      · exact List.perm_middle
      · exact .refl _
    · rw [p2, p1]; rfl

theorem mem_filesOf (e : Env) (j : Nat) : ∀ (ws : List Vma) (i : Nat),
    j ∈ filesOf e i ws ↔ ∃ k w, j = i + k ∧ ws[k]? = some w ∧ Opened e j w
  | [], i => by simp [filesOf]
  | w :: ws, i => by
    rw [filesOf, List.mem_append, mem_filesOf e j ws (i + 1)]
    constructor
    · rintro (h | ⟨k, x, a, b, c⟩)
      · split at h
        · rename_i ho
          have : j = i := by simpa using h
          subst this
          exact ⟨0, w, rfl, rfl, ho⟩
        · cases h
      · exact ⟨k + 1, x, by omega, b, c⟩
    · rintro ⟨k, x, a, b, c⟩
      cases k with
      | zero => cases b; left; rw [Nat.add_zero] at a; subst a; rw [if_pos c]; exact List.mem_singleton.2 rfl
      | succ k => right; exact ⟨k, x, by omega, b, c⟩

theorem freeLoop_ok : ∀ ws : List Vma, (∀ w ∈ ws, ClosesCleanly w.area) →
    ∃ us, freeLoop ws = some us ∧ us.map (fun u => (u.bfd, u.area.isElf)) = ws.map (fun u => (u.bfd, u.area.isElf)) ∧
      us.length = ws.length ∧ ∀ u ∈ us, ∀ m, u.area.elf ≠ .live m
  | [], _ => ⟨[], rfl, rfl, rfl, by simp⟩
  | w :: ws, h => by
    obtain ⟨a, ha, hz⟩ := h w List.mem_cons_self
    obtain ⟨us, e1, e2, e3, e4⟩ := freeLoop_ok ws (fun x hx => h x (List.mem_cons_of_mem _ hx))
    refine ⟨{ w with area := a } :: us, ?_, ?_, congrArg (· + 1) e3, ?_⟩
    · rw [freeLoop, ha]; dsimp only; rw [e1]
    · have : a.isElf = w.area.isElf := by
        unfold vmaFreeElf at ha
        split at ha
        · cases ha; rfl
        · split at ha <;> cases ha; rfl
      rw [List.map_cons, List.map_cons, e2, this]
    · intro u hu
      rcases List.mem_cons.1 hu with rfl | hu
      · exact hz
      · exact e4 u hu

theorem closeLoop_ok (e : Env) : ∀ (ws us : List Vma) (i : Nat) (files : List Nat),
    us.map (fun u => (u.bfd, u.area.isElf)) = ws.map (fun u => (u.bfd, u.area.isElf)) →
    (∀ k w, ws[k]? = some w → w.bfd = if Opened e (i + k) w then some (i + k) else none) →
    files.Perm (filesOf e i ws) → closeLoop us files = some []
  | [], us, i, files, hm, _, hp => by
    rw [List.map_nil, List.map_eq_nil_iff] at hm
    subst hm
    rw [closeLoop, hp.eq_nil]
  | w :: ws, [], _, _, hm, _, _ => by simp at hm
  | w :: ws, u :: us, i, files, hm, hb, hp => by
    rw [List.map_cons, List.map_cons, List.cons.injEq, Prod.mk.injEq] at hm
    obtain ⟨⟨h1, h2⟩, h3⟩ := hm
    have hb0 := hb 0 w rfl
    rw [Nat.add_zero] at hb0
    have hrest : ∀ k w, ws[k]? = some w → w.bfd = if Opened e (i + 1 + k) w then some (i + 1 + k) else none := by
      intro k x hx
      have := hb (k + 1) x hx
      rwa [show i + (k + 1) = i + 1 + k by omega] at this
    rw [filesOf] at hp
    by_cases ho : Opened e i w
    · rw [if_pos ho] at hp hb0
      have hmem : i ∈ files := hp.mem_iff.2 (by simp)
      have : closeOne u files = some (files.erase i) := by
        unfold closeOne
        rw [h2, if_pos ho.1, h1, hb0]
        exact if_pos hmem
      rw [closeLoop, this]
      refine closeLoop_ok e ws us (i + 1) _ h3 hrest ?_
      have := hp.erase i
      rwa [List.singleton_append, List.erase_cons_head] at this
    · rw [if_neg ho] at hp hb0
      have : closeOne u files = some files := by
        unfold closeOne
        rw [h1, hb0]
        split <;> rfl
      rw [closeLoop, this]
      exact closeLoop_ok e ws us (i + 1) _ h3 hrest hp

/-- The handle of the last mapping of type `t` with an open file, or `o`. -/
def lastHandle (e : Env) (t : VmaType.VmaType) : Nat → List Vma → Option Nat → Option Nat
  | _, [], o => o
  | i, w :: ws, o => lastHandle e t (i + 1) ws (if Opened e i w ∧ w.area.type = t then some i else o)

theorem loadOne_handles {flag : BitVec 32} (hf : has flag FTO_VMA_ELF = true) {e : Env} {i : Nat} {v w : Vma} {s s' : St}
    (h : loadOne flag e i v s = some (w, s')) :
    s'.exe = (if Opened e i w ∧ w.area.type = .self then some i else s.exe) ∧
    s'.libc = (if Opened e i w ∧ w.area.type = .libc then some i else s.libc) := by
  unfold loadOne at h
  split at h
  · cases h
  · rename_i r _
    dsimp only at h
    generalize (if v.area.type = .ulpatch then { r.vma with isElf := v.area.isElf || e.ulpElf i } else r.vma : Area) = a at h
    have hs : (setPie r.self s).exe = s.exe ∧ (setPie r.self s).libc = s.libc := by
      unfold setPie; split <;> exact ⟨rfl, rfl⟩
    rw [← hs.1, ← hs.2]
    generalize setPie r.self s = s1 at h
    by_cases hel : a.isElf = true
    · rw [if_pos hel, Option.some.injEq] at h
      unfold loadElfFile at h
      rw [hel, has_file hf, if_neg (by decide), Bool.true_and] at h
      by_cases hx : e.fexist a.name = true
      · rw [if_pos hx] at h
        by_cases ho : e.bfdOpen i = true
        · rw [if_neg (by rw [ho]; decide)] at h
          obtain ⟨rfl, rfl⟩ := Prod.mk.inj h
          have hop : Opened e i { area := a, bfd := some i } := ⟨hel, hx, ho⟩
          simp only [hop, true_and]
          cases a.type <;> exact ⟨rfl, rfl⟩
        · rw [if_pos (by simpa using ho)] at h
          obtain ⟨rfl, rfl⟩ := Prod.mk.inj h
          constructor <;> exact (if_neg (fun h => ho h.1.2.2)).symm
      · rw [if_neg hx] at h
        obtain ⟨rfl, rfl⟩ := Prod.mk.inj h
        constructor <;> exact (if_neg (fun h => hx h.1.2.1)).symm
    · rw [if_neg hel, Option.some.injEq] at h
      obtain ⟨rfl, rfl⟩ := Prod.mk.inj h
      constructor <;> exact (if_neg (fun h => hel h.1.1)).symm

theorem loadLoop_handles {flag : BitVec 32} (hf : has flag FTO_VMA_ELF = true) {e : Env} :
    ∀ (vs ws : List Vma) (i : Nat) (s s' : St), loadLoop flag e i vs s = some (ws, s') →
    s'.exe = lastHandle e .self i ws s.exe ∧ s'.libc = lastHandle e .libc i ws s.libc
  | [], ws, i, s, s', h => by cases h; exact ⟨rfl, rfl⟩
  | v :: vs, ws, i, s, s', h => by
    rw [loadLoop] at h
    cases h1 : loadOne flag e i v s with
    | none => rw [h1] at h; cases h
    | some p =>
      obtain ⟨w, s1⟩ := p
      rw [h1] at h
      dsimp only at h
      cases h2 : loadLoop flag e (i + 1) vs s1 with
      | none => rw [h2] at h; cases h
      | some p =>
        obtain ⟨ws', s2⟩ := p
        rw [h2] at h
        cases h
        obtain ⟨a, b⟩ := loadOne_handles hf h1
        obtain ⟨c, d⟩ := loadLoop_handles hf vs ws' (i + 1) s1 _ h2
        rw [lastHandle, lastHandle, ← a, ← b]
        exact ⟨c, d⟩

theorem lastHandle_iff (e : Env) (t : VmaType.VmaType) (j : Nat) : ∀ (ws : List Vma) (i : Nat) (o : Option Nat),
    (∀ x, o = some x → x < i) →
    (lastHandle e t i ws o = some j ↔
      (∃ k w, j = i + k ∧ ws[k]? = some w ∧ Opened e j w ∧ w.area.type = t ∧
        ∀ k' w', k < k' → ws[k']? = some w' → ¬ (Opened e (i + k') w' ∧ w'.area.type = t)) ∨
      (o = some j ∧ ∀ k w, ws[k]? = some w → ¬ (Opened e (i + k) w ∧ w.area.type = t)))
  | [], i, o, _ => by simp [lastHandle]
  | w :: ws, i, o, ho => by
    rw [lastHandle, lastHandle_iff e t j ws (i + 1) _ (by
      intro x hx
      split at hx
      · cases hx; omega
      · have := ho x hx; omega)]
    have sh : ∀ k, i + 1 + k = i + (k + 1) := fun k => by omega
    constructor
    · rintro (⟨k, x, a, b, c, d, g⟩ | ⟨a, b⟩)
      · left
        refine ⟨k + 1, x, by omega, b, c, d, ?_⟩
        intro k' w' hk hw
        cases k' with
        | zero => omega
        | succ k' => rw [← sh]; exact g k' w' (by omega) hw
      · by_cases hw : Opened e i w ∧ w.area.type = t
        · rw [if_pos hw] at a
          cases a
          left
          refine ⟨0, w, rfl, rfl, hw.1, hw.2, ?_⟩
          intro k' w' hk hw'
          cases k' with
          | zero => omega
          | succ k' => rw [← sh]; exact b k' w' hw'
        · rw [if_neg hw] at a
          right
          refine ⟨a, ?_⟩
          intro k x hx
          cases k with
          | zero => cases hx; exact hw
          | succ k => rw [← sh]; exact b k x hx
    · rintro (⟨k, x, a, b, c, d, g⟩ | ⟨a, b⟩)
      · cases k with
        | zero =>
          cases b
          rw [Nat.add_zero] at a
          subst a
          right
          refine ⟨if_pos ⟨c, d⟩, fun k' w' hw' => ?_⟩
          rw [sh]; exact g (k' + 1) w' (by omega) hw'
        | succ k =>
          left
          refine ⟨k, x, by omega, b, c, d, fun k' w' hk hw' => ?_⟩
          rw [sh]; exact g (k' + 1) w' (by omega) hw'
      · right
        refine ⟨?_, fun k x hx => ?_⟩
        · have := b 0 w rfl
          rw [Nat.add_zero] at this
          rw [if_neg this]; exact a
        · rw [sh]; exact b (k + 1) x hx

/-- C117: the file kept as "the executable" is the one of the last mapping of the executable for
which a file is open, and the file kept as "the C library" likewise; there is none exactly if there
is no such mapping. -/
theorem C117_handles (flag : BitVec 32) (hf : has flag FTO_VMA_ELF = true) (e : Env) (vs ws : List Vma)
    (pie : Bool) (s : St) (h : openFiles flag e vs ⟨[], pie, none, none⟩ = some (ws, s)) :
    (∀ i, s.exe = some i ↔ ∃ w, ws[i]? = some w ∧ (Opened e i w ∧ w.area.type = .self) ∧
      ∀ j w', i < j → ws[j]? = some w' → ¬ (Opened e j w' ∧ w'.area.type = .self)) ∧
    (∀ i, s.libc = some i ↔ ∃ w, ws[i]? = some w ∧ (Opened e i w ∧ w.area.type = .libc) ∧
      ∀ j w', i < j → ws[j]? = some w' → ¬ (Opened e j w' ∧ w'.area.type = .libc)) := by
  unfold openFiles at h
  rw [if_pos hf] at h
  obtain ⟨a, b⟩ := loadLoop_handles hf vs ws 0 _ s h
  have main : ∀ t i, lastHandle e t 0 ws none = some i ↔ ∃ w, ws[i]? = some w ∧ (Opened e i w ∧ w.area.type = t) ∧
      ∀ j w', i < j → ws[j]? = some w' → ¬ (Opened e j w' ∧ w'.area.type = t) := by
    intro t i
    rw [lastHandle_iff e t i ws 0 none (by simp)]
    simp only [reduceCtorEq, false_and, or_false, Nat.zero_add]
    constructor
    · rintro ⟨k, w, rfl, p, q, r, u⟩; exact ⟨w, p, ⟨q, r⟩, u⟩
    · rintro ⟨w, p, q, u⟩; exact ⟨i, w, rfl, p, q.1, q.2, u⟩
  exact ⟨fun i => by rw [a]; exact main _ i, fun i => by rw [b]; exact main _ i⟩

/-- C117: opening the files of the mappings of a process whose memory can be read always succeeds.
A file is open for exactly the mappings that are ELF files, exist as a file and can be opened (if
the flag asks for ELF data at all), under one handle each; closing with the same flag releases
every handle and every header once, and nothing is left. -/
theorem C117_books_partial (flag : BitVec 32) (e : Env) (mem : Mem) (he : Full e mem) (vs : List Vma)
    (hn : ∀ v ∈ vs, New v) (pie : Bool) (exe libc : Option Nat) :
    ∃ ws s, openFiles flag e vs ⟨[], pie, exe, libc⟩ = some (ws, s) ∧ ws.length = vs.length ∧
      (∀ (i : Nat) (v w : Vma), vs[i]? = some v → ws[i]? = some w →
        w.area.name = v.area.name ∧ w.area.type = v.area.type ∧
        (w.bfd = some i ↔ flag.getLsbD 1 = true ∧ w.area.isElf = true ∧ e.fexist v.area.name = true ∧ e.bfdOpen i = true) ∧
        (i ∈ s.files ↔ w.bfd = some i)) ∧
      (∀ i ∈ s.files, i < vs.length) ∧
      ∃ us, closeFiles flag ws s.files = some (us, []) ∧ us.length = ws.length ∧
        ∀ u ∈ us, ∀ m, u.area.elf ≠ .live m := by
  have bit : has flag FTO_VMA_ELF = flag.getLsbD 1 := by
    unfold has FTO_VMA_ELF
    by_cases hb : flag.getLsbD 1 = true
    · rw [hb, decide_eq_true_eq]
      intro h
      have := congrArg (BitVec.getLsbD · 1) h
      rw [BitVec.getLsbD_and, hb] at this
      cases this
    · rw [Bool.not_eq_true] at hb
      rw [hb, decide_eq_false_iff_not, ne_eq, Decidable.not_not]
      apply BitVec.eq_of_getLsbD_eq
      intro k hk
      by_cases h1 : k = 1
      · subst h1; rw [BitVec.getLsbD_and, hb]; rfl
      · have : (2 : BitVec 32).getLsbD k = false := by
          have : ∀ k < 32, k ≠ 1 → (2 : BitVec 32).getLsbD k = false := by decide
          exact this k hk h1
        rw [BitVec.getLsbD_and, this, Bool.and_false]; exact (BitVec.getLsbD_zero).symm
  by_cases hf : has flag FTO_VMA_ELF = true
  · obtain ⟨ws, s, e1, e2, e3, e4, -⟩ := loadLoop_full flag hf e mem he vs 0 ⟨[], pie, exe, libc⟩ hn
    rw [List.append_nil] at e4
    have hl : ∀ k w, ws[k]? = some w → ∃ v, vs[k]? = some v ∧ Looked e k v w := by
      intro k w hw
      have hk : k < vs.length := by
        rw [← e2]; exact (List.getElem?_eq_some_iff.1 hw).1
      refine ⟨vs[k], List.getElem?_eq_getElem hk, ?_⟩
      have := e3 k _ w (List.getElem?_eq_getElem hk) hw
      rwa [Nat.zero_add] at this
    have hmem : ∀ i w, ws[i]? = some w → (i ∈ s.files ↔ Opened e i w) := by
      intro i w hw
      rw [e4.mem_iff, mem_filesOf]
      constructor
      · rintro ⟨k, x, a, b, c⟩
        rw [Nat.zero_add] at a
        subst a
        rw [hw] at b; cases b
        exact c
      · exact fun h => ⟨i, w, (Nat.zero_add i).symm, hw, h⟩
    obtain ⟨us, f1, f2, f3, f4⟩ := freeLoop_ok ws (by
      intro w hw
      obtain ⟨k, hk, rfl⟩ := List.mem_iff_getElem.1 hw
      obtain ⟨v, -, h⟩ := hl k _ (List.getElem?_eq_getElem hk)
      exact h.closes)
    have hcl : closeLoop us s.files = some [] := closeLoop_ok e ws us 0 s.files f2
      (by
        intro k w hw
        obtain ⟨v, -, h⟩ := hl k w hw
        rw [Nat.zero_add]; exact h.bfd) e4
    refine ⟨ws, s, ?_, e2, ?_, ?_, us, ?_, f3, ?_⟩
    · unfold openFiles; rw [if_pos hf]; exact e1
    · intro i v w hv hw
      obtain ⟨v', hv', h⟩ := hl i w hw
      rw [hv] at hv'; cases hv'
      refine ⟨h.name, h.type, ?_, ?_⟩
      · rw [h.bfd, ← bit, hf, ← h.name]
        by_cases ho : Opened e i w
        · rw [if_pos ho]; exact ⟨fun _ => ⟨rfl, ho⟩, fun _ => rfl⟩
        · rw [if_neg ho]; exact ⟨(fun h => by cases h), (fun h => absurd h.2 ho)⟩
      · rw [hmem i w hw, h.bfd]
        by_cases ho : Opened e i w
        · rw [if_pos ho]; exact ⟨fun _ => rfl, fun _ => ho⟩
        · rw [if_neg ho]; exact ⟨(fun h => absurd h ho), (fun h => by cases h)⟩
    · intro i hi
      rw [e4.mem_iff, mem_filesOf] at hi
      obtain ⟨k, w, a, b, -⟩ := hi
      have := (List.getElem?_eq_some_iff.1 b).1
      omega
    · unfold closeFiles
      rw [if_pos hf, f1]
      dsimp only
      rw [if_pos (has_file hf), hcl]
    · exact f4
  · have hff : has flag FTO_VMA_ELF = false := by simpa using hf
    refine ⟨vs, ⟨[], pie, exe, libc⟩, ?_, rfl, ?_, by simp, vs, ?_, rfl, ?_⟩
    · unfold openFiles; rw [if_neg hf]
    · intro i v w hv hw
      rw [hv] at hw; cases hw
      have := (hn v (List.mem_of_getElem? hv)).2.2
      refine ⟨rfl, rfl, ?_, ?_⟩
      · rw [this, ← bit, hff]; simp
      · rw [this]; simp
    · have hc : ∀ l : List Vma, (∀ v ∈ l, New v) → closeLoop l [] = some [] := by
        intro l
        induction l with
        | nil => intro _; rfl
        | cons v l ih =>
          intro h
          rw [closeLoop, show closeOne v [] = some [] by
            unfold closeOne; rw [(h v List.mem_cons_self).2.1]; rfl]
          exact ih (fun x hx => h x (List.mem_cons_of_mem _ hx))
      unfold closeFiles
      rw [if_neg hf]
      dsimp only
      rw [hc vs hn, ite_self]
    · intro u hu m hm
      rw [(hn u hu).1] at hm; cases hm

/-! ### C118 -/

theorem fmtD_eq (n : Nat) (h : n < 2 ^ 31) : fmtD (BitVec.ofNat 32 n) = decimal n := TaskList.fmtInt_eq n h

/-- C118: what is printed of the users and groups of a process is what the kernel shows of them. -/
theorem C118_ids_partial (errno : Int) (st : Proc.Status) (pre mid post : List (List Byte))
    (h1 : ∀ l ∈ pre, ProcFiles.Other l) (h2 : ∀ l ∈ mid, ProcFiles.Other l) (h3 : ∀ l ∈ post, ProcFiles.Other l)
    (a b c d e f g h : Nat) (hr : ∀ n ∈ [a, b, c, d, e, f, g, h], n < 2 ^ 31) :
    ∃ s, Proc.procGetPidStatus errno (some (ProcFiles.lines pre ++ ProcFiles.idLine "Uid" a b c d ++
        ProcFiles.lines mid ++ ProcFiles.idLine "Gid" e f g h ++ ProcFiles.lines post)) st = some (0, s) ∧
      printStatus ⟨s.uid, s.euid, s.suid, s.fsuid⟩ ⟨s.gid, s.egid, s.sgid, s.fsgid⟩ =
        ProcFiles.idLine "Uid" a b c d ++ ProcFiles.idLine "Gid" e f g h := by
  refine ⟨_, Proc.C61_status errno st pre mid post h1 h2 h3 a b c d e f g h
    (fun n hn => by have := hr n hn; omega), ?_⟩
  simp only [List.forall_mem_cons, List.not_mem_nil, false_imp_iff, implies_true, and_true] at hr
  obtain ⟨ra, rb, rc, rd, re, rf, rg, rh⟩ := hr
  unfold printStatus idLine ProcFiles.idLine
  rw [fmtD_eq a ra, fmtD_eq b rb, fmtD_eq c rc, fmtD_eq d rd, fmtD_eq e re, fmtD_eq f rf, fmtD_eq g rg, fmtD_eq h rh]
  rfl

/-- Finding: a number from 2^31 on is printed as a negative one. -/
theorem C118_ids_negative : printStatus ⟨4294967294, 0, 0, 0⟩ ⟨0, 0, 0, 0⟩ = text "Uid:\t-2\t0\t0\t0\nGid:\t0\t0\t0\t0\n" := by
  decide +kernel

theorem printTask_eq (comm exe : List Byte) (pid : Nat) (pie : Bool) (n : Nat) (fto fd : BitVec 32)
    (hp : pid < 2 ^ 31) (hn : n < 2 ^ 31) :
    printTask (some ⟨comm, exe, BitVec.ofNat 32 pid, pie, BitVec.ofNat 32 n, fto, fd⟩) false =
      (0, SessionSpec.general comm exe pid pie n) := by
  have hz : (BitVec.ofNat 32 n ≠ 0) ↔ n ≠ 0 := by
    constructor
    · rintro h rfl; exact h rfl
    · intro h e
      have := congrArg BitVec.toNat e
      rw [BitVec.toNat_ofNat] at this
      simp only [BitVec.ofNat_eq_ofNat, BitVec.toNat_ofNat, Nat.zero_mod] at this
      omega
  unfold printTask SessionSpec.general
  dsimp only
  rw [if_pos rfl, fmtD_eq pid hp, fmtD_eq n hn]
  by_cases h0 : n = 0
  · rw [if_neg (fun h => hz.1 h h0), if_pos h0]
    cases pie <;> rfl
  · rw [if_pos (hz.2 h0), if_neg h0]
    cases pie <;> rfl

/-- C118: with details the same is printed, then the flags and the descriptor; without a process
the answer is that the argument is wrong, and nothing is printed. -/
theorem C118_details (comm exe : List Byte) (pid : Nat) (pie : Bool) (n : Nat) (fto : BitVec 32) (fd : Nat)
    (hp : pid < 2 ^ 31) (hn : n < 2 ^ 31) (hd : fd < 2 ^ 31) :
    printTask (some ⟨comm, exe, BitVec.ofNat 32 pid, pie, BitVec.ofNat 32 n, fto, BitVec.ofNat 32 fd⟩) true =
      (0, SessionSpec.general comm exe pid pie n ++ SessionSpec.details fto fd) ∧
    ∀ b, printTask none b = (-22, []) := by
  refine ⟨?_, fun b => rfl⟩
  have h := congrArg Prod.snd (printTask_eq comm exe pid pie n fto (BitVec.ofNat 32 fd) hp hn)
  unfold printTask at h ⊢
  dsimp only at h ⊢
  rw [if_pos rfl] at h
  dsimp only at h
  rw [if_neg (by decide), h, fmtD_eq fd hd, Listing.lx_eq]
  unfold SessionSpec.details
  simp only [List.append_assoc]
  rfl

example : SessionSpec.details 0x1f 3 =
    text "FTO:     1f                              \nMemFD:   3                               \n" := by decide +kernel

/-- C118: after every history of commands (with the assumptions of C04) the number of patches shown
is the number of patches the process has, and nothing is said if it has none. -/
theorem C118_patched_partial (R : Addr → Prop) (w0 : Patch.World) (cs : List Patch.Cmd)
    (h0 : w0.maps = []) (hlen : cs.length < 2 ^ 31) (hg : Patch.GoodHist R w0 cs) :
    ∃ w, Patch.runHist w0 cs = some w ∧
      ∀ (b : Bool) (rd : Patch.Mapping → Patch.ReadRes), (∀ m, rd m = .ok) →
      ∃ s, Patch.openTask b rd w = some s ∧
      ∀ (comm exe : List Byte) (pid : Nat) (pie : Bool) (fto fd : BitVec 32), pid < 2 ^ 31 →
        printTask (some ⟨comm, exe, BitVec.ofNat 32 pid, pie, s.maxId, fto, fd⟩) false =
          (0, SessionSpec.general comm exe pid pie w.maps.length) := by
  obtain ⟨w, st, hrun, hinv, -⟩ := Patch.hist_inv cs (Patch.Inv.init R w0 h0) (by omega) hg
  refine ⟨w, hrun, fun b rd hrd => ⟨_, Patch.openTask_ok rd w b (fun m _ => hrd m) hinv.ready, ?_⟩⟩
  intro comm exe pid pie fto fd hp
  have hl : st.length = w.maps.length := by
    have := hinv.perm.length_eq
    rwa [List.length_map] at this
  have hm : (Patch.maxOf w.maps 0).toNat = w.maps.length := by
    rw [hinv.maxId, ← hl]
    cases st with
    | nil => rfl
    | cons l st =>
      have := hinv.nums 0 l rfl
      exact this
  have hle : w.maps.length < 2 ^ 31 := by
    rw [← hl]
    cases st with
    | nil => exact Nat.two_pow_pos 31
    | cons l st =>
      have h1 := hinv.nums 0 l rfl
      have h2 := (hinv.bound l List.mem_cons_self).2
      omega
  have : Patch.maxOf w.maps 0 = BitVec.ofNat 32 w.maps.length := by
    apply BitVec.eq_of_toNat_eq
    rw [hm, BitVec.toNat_ofNat]; omega
  dsimp only
  rw [this]
  exact printTask_eq comm exe pid pie _ fto fd hp hle

theorem pieAfter_none (mem : Mem) : ∀ (vs : List Vma) (p : Bool), (∀ v ∈ vs, pieSays mem v.area = none) →
    pieAfter mem vs p = p
  | [], _, _ => rfl
  | v :: vs, p, h => by
    rw [pieAfter, h v List.mem_cons_self]
    exact pieAfter_none mem vs p (fun x hx => h x (List.mem_cons_of_mem _ hx))

theorem pieAfter_at (mem : Mem) (b : Bool) : ∀ (vs : List Vma) (k : Nat) (v : Vma) (p : Bool),
    vs[k]? = some v → pieSays mem v.area = some b →
    (∀ j u, j ≠ k → vs[j]? = some u → pieSays mem u.area = none) → pieAfter mem vs p = b
  | [], _, _, _, h, _, _ => by simp at h
  | x :: vs, 0, v, p, h, hv, ho => by
    cases h
    rw [pieAfter, hv]
    refine pieAfter_none mem vs _ fun u hu => ?_
    obtain ⟨j, hj, rfl⟩ := List.mem_iff_getElem.1 hu
    exact ho (j + 1) _ (by omega) (List.getElem?_eq_getElem hj)
  | x :: vs, k + 1, v, p, h, hv, ho => by
    rw [pieAfter, ho 0 x (by omega) rfl]
    exact pieAfter_at mem b vs k v p h hv (fun j u hj hu => ho (j + 1) u (by omega) hu)

/-- C118: "PIE" is what the header of the executable says, if the executable is mapped with its
header once and does not lie below /etc or /sys. -/
theorem C118_pie_partial (flag : BitVec 32) (hf : has flag FTO_VMA_ELF = true) (e : Env) (mem : Mem)
    (he : Full e mem) (vs : List Vma) (hn : ∀ v ∈ vs, New v) (st : St) (k : Nat) (v : Vma) (h : Hdr)
    (hk : vs[k]? = some v) (ht : v.area.type = .self)
    (hs : ¬ text "/etc" <+: v.area.name ∧ ¬ text "/sys" <+: v.area.name)
    (hb : mem.read v.area.start 64 = h.bytes) (h1 : h.type ≠ 0) (h2 : h.machine ≠ 0)
    (ho : ∀ j u, j ≠ k → vs[j]? = some u → u.area.type = .self → mem.read u.area.start 4 ≠ [0x7f, 0x45, 0x4c, 0x46]) :
    ∃ ws s, openFiles flag e vs st = some (ws, s) ∧ s.pie = decide (h.type = 3) := by
  obtain ⟨ws, s, e1, -, -, -, e5⟩ := loadLoop_full flag hf e mem he vs 0 st hn
  refine ⟨ws, s, ?_, e5.trans ?_⟩
  · unfold openFiles; rw [if_pos hf]; exact e1
  refine pieAfter_at mem _ vs k v _ hk ?_ ?_
  · unfold pieSays
    have hs : skipped v.area.name = false := by
      unfold skipped startswith
      rw [Bool.or_eq_false_iff]
      exact ⟨by rw [← Bool.not_eq_true, List.isPrefixOf_iff_prefix]; exact hs.1,
        by rw [← Bool.not_eq_true, List.isPrefixOf_iff_prefix]; exact hs.2⟩
    rw [if_pos ⟨ht, hs, by rw [hb]; exact ehdr_ok_of h h1 h2⟩, hb, (Hdr_parse h).2.1]
    congr 1
    rw [decide_eq_decide]
    constructor
    · intro hh; exact BitVec.eq_of_toNat_eq hh
    · intro hh; rw [hh]; rfl
  · intro j u hj hu
    unfold pieSays
    refine if_neg ?_
    rintro ⟨g1, -, g3⟩
    refine ho j u hj hu g1 ?_
    unfold ehdrOk at g3
    have g4 : ehdrMagicOk (parseEhdr (mem.read u.area.start 64)) = true := by
      revert g3
      repeat' split
      all_goals simp
    unfold ehdrMagicOk parseEhdr at g4
    rw [decide_eq_true_eq] at g4
    dsimp only at g4
    rw [← g4, List.take_take, show min 4 16 = 4 from rfl]
    apply List.ext_getElem?
    intro i
    rw [List.getElem?_take, Mem.read_getElem?, Mem.read_getElem?]
    repeat' split
    all_goals first | rfl | omega

/-! ### Examples and findings -/

/-- An executable at 0x400000 and empty memory elsewhere. -/
def exMem : Mem := Mem.write (fun _ => 0) 0x400000 ({ exHdr with type := 3 }.bytes ++ ElfHdr.table (exSegs 0x400000))

def exEnv (ok : Bool) : Env :=
  ⟨12, fun a n => .got (exMem.read a n), fun _ => true, fun _ => ok, fun _ => 0, fun _ => false, fun _ => true, fun _ => true⟩

def exVmas : List Vma :=
  [⟨exArea 0x400000, none⟩, ⟨{ exArea 0x401000 with pgoff := 1 }, none⟩,
   ⟨{ exArea 0x600000 with name := lit "[heap]", type := .heap }, none⟩]

example : Full (exEnv true) exMem ∧ (∀ v ∈ exVmas, New v) ∧
    (openFiles FTO_VMA_ELF (exEnv true) exVmas ⟨[], false, none, none⟩).map (·.2) = some ⟨[0], true, some 0, none⟩ := by
  refine ⟨⟨rfl, fun _ => rfl, fun _ => rfl⟩, ?_, by decide +kernel⟩
  intro v hv
  simp only [exVmas, List.mem_cons, List.not_mem_nil, or_false] at hv
  rcases hv with rfl | rfl | rfl <;> exact ⟨rfl, rfl, rfl⟩

example : ∃ ws s, openFiles FTO_VMA_ELF (exEnv true) exVmas ⟨[], false, none, none⟩ = some (ws, s) ∧ s.pie = true := by
  refine C118_pie_partial FTO_VMA_ELF (by decide) (exEnv true) exMem ⟨rfl, fun _ => rfl, fun _ => rfl⟩ exVmas ?_ _ 0 _
    { exHdr with type := 3 } rfl rfl ⟨?_, ?_⟩ (by decide +kernel) (by decide) (by decide) ?_
  · intro v hv
    simp only [exVmas, List.mem_cons, List.not_mem_nil, or_false] at hv
    rcases hv with rfl | rfl | rfl <;> exact ⟨rfl, rfl, rfl⟩
  · rw [← List.isPrefixOf_iff_prefix]; decide
  · rw [← List.isPrefixOf_iff_prefix]; decide
  · intro j u hj hu ht
    match j, hj, hu with
    | 1, _, hu => cases hu; decide +kernel
    | 2, _, hu => cases hu; exact absurd ht (by decide)
    | j + 3, _, hu => exact absurd hu (by simp [exVmas])

/-- **Finding on C117**: asking only for the ELF headers also opens the files and loads the
symbols, since the flags for files and symbols contain the flag for headers and are tested with
"any bit set". -/
theorem C117_flag : FTO_VMA_ELF &&& 0x4 = 0 ∧ FTO_VMA_ELF &&& 0x8 = 0 ∧ loadsSyms FTO_VMA_ELF = true ∧
    (openFiles FTO_VMA_ELF (exEnv true) exVmas ⟨[], false, none, none⟩).map (·.2.files) = some [0] := by
  decide +kernel

/-- **Finding on C117**: if memory runs out while the headers of a mapping are read, the process is
opened all the same, and closing it uses memory that was freed. -/
theorem C117_no_memory : ((openFiles FTO_VMA_ELF (exEnv false) exVmas ⟨[], false, none, none⟩).map
    fun r => (closeFiles FTO_VMA_ELF r.1 r.2.files).isNone) = some true := by
  decide +kernel

/-- **Finding on C118**: an executable below /etc is never looked at, and shown as not PIE. -/
theorem C118_etc : (openFiles FTO_VMA_ELF (exEnv true)
      [⟨{ exArea 0x400000 with name := lit "/etc/tiny" }, none⟩] ⟨[], false, none, none⟩).map (·.2.pie) = some false ∧
    (parseEhdr (exMem.read 0x400000 64)).type = 3 := by
  decide +kernel

/-- **Finding on C118**: a later mapping of the executable whose first bytes look like an ELF header
(a page of data with an embedded program) decides instead of the header of the executable. -/
theorem C118_last_wins : (openFiles FTO_VMA_ELF
      { exEnv true with rd := fun a n => .got ((exMem.write 0x401000 (exHdr.bytes ++ ElfHdr.table (exSegs 0x400000))).read a n) }
      exVmas ⟨[], false, none, none⟩).map (·.2.pie) = some false := by
  decide +kernel

example : ∃ w, Patch.runHist Patch.exWorld [.patch Patch.allOk Patch.exEnv, .patch Patch.allOk Patch.exEnv2] = some w ∧
    w.maps.length = 2 ∧ SessionSpec.general (text "a") (text "/a") 7 true w.maps.length =
      text "Command: a                               \nExe:     /a                              \nPid:     7                               \nPIE:     YES                             \nPatched: YES (num 2)\n" := by
  refine ⟨_, rfl, rfl, ?_⟩
  decide +kernel

end Ulp.SessionFiles
