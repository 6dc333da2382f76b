/-
C109: the disassembly of memory of a process.
-/
import Verif.Model.Disasm
import Verif.Spec.Disasm
import Verif.Props.Listing
import Verif.Props.TaskList
import Verif.Props.Str
namespace Ulp.Disasm
open Ulp.Load (lit hex2)
open Ulp.Listing (leftCol lx lx_eq)
open Ulp.TaskList (dec_eq)
open Ulp.MapKind (text)
open Ulp.ProcMaps (hex digit decimal)
open Ulp.DisasmSpec
open Ulp.Text (ByteText NumberChar)
open Ulp.Str (numberChar_ranges)

/-- What capstone promises: the instructions are those at the beginning of the code, one behind
the other from this address on. -/
inductive Decodes : List Byte → BitVec 64 → List Insn → List Piece → Prop where
  | stop (code : List Byte) (a : BitVec 64) : Decodes code a [] []
  | insn (b rest mn ops : List Byte) (a : BitVec 64) (l : List Insn) (ps : List Piece) :
      b ≠ [] → Decodes rest (a + BitVec.ofNat 64 b.length) l ps →
      Decodes (b ++ rest) a (⟨a, b, mn, ops⟩ :: l) (⟨b, mn, ops⟩ :: ps)

/-- What is shown is the beginning of the code. -/
theorem Decodes.prefix {code : List Byte} {a : BitVec 64} {l : List Insn} {ps : List Piece}
    (h : Decodes code a l ps) : shown ps <+: code := by
  induction h with
  | stop code a => exact List.nil_prefix
  | insn b rest mn ops a l ps hb h ih =>
    exact (List.prefix_append_right_inj b).mpr ih

theorem Decodes.length {code : List Byte} {a : BitVec 64} {l : List Insn} {ps : List Piece}
    (h : Decodes code a l ps) : l.length = ps.length := by
  induction h with
  | stop => rfl
  | insn _ _ _ _ _ _ _ _ _ ih => simp [ih]

theorem maxSize_ge (l : List Insn) : ∀ m : Nat, m ≤ maxSize m l ∧
    (∀ i ∈ l, i.bytes.length ≤ maxSize m l) ∧
    (maxSize m l = m ∨ ∃ i ∈ l, i.bytes.length = maxSize m l) := by
  induction l with
  | nil => intro m; exact ⟨Nat.le_refl _, by simp, Or.inl rfl⟩
  | cons i l ih =>
    intro m
    rw [maxSize]
    obtain ⟨h1, h2, h3⟩ := ih (if m < i.bytes.length then i.bytes.length else m)
    by_cases hm : m < i.bytes.length
    · rw [if_pos hm] at h1 h2 h3 ⊢
      refine ⟨by omega, ?_, ?_⟩
      · intro j hj
        rcases List.mem_cons.mp hj with rfl | hj
        · exact h1
        · exact h2 j hj
      · rcases h3 with h3 | ⟨j, hj, h3⟩
        · exact Or.inr ⟨i, by simp, h3.symm⟩
        · exact Or.inr ⟨j, by simp [hj], h3⟩
    · rw [if_neg hm] at h1 h2 h3 ⊢
      refine ⟨h1, ?_, ?_⟩
      · intro j hj
        rcases List.mem_cons.mp hj with rfl | hj
        · omega
        · exact h2 j hj
      · rcases h3 with h3 | ⟨j, hj, h3⟩
        · exact Or.inl h3
        · exact Or.inr ⟨j, by simp [hj], h3⟩

theorem Decodes.mem {code : List Byte} {a : BitVec 64} {l : List Insn} {ps : List Piece}
    (h : Decodes code a l ps) : ps.map Piece.bytes = l.map Insn.bytes ∧ ∀ i ∈ l, i.bytes ≠ [] := by
  induction h with
  | stop => simp
  | insn b _ _ _ _ _ _ hb _ ih =>
    refine ⟨by simp [ih.1], ?_⟩
    intro i hi
    rcases List.mem_cons.mp hi with rfl | hi
    · exact hb
    · exact ih.2 i hi

theorem widest {code : List Byte} {a : BitVec 64} {l : List Insn} {ps : List Piece}
    (h : Decodes code a l ps) (hl : ps ≠ []) : Widest (maxSize 0 l) ps := by
  obtain ⟨-, h2, h3⟩ := maxSize_ge l 0
  obtain ⟨hm, hne⟩ := h.mem
  have key : ∀ b : List Byte, (∃ p ∈ ps, p.bytes = b) ↔ ∃ i ∈ l, i.bytes = b := by
    intro b
    rw [← List.mem_map, ← List.mem_map, hm]
  constructor
  · intro p hp
    obtain ⟨i, hi, he⟩ := (key p.bytes).mp ⟨p, hp, rfl⟩
    rw [← he]; exact h2 i hi
  · have hll : l ≠ [] := by
      have := h.length
      intro e; rw [e] at this
      exact hl (List.length_eq_zero_iff.mp this.symm)
    rcases h3 with h3 | ⟨i, hi, h3⟩
    · obtain ⟨i, l', rfl⟩ := List.exists_cons_of_ne_nil hll
      have := h2 i (by simp)
      have h0 : i.bytes.length ≠ 0 := fun e => hne i (by simp) (List.length_eq_zero_iff.mp e)
      omega
    · obtain ⟨p, hp, he⟩ := (key i.bytes).mpr ⟨i, hi, rfl⟩
      exact ⟨p, hp, by rw [he, h3]⟩

theorem hex2_eq (b : Byte) : hex2 b = byteText b := rfl

theorem bytes_length (l : List Byte) : (l.flatMap fun c => hex2 c ++ lit " ").length = 3 * l.length := by
  induction l with
  | nil => rfl
  | cons b l ih =>
    rw [List.flatMap_cons, List.length_append, ih, List.length_cons]
    have : (hex2 b ++ lit " ").length = 3 := rfl
    omega

theorem line_eq (pre : List Byte) (w : Nat) (a : BitVec 64) (b mn ops : List Byte)
    (hb : b.length ≤ w) :
    insnLine pre (w * 3) ⟨a, b, mn, ops⟩ =
      pre ++ text "0x" ++ hex a.toNat ++ text ": " ++
      ListingSpec.left (3 * w) (b.flatMap fun b => byteText b ++ text " ") ++ text " " ++ [9] ++
      mn ++ [9] ++ ops ++ [10] := by
  have e : (printBytes b).1 ++ leftCol (w * 3 - (printBytes b).2) [] =
      ListingSpec.left (3 * w) (b.flatMap fun b => byteText b ++ text " ") := by
    show (b.flatMap fun c => hex2 c ++ lit " ") ++ ([] ++ List.replicate _ 32) = _
    rw [ListingSpec.left, ListingSpec.spaces]
    have h1 : (b.flatMap fun b => byteText b ++ text " ").length = 3 * b.length := bytes_length b
    rw [h1]
    show (b.flatMap fun c => hex2 c ++ lit " ") ++
      ([] ++ List.replicate (w * 3 - (b.flatMap fun c => hex2 c ++ lit " ").length - 0) 32) = _
    rw [bytes_length, List.nil_append, Nat.sub_zero, Nat.mul_comm w 3]
    rfl
  rw [insnLine, ← e, lx_eq]
  simp only [List.append_assoc]
  rfl

theorem rows_eq (pre : List Byte) (w : Nat) {code : List Byte} {a : BitVec 64} {l : List Insn}
    {ps : List Piece} (h : Decodes code a l ps) (hw : ∀ p ∈ ps, p.bytes.length ≤ w) :
    ∀ last : Insn, l.getLast? = some last →
    l.flatMap (insnLine pre (w * 3)) ++ pre ++ lit "0x" ++
      lx (last.address + BitVec.ofNat 64 last.bytes.length).toNat ++ lit ":\n" =
    rows pre w a ps := by
  induction h with
  | stop => intro last h; cases h
  | insn b rest mn ops a l ps hb h ih =>
    intro last hlast
    rw [List.flatMap_cons, line_eq pre w a b mn ops (hw ⟨b, mn, ops⟩ (by simp)), rows]
    cases l with
    | nil =>
      have : last = ⟨a, b, mn, ops⟩ := by simpa using hlast.symm
      subst this
      cases h
      rw [rows, lx_eq]
      simp only [List.flatMap_nil, List.append_assoc, List.nil_append]
      rfl
    | cons i l =>
      have := ih (fun p hp => hw p (by simp [hp])) last (by simpa using hlast)
      rw [← this]
      simp only [List.append_assoc]

/-- The first line of a listing. -/
def head (pre : List Byte) (ptr : BitVec 64) (size count : Nat) : List Byte :=
  pre ++ text "Disasm: code addr 0x" ++ hex ptr.toNat ++ text ", size " ++ decimal size ++
    text ", count " ++ decimal count ++ [10]

/-- **C109.**  The listing of code: if the disassembler finds instructions at the beginning of
the code, each is shown with its address, counted from `base` on, its bytes and its text, in
columns of the same width; the last line has the address behind.  Otherwise an error is
returned. -/
theorem C109_listing (lib : Lib) (arch : Int) (pfx : Option (List Byte)) (base ptr : BitVec 64)
    (code : List Byte) (pre : List Byte) (hpre : pre = (match pfx with | some p => p | none => []))
    (hb : base ≠ 0) (ha : arch = 1 ∨ arch = 2) (hop : lib.opens arch = true) (ps : List Piece)
    (hd : Decodes code base (lib.disasm arch code base) ps) :
    (ps ≠ [] → ∃ w : Nat, Widest w ps ∧ fdisasm lib pfx arch base ptr code =
      (0, head pre ptr code.length ps.length ++ rows pre w base ps)) ∧
    (ps = [] → fdisasm lib pfx arch base ptr code = (-22, [])) := by
  have hna : ¬ (arch ≠ DISASM_ARCH_X86_64 ∧ arch ≠ DISASM_ARCH_AARCH64) := by
    rintro ⟨h1, h2⟩
    rcases ha with h | h
    · exact h1 h
    · exact h2 h
  have hp : orEmpty pfx = pre := by subst hpre; cases pfx <;> rfl
  have hlen := hd.length
  unfold fdisasm
  simp only [if_neg hb, if_neg hna, hop, Bool.true_eq_false, if_false]
  constructor
  · intro hps
    cases hl : (lib.disasm arch code base).getLast? with
    | none =>
      rw [List.getLast?_eq_none_iff] at hl
      rw [hl] at hlen
      exact absurd (List.length_eq_zero_iff.mp hlen.symm) hps
    | some last =>
      have hw := widest hd hps
      refine ⟨_, hw, ?_⟩
      rw [← rows_eq pre _ hd hw.1 last hl, hp, head, hlen, lx_eq, dec_eq, dec_eq]
      simp only [List.append_assoc]
      rfl
  · intro hps
    subst hps
    have : lib.disasm arch code base = [] := List.length_eq_zero_iff.mp hlen
    rw [this]
    rfl

/-- The bytes of the memory, in one line. -/
def hexLine (mem : List Byte) : List Byte :=
  text "Hex: " ++ mem.flatMap (fun b => text "0x" ++ byteText b ++ text " ") ++ [10]

/-- **C109.**  What `ultask` shows for memory of a process that can be read: its bytes, and the
instructions in it.  The addresses are not those of the process but those of the buffer `ptr`
(see `C109_host_addresses`), so this is a part of the claim only. -/
theorem C109_run_partial (lib : Lib) (arch : Int) (addr size ptr : BitVec 64) (mem got : List Byte)
    (ha0 : addr ≠ 0) (hs0 : size ≠ 0) (hp0 : ptr ≠ 0) (hm : mem.length = size.toNat)
    (hg : got.length = size.toNat) (ha : arch = 1 ∨ arch = 2) (hop : lib.opens arch = true)
    (ps : List Piece) (hps : ps ≠ []) (hd : Decodes got ptr (lib.disasm arch got ptr) ps) :
    ∃ w : Nat, Widest w ps ∧ runDisasm lib arch addr size ptr mem (some got) =
      (0, hexLine got ++ head [] ptr size.toNat ps.length ++ rows [] w ptr ps) := by
  obtain ⟨w, hw, h⟩ := (C109_listing lib arch none ptr ptr got [] rfl hp0 ha hop ps hd).1 hps
  refine ⟨w, hw, ?_⟩
  unfold runDisasm; rw [if_neg (by rintro (h | h) <;> contradiction)]
  cases got with
  | nil =>
    exact absurd (BitVec.eq_of_toNat_eq (by simpa using hg.symm)) hs0
  | cons b r =>
    have e : mem.drop (r.length + 1) = [] := List.drop_of_length_le (by
      rw [List.length_cons] at hg; omega)
    dsimp only
    rw [e, List.append_nil, fdisasmArch]
    have hz : fdisasm lib none arch 0 ptr (b :: r) = fdisasm lib none arch ptr ptr (b :: r) := by
      unfold fdisasm
      simp only [if_true, ite_self]
    rw [hz, h, hg]
    dsimp only
    congr 1
    rw [List.append_assoc (hexLine _)]
    rfl

/-- **C109.**  Memory of a process that cannot be read is an error, and nothing is shown. -/
theorem C109_error (lib : Lib) (arch : Int) (addr size ptr : BitVec 64) (mem : List Byte)
    (ha0 : addr ≠ 0) (hs0 : size ≠ 0) :
    runDisasm lib arch addr size ptr mem none = (-12, []) ∧
    runDisasm lib arch addr size ptr mem (some []) = (-12, []) := by
  constructor <;> unfold runDisasm <;> rw [if_neg (by rintro (h | h) <;> contradiction)]

/-- **C109.**  An architecture that the disassembler does not know is an error, and nothing is shown;
if no address or no size is given nothing is asked for, and that is no error. -/
theorem C109_nothing (lib : Lib) (arch : Int) (pfx : Option (List Byte)) (base ptr : BitVec 64)
    (code mem : List Byte) (read : Option (List Byte)) (addr size : BitVec 64) :
    (lib.opens arch = false → fdisasm lib pfx arch base ptr code = (-22, [])) ∧
    (addr = 0 ∨ size = 0 → runDisasm lib arch addr size ptr mem read = (0, [])) := by
  refine ⟨fun h => ?_, fun h => ?_⟩
  · unfold fdisasm
    dsimp only
    by_cases ha : arch ≠ DISASM_ARCH_X86_64 ∧ arch ≠ DISASM_ARCH_AARCH64
    · rw [if_pos ha]
    · rw [if_neg ha, if_pos h]
  · unfold runDisasm
    rw [if_pos h]

theorem isDig_ne_colon {c : Byte} (h : MapsFile.isDig 16 c = true) : c ≠ 58 := by
  rintro rfl; revert h; decide

theorem hex_inj {a b : Nat} {s t : List Byte} (h : hex a ++ 58 :: s = hex b ++ 58 :: t) : a = b := by
  have key : ∀ (x : Nat) (s : List Byte), (hex x ++ 58 :: s).takeWhile (fun c => decide (c ≠ 58)) = hex x := by
    intro x s
    rw [List.takeWhile_append_of_pos (fun c hc => decide_eq_true
      (isDig_ne_colon ((MapsFile.hex_ok x).1 c hc)))]
    simp
  have h1 := congrArg (List.takeWhile fun c => decide (c ≠ 58)) h
  rw [key, key] at h1
  rw [← (MapsFile.hex_ok a).2.2, ← (MapsFile.hex_ok b).2.2, h1]

/-- Listings of two different addresses are different. -/
theorem rows_ne (w w' : Nat) (a b : BitVec 64) (ps qs : List Piece) (hab : a ≠ b) :
    rows [] w a ps ≠ rows [] w' b qs := by
  have key : ∀ (w : Nat) (a : BitVec 64) (ps : List Piece),
      ∃ s : List Byte, rows [] w a ps = text "0x" ++ (hex a.toNat ++ 58 :: s) := by
    intro w a ps
    cases ps with
    | nil => exact ⟨[10], by rw [rows]; simp only [List.nil_append, List.append_assoc]; rfl⟩
    | cons p l =>
      rw [rows]
      refine ⟨32 :: (ListingSpec.left (3 * w) (p.bytes.flatMap fun b => byteText b ++ text " ") ++
        (text " " ++ ([9] ++ (p.mnemonic ++ ([9] ++ (p.operands ++ ([10] ++
          rows [] w (a + BitVec.ofNat 64 p.bytes.length) l))))))), ?_⟩
      simp only [List.nil_append, List.append_assoc]
      rfl
  intro h
  obtain ⟨s, h1⟩ := key w a ps
  obtain ⟨t, h2⟩ := key w' b qs
  rw [h1, h2] at h
  exact hab (BitVec.eq_of_toNat_eq (hex_inj (List.append_cancel_left h)))

/-- **Finding.**  The addresses that `ultask` shows are never those of the process, unless its
buffer happens to be at the same address. -/
theorem C109_host_addresses (lib : Lib) (arch : Int) (addr size ptr : BitVec 64)
    (mem got : List Byte) (ha0 : addr ≠ 0) (hs0 : size ≠ 0) (hp0 : ptr ≠ 0)
    (hm : mem.length = size.toNat) (hg : got.length = size.toNat) (ha : arch = 1 ∨ arch = 2)
    (hop : lib.opens arch = true) (ps : List Piece) (hps : ps ≠ [])
    (hd : Decodes got ptr (lib.disasm arch got ptr) ps) (hne : ptr ≠ addr) :
    ∃ t : List Byte, (runDisasm lib arch addr size ptr mem (some got)).2 =
        hexLine got ++ head [] ptr size.toNat ps.length ++ t ∧
      ∀ (w : Nat) (qs : List Piece), t ≠ rows [] w addr qs := by
  obtain ⟨w, -, h⟩ := C109_run_partial lib arch addr size ptr mem got ha0 hs0 hp0 hm hg ha hop ps hps hd
  exact ⟨rows [] w ptr ps, by rw [h], fun w' qs => rows_ne w w' ptr addr ps qs hne⟩

/-- **Finding.**  If only a part of the memory could be read, what was in the buffer before is
shown as the rest. -/
theorem C109_unread (lib : Lib) (arch : Int) (addr size ptr : BitVec 64) (mem got : List Byte)
    (ha0 : addr ≠ 0) (hs0 : size ≠ 0) (hg : got ≠ []) :
    ∃ t : List Byte, (runDisasm lib arch addr size ptr mem (some got)).2 =
      hexLine (got ++ mem.drop got.length) ++ t := by
  unfold runDisasm; rw [if_neg (by rintro (h | h) <;> contradiction)]
  cases got with
  | nil => exact absurd rfl hg
  | cons b r => exact ⟨_, rfl⟩

theorem fmembytes_eq (mem : List Byte) : fmembytes mem = Str.bytesText 44 mem ++ [10] := by
  fun_induction fmembytes mem with
  | case1 => rfl
  | case2 b => rfl
  | case3 b c l ih =>
    rw [ih, Str.bytesText]
    simp only [List.append_assoc, List.cons_append]
    rfl

/-- **C109.**  The line of bytes that is shown before and after a jump is written lists these
bytes: without its end it is read back as the same bytes. -/
theorem C109_bytes (mem : List Byte) (L : Nat) (hL : 1 ≤ L) (hfit : mem.length ≤ L) :
    ∃ t : List Byte, fmembytes mem = t ++ [10] ∧ (10 : Byte) ∉ t ∧ ByteText 44 t mem ∧
      Str.strbytes2mem t L 44 = (mem, some mem.length) := by
  have hs : ¬ NumberChar 44 := by rw [numberChar_ranges]; decide
  have hb : ByteText 44 (Str.bytesText 44 mem) mem :=
    ⟨_, Str.bytesText_pieces hs mem, Str.map_fmt_hexBytes mem⟩
  refine ⟨_, fmembytes_eq mem, ?_, hb, Str.C35_reads_bytes (by decide) hs hb hL hfit⟩
  intro hc
  rcases (Str.bytesText_pieces hs mem).mem 10 hc with h | ⟨p, hp, h⟩
  · revert h; decide
  · have := Str.hexBytes_chars (Str.map_fmt_hexBytes mem) p hp 10 h
    rw [numberChar_ranges] at this
    revert this; decide

/-- A disassembler that knows `90` and `0f 05`. -/
def exLib : Lib where
  opens _ := true
  disasm _ code a := match code with
    | [0x90, 0x0f, 0x05] => [⟨a, [0x90], lit "nop", []⟩, ⟨a + 1, [0x0f, 0x05], lit "syscall", []⟩]
    | _ => []

theorem ex_decodes (a : BitVec 64) : Decodes [0x90, 0x0f, 0x05] a (exLib.disasm 1 [0x90, 0x0f, 0x05] a)
    [⟨[0x90], lit "nop", []⟩, ⟨[0x0f, 0x05], lit "syscall", []⟩] :=
  .insn [0x90] [0x0f, 0x05] _ _ _ _ _ (by simp)
    (.insn [0x0f, 0x05] [] _ _ _ _ _ (by simp) (.stop _ _))

example : ∃ w : Nat, Widest w [⟨[0x90], lit "nop", []⟩, ⟨[0x0f, 0x05], lit "syscall", []⟩] ∧
    runDisasm exLib 1 0x401000 3 0x7000 [1, 2, 3] (some [0x90, 0x0f, 0x05]) = (0,
      hexLine [0x90, 0x0f, 0x05] ++ head [] 0x7000 3 2 ++
      rows [] w 0x7000 [⟨[0x90], lit "nop", []⟩, ⟨[0x0f, 0x05], lit "syscall", []⟩]) :=
  C109_run_partial exLib 1 0x401000 3 0x7000 [1, 2, 3] [0x90, 0x0f, 0x05] (by decide) (by decide)
    (by decide) rfl rfl (Or.inl rfl) rfl _ (by simp) (ex_decodes 0x7000)

example : rows [] 2 0x7000 [⟨[0x90], lit "nop", []⟩, ⟨[0x0f, 0x05], lit "syscall", []⟩] =
    lit "0x7000: 90     \tnop\t\n0x7001: 0f 05  \tsyscall\t\n0x7003:\n" := by decide +kernel

end Ulp.Disasm
