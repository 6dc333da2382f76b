/-
C108: the instructions that take the place of a call do nothing.
-/
import Verif.Model.Nops
import Verif.Spec.X86Nop
import Verif.Proof.Mem
namespace Ulp.Nops
open Ulp.X86 (Cpu nopLen nopStep nopSteps)

theorem read_write_prefix (m : Mem) (a : Addr) (bs : List Byte) (n : Nat) (h : bs.length ≤ n)
    (hn : n < 2 ^ 64) :
    ∃ rest : List Byte, (m.write a bs).read a n = bs ++ rest := by
  refine ⟨((m.write a bs).read a n).drop bs.length, ?_⟩
  have h1 : ((m.write a bs).read a n).take bs.length = bs := by
    apply List.ext_getElem
    · simp; omega
    · intro i h1 h2
      rw [List.getElem_take, Mem.read_getElem, Mem.write_in _ _ _ _ (by simpa using h2) (by omega)]
  conv => lhs; rw [← List.take_append_drop bs.length ((m.write a bs).read a n), h1]

/-- The bytes of these instructions at a place of the memory: `k` bytes, executed in `n`
steps. -/
def DoesNothing (bytes : List Byte) (k n : Nat) : Prop :=
  k ≤ bytes.length ∧ ∀ (s : Cpu) (m : Mem), s.mem = m.write s.rip (bytes.take k) →
    nopSteps n s = some { s with rip := s.rip + BitVec.ofNat 64 k }

/-- One instruction, whatever the bytes behind it are. -/
theorem single (bytes : List Byte) (k : Nat) (hk : k ≤ bytes.length) (hk2 : k ≤ 15)
    (h : ∀ rest : List Byte, nopLen (bytes.take k ++ rest) = some k ∨
      (bytes.take k ++ rest).length < 15) : DoesNothing bytes k 1 := by
  refine ⟨hk, fun s m hm => ?_⟩
  obtain ⟨rest, hr⟩ := read_write_prefix m s.rip (bytes.take k) 15 (by simp; omega) (by omega)
  have hl : ((m.write s.rip (bytes.take k)).read s.rip 15).length = 15 := by simp
  have hk' : nopLen (s.mem.read s.rip 15) = some k := by
    rw [hm, hr]
    rcases h rest with h | h
    · exact h
    · rw [hr] at hl; omega
  simp only [nopSteps, nopStep, hk', if_pos hk2, Option.bind_some]

theorem read_write_at (m : Mem) (a : Addr) (bs : List Byte) (j n : Nat) (h : bs.length ≤ j + n)
    (hn : j + n < 2 ^ 64) :
    ∃ rest : List Byte, (m.write a bs).read (a + BitVec.ofNat 64 j) n = bs.drop j ++ rest := by
  refine ⟨((m.write a bs).read (a + BitVec.ofNat 64 j) n).drop (bs.drop j).length, ?_⟩
  have h1 : ((m.write a bs).read (a + BitVec.ofNat 64 j) n).take (bs.drop j).length = bs.drop j := by
    apply List.ext_getElem
    · simp; omega
    · intro i h1 h2
      have h3 : j + i < bs.length := by rw [List.length_drop] at h2; omega
      have e : a + BitVec.ofNat 64 j + BitVec.ofNat 64 i = a + BitVec.ofNat 64 (j + i) := by
        rw [BitVec.ofNat_add, BitVec.add_assoc]
      rw [List.getElem_take, Mem.read_getElem, e, Mem.write_in _ _ _ _ h3 (by omega),
        List.getElem_drop]
  conv =>
    lhs
    rw [← List.take_append_drop (bs.drop j).length
      ((m.write a bs).read (a + BitVec.ofNat 64 j) n), h1]

/-- Two instructions. -/
theorem double (bytes : List Byte) (j k : Nat) (hk : k ≤ bytes.length) (hj : j ≤ k) (hk2 : k ≤ 15)
    (h1 : ∀ rest : List Byte, nopLen (bytes.take k ++ rest) = some j ∨
      (bytes.take k ++ rest).length < 15)
    (h2 : ∀ rest : List Byte, nopLen ((bytes.take k).drop j ++ rest) = some (k - j) ∨
      ((bytes.take k).drop j ++ rest).length < 15) : DoesNothing bytes k 2 := by
  refine ⟨hk, fun s m hm => ?_⟩
  obtain ⟨rest, hr⟩ := read_write_prefix m s.rip (bytes.take k) 15 (by simp; omega) (by omega)
  have hl : ((m.write s.rip (bytes.take k)).read s.rip 15).length = 15 := by simp
  have e1 : nopLen (s.mem.read s.rip 15) = some j := by
    rw [hm, hr]
    rcases h1 rest with h | h
    · exact h
    · rw [hr] at hl; omega
  obtain ⟨rest2, hr2⟩ := read_write_at m s.rip (bytes.take k) j 15 (by simp; omega) (by omega)
  have hl2 : ((m.write s.rip (bytes.take k)).read (s.rip + BitVec.ofNat 64 j) 15).length = 15 := by
    simp
  have e2 : nopLen (s.mem.read (s.rip + BitVec.ofNat 64 j) 15) = some (k - j) := by
    rw [hm, hr2]
    rcases h2 rest2 with h | h
    · exact h
    · rw [hr2] at hl2; omega
  have e3 : s.rip + BitVec.ofNat 64 j + BitVec.ofNat 64 (k - j) = s.rip + BitVec.ofNat 64 k := by
    rw [BitVec.add_assoc, ← BitVec.ofNat_add, Nat.add_sub_cancel' hj]
  simp only [nopSteps, nopStep, e1, if_pos (show j ≤ 15 by omega), Option.bind_some, e2,
    if_pos (show k - j ≤ 15 by omega), e3]

/-- **C108.**  For every length from 1 to 8 there is an instruction of exactly this length, and
wherever it is written it does nothing, in one step, but move on to the next instruction. -/
theorem C108_ideal (k : Nat) (h1 : 1 ≤ k) (h8 : k ≤ 8) :
    ∃ bytes : List Byte, idealNops k = some bytes ∧ DoesNothing bytes k 1 := by
  obtain rfl | rfl | rfl | rfl | rfl | rfl | rfl | rfl :
    k = 1 ∨ k = 2 ∨ k = 3 ∨ k = 4 ∨ k = 5 ∨ k = 6 ∨ k = 7 ∨ k = 8 := by omega
  all_goals
    refine ⟨_, rfl, single _ _ (by decide) (by decide) fun rest => ?_⟩
  case inr.inr.inl =>
    cases rest with
    | nil => exact Or.inr (by decide)
    | cons b rest => exact Or.inl rfl
  all_goals exact Or.inl rfl

/-- **C108.**  What takes the place of a call to be switched off is one instruction of five bytes
that does nothing. -/
theorem C108_ftrace :
    ∃ bytes : List Byte, ftraceNopReplace = some bytes ∧ DoesNothing bytes 5 1 :=
  ⟨_, rfl, single _ _ (by decide) (by decide) fun _ => Or.inl rfl⟩

/-- **C108.**  The table for older processors: up to four bytes, and for the entry behind the
last, one instruction; from five bytes on, two instructions. -/
theorem C108_k8 (k : Nat) (h1 : 1 ≤ k) (h8 : k ≤ 8) :
    (∃ bytes : List Byte, entry k8_nops k8nops k = some bytes ∧
      DoesNothing bytes k (if k ≤ 4 then 1 else 2)) ∧
    ∃ bytes : List Byte, entry k8_nops k8nops NOP_ATOMIC5 = some bytes ∧ DoesNothing bytes 5 1 := by
  refine ⟨?_, _, rfl, single _ _ (by decide) (by decide) fun _ => Or.inl rfl⟩
  obtain rfl | rfl | rfl | rfl | rfl | rfl | rfl | rfl :
    k = 1 ∨ k = 2 ∨ k = 3 ∨ k = 4 ∨ k = 5 ∨ k = 6 ∨ k = 7 ∨ k = 8 := by omega
  · exact ⟨_, rfl, single _ _ (by decide) (by decide) fun _ => Or.inl rfl⟩
  · exact ⟨_, rfl, single _ _ (by decide) (by decide) fun _ => Or.inl rfl⟩
  · exact ⟨_, rfl, single _ _ (by decide) (by decide) fun _ => Or.inl rfl⟩
  · exact ⟨_, rfl, single _ _ (by decide) (by decide) fun _ => Or.inl rfl⟩
  · exact ⟨_, rfl, double _ 3 _ (by decide) (by decide) (by decide) (fun _ => Or.inl rfl)
      fun _ => Or.inl rfl⟩
  · exact ⟨_, rfl, double _ 3 _ (by decide) (by decide) (by decide) (fun _ => Or.inl rfl)
      fun _ => Or.inl rfl⟩
  · exact ⟨_, rfl, double _ 4 _ (by decide) (by decide) (by decide) (fun _ => Or.inl rfl)
      fun _ => Or.inl rfl⟩
  · exact ⟨_, rfl, double _ 4 _ (by decide) (by decide) (by decide) (fun _ => Or.inl rfl)
      fun _ => Or.inl rfl⟩

/-- **C108.**  There is nothing of no bytes, and nothing behind the ten entries. -/
theorem C108_none : idealNops 0 = none ∧ ∀ k, 10 ≤ k → idealNops k = none := by
  refine ⟨rfl, fun k h => ?_⟩
  have : p6_nops[k]? = none := List.getElem?_eq_none h
  simp only [idealNops, entry, this]

/-- The call at 0x1000 is switched off: the processor goes on at 0x1005. -/
example : ∃ s : Cpu, s.rip = 0x1000 ∧
    nopSteps 1 s = some { s with rip := 0x1005 } := by
  obtain ⟨b, -, -, h⟩ := C108_ftrace
  exact ⟨⟨0x1000, fun _ => 7, 0, Mem.write (fun _ => 0xcc) 0x1000 (b.take 5)⟩, rfl, h _ _ rfl⟩

end Ulp.Nops
