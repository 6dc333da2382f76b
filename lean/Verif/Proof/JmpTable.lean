import Verif.Proof.Mem
import Verif.Model.JmpTable
import Verif.Spec.X86
import Verif.Spec.A64
namespace Ulp

theorem jmpEntry_length (arch : Arch) (p : Addr) : (jmpEntry arch p).length = 16 := by
  simp [jmpEntry]

/-- Byte `i` of the installed entry, for the first word. -/
theorem install_lo (m : Mem) (arch : Arch) (t p : Addr) (i : Nat) (h : i < 8) :
    installEntry m arch t p (t + BitVec.ofNat 64 i) =
      (archJmpTableJmp arch >>> (8*i)).setWidth 8 := by
  unfold installEntry
  rw [Mem.write_in _ _ _ i (by rw [jmpEntry_length]; omega) (by omega)]
  simp only [jmpEntry]
  rw [List.getElem_append_left (by simpa using h)]
  simp [leBytes]

/-- Byte `8+i` of the installed entry. -/
theorem install_hi (m : Mem) (arch : Arch) (t p : Addr) (i : Nat) (h : i < 8) :
    installEntry m arch t p (t + BitVec.ofNat 64 (8 + i)) = (p >>> (8*i)).setWidth 8 := by
  unfold installEntry
  rw [Mem.write_in _ _ _ (8+i) (by rw [jmpEntry_length]; omega) (by omega)]
  simp only [jmpEntry]
  rw [List.getElem_append_right (by simp)]
  simp [leBytes]

theorem bytes_join (p : BitVec 64) :
    ((((p >>> 56).setWidth 8 : BitVec 8) ++ ((p >>> 48).setWidth 8 : BitVec 8) ++
      ((p >>> 40).setWidth 8 : BitVec 8) ++ ((p >>> 32).setWidth 8 : BitVec 8)) ++
     (((p >>> 24).setWidth 8 : BitVec 8) ++ ((p >>> 16).setWidth 8 : BitVec 8) ++
      ((p >>> 8).setWidth 8 : BitVec 8) ++ ((p >>> 0).setWidth 8 : BitVec 8)) : BitVec 64) = p := by
  ext i hi
  simp only [BitVec.getElem_append, BitVec.getElem_setWidth, BitVec.getLsbD_ushiftRight]
  repeat' split
  all_goals (rw [← BitVec.getLsbD_eq_getElem]; congr 1; omega)

theorem a64_quad_entry (m : Mem) (arch : Arch) (t p : Addr) :
    A64.quad (installEntry m arch t p) (t + 8) = p := by
  have h : ∀ i, i < 8 → installEntry m arch t p (t + BitVec.ofNat 64 (8 + i)) = (p >>> (8*i)).setWidth 8 :=
    install_hi m arch t p
  have h0 := h 0 (by omega); have h1 := h 1 (by omega); have h2 := h 2 (by omega)
  have h3 := h 3 (by omega); have h4 := h 4 (by omega); have h5 := h 5 (by omega)
  have h6 := h 6 (by omega); have h7 := h 7 (by omega)
  simp only [A64.quad, A64.fetch, BitVec.add_assoc, BitVec.reduceAdd, BitVec.ofNat_eq_ofNat, Nat.reduceAdd, Nat.reduceMul] at *
  rw [h0, h1, h2, h3, h4, h5, h6, h7]
  exact bytes_join p

theorem x86_quad_entry (m : Mem) (arch : Arch) (t p : Addr) :
    X86.quad (installEntry m arch t p) (t + 8) = p := by
  have := a64_quad_entry m arch t p
  simpa only [X86.quad, X86.imm32, A64.quad, A64.fetch] using this

end Ulp
