/- Lemmas about byte memory. -/
import Verif.Model.Mem
namespace Ulp

theorem Mem.write_apply (m : Mem) (a : Addr) (bs : List Byte) (x : Addr) :
    m.write a bs x = (bs[(x - a).toNat]?).getD (m x) := by
  unfold Mem.write; cases bs[(x - a).toNat]? <;> rfl

theorem add_ofNat_sub_toNat (a : Addr) (i : Nat) (h : i < 2^64) :
    (a + BitVec.ofNat 64 i - a).toNat = i := by
  have : a + BitVec.ofNat 64 i - a = BitVec.ofNat 64 i := by
    rw [BitVec.add_comm, BitVec.add_sub_cancel]
  rw [this, BitVec.toNat_ofNat, Nat.mod_eq_of_lt h]

theorem addr_eq_add_sub (a x : Addr) : x = a + BitVec.ofNat 64 (x - a).toNat := by
  rw [BitVec.ofNat_toNat, BitVec.setWidth_eq, BitVec.add_comm, BitVec.sub_add_cancel]

/-- Bytes inside the written range. -/
theorem Mem.write_in (m : Mem) (a : Addr) (bs : List Byte) (i : Nat)
    (hi : i < bs.length) (h : i < 2^64) :
    m.write a bs (a + BitVec.ofNat 64 i) = bs[i] := by
  rw [Mem.write_apply, add_ofNat_sub_toNat a i h]; simp [hi]

/-- Bytes outside the written range. -/
theorem Mem.write_out (m : Mem) (a : Addr) (bs : List Byte) (x : Addr)
    (h : bs.length ≤ (x - a).toNat) : m.write a bs x = m x := by
  rw [Mem.write_apply, List.getElem?_eq_none h]; rfl

@[simp] theorem Mem.read_length (m : Mem) (a : Addr) (n : Nat) : (m.read a n).length = n := by
  simp [Mem.read]

theorem Mem.read_getElem? (m : Mem) (a : Addr) (n i : Nat) :
    (m.read a n)[i]? = if i < n then some (m (a + BitVec.ofNat 64 i)) else none := by
  simp only [Mem.read, List.getElem?_map]
  split
  · next h => simp [h]
  · next h => simp [Nat.le_of_not_lt h]

@[simp] theorem Mem.read_getElem (m : Mem) (a : Addr) (n i : Nat) (h : i < (m.read a n).length) :
    (m.read a n)[i] = m (a + BitVec.ofNat 64 i) := by
  simp [Mem.read]

theorem Mem.read_write_self (m : Mem) (a : Addr) (bs : List Byte) (h : bs.length ≤ 2^64) :
    (m.write a bs).read a bs.length = bs := by
  apply List.ext_getElem
  · simp
  · intro i h1 h2
    rw [Mem.read_getElem, Mem.write_in _ _ _ _ h2 (by omega)]

/-- Reading part of what was just written. -/
theorem Mem.read_write_sub (m : Mem) (a : Addr) (bs : List Byte) (o n : Nat)
    (ho : o + n ≤ bs.length) (h : bs.length ≤ 2^64) :
    (m.write a bs).read (a + BitVec.ofNat 64 o) n = (bs.drop o).take n := by
  apply List.ext_getElem
  · simp; omega
  · intro i h1 h2
    have hi : i < n := by simpa using h1
    rw [Mem.read_getElem, BitVec.add_assoc, ← BitVec.ofNat_add,
      Mem.write_in _ _ _ _ (by omega) (by omega)]
    simp

theorem Mem.write_read_self (m : Mem) (a : Addr) (n : Nat) :
    m.write a (m.read a n) = m := by
  funext x
  rw [Mem.write_apply, Mem.read_getElem?]
  split
  · rw [← addr_eq_add_sub]; rfl
  · rfl

theorem Mem.write_write (m : Mem) (a : Addr) (bs cs : List Byte) (h : bs.length = cs.length) :
    (m.write a bs).write a cs = m.write a cs := by
  funext x
  rw [Mem.write_apply, Mem.write_apply, Mem.write_apply]
  cases hc : cs[(x - a).toNat]? with
  | some b => rfl
  | none =>
    have : bs[(x - a).toNat]? = none := by
      rw [List.getElem?_eq_none_iff] at hc ⊢; omega
    rw [this]; rfl

/-- Writing back what was there before restores the memory. -/
theorem Mem.write_restore (m : Mem) (a : Addr) (bs : List Byte) :
    (m.write a bs).write a (m.read a bs.length) = m := by
  rw [Mem.write_write _ _ _ _ (by simp), Mem.write_read_self]

theorem Mem.read_congr (m m' : Mem) (a : Addr) (n : Nat)
    (h : ∀ i, i < n → m (a + BitVec.ofNat 64 i) = m' (a + BitVec.ofNat 64 i)) :
    m.read a n = m'.read a n := by
  apply List.ext_getElem
  · simp
  · intro i h1 h2
    simp only [Mem.read_getElem]
    exact h i (by simpa using h1)

/-- Two byte ranges of a 64-bit address space that do not meet (either may
wrap around the end of the address space). -/
def Disjoint (a : Addr) (n : Nat) (b : Addr) (k : Nat) : Prop :=
  ∀ i j, i < n → j < k → a + BitVec.ofNat 64 i ≠ b + BitVec.ofNat 64 j

theorem Disjoint.symm {a n b k} (h : Disjoint a n b k) : Disjoint b k a n :=
  fun i j hi hj e => h j i hj hi e.symm

theorem Mem.write_out_of_disjoint {m : Mem} {a : Addr} {bs : List Byte} {b : Addr} {k : Nat}
    (h : Disjoint a bs.length b k) {j : Nat} (hj : j < k) :
    m.write a bs (b + BitVec.ofNat 64 j) = m (b + BitVec.ofNat 64 j) := by
  apply Mem.write_out
  apply Nat.le_of_not_lt
  intro hlt
  exact h _ j hlt hj (addr_eq_add_sub a _).symm

theorem Mem.read_write_disjoint (m : Mem) (a : Addr) (bs : List Byte) (b : Addr) (k : Nat)
    (h : Disjoint a bs.length b k) : (m.write a bs).read b k = m.read b k :=
  Mem.read_congr _ _ _ _ fun _ hi => Mem.write_out_of_disjoint h hi

@[simp] theorem leBytes_length (n : Nat) (v : BitVec 64) : (leBytes n v).length = n := by
  simp [leBytes]

theorem leNat_lt (bs : List Byte) : leNat bs < 256 ^ bs.length := by
  induction bs with
  | nil => simp [leNat]
  | cons b bs ih =>
    simp only [leNat, List.length_cons, Nat.pow_succ]
    have := b.isLt
    omega

theorem leNat_leBytes (n : Nat) (v : BitVec 64) : leNat (leBytes n v) = v.toNat % 256 ^ n := by
  induction n generalizing v with
  | zero => simp [leBytes, leNat, Nat.mod_one]
  | succ n ih =>
    have : leBytes (n+1) v = v.setWidth 8 :: leBytes n (v >>> 8) := by
      simp only [leBytes, List.range_succ_eq_map, List.map_cons, List.map_map]
      congr 1
      apply List.map_congr_left
      intro i _
      simp only [Function.comp]
      rw [← BitVec.shiftRight_add]; congr 2; omega
    rw [this, leNat, ih]
    simp only [BitVec.toNat_setWidth, BitVec.toNat_ushiftRight, Nat.shiftRight_eq_div_pow]
    rw [Nat.pow_succ 256 n, Nat.mul_comm (256^n) 256, Nat.mod_mul]

theorem load_write_leBytes (m : Mem) (a : Addr) (n : Nat) (v : BitVec 64) (h : n ≤ 8) :
    (m.write a (leBytes n v)).load a n = BitVec.ofNat 64 (v.toNat % 256 ^ n) := by
  unfold Mem.load
  have := Mem.read_write_self m a (leBytes n v) (by simp; omega)
  rw [leBytes_length] at this
  rw [this, leNat_leBytes]

theorem load8_write (m : Mem) (a : Addr) (v : BitVec 64) :
    (m.write a (leBytes 8 v)).load a 8 = v := by
  rw [load_write_leBytes _ _ _ _ (by omega)]
  apply BitVec.eq_of_toNat_eq
  simp
  omega

end Ulp
