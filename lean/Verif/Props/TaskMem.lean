/-
C95, C96, C97: strings and instructions in the memory of another process
(src/task/memcpy.c:94-113, src/arch/aarch64/insn.c:16-47, 224-234,
src/arch/aarch64/ftrace.c:20-47).
-/
import Verif.Model.TaskMem
import Verif.Spec.TaskMem
import Verif.Proof.Mem
namespace Ulp.TaskMem
open Ulp.TaskMemSpec
open Ulp.Ultask (memcpyFromTask memcpyToTask)

theorem takeWhile_all {p : Nat → Bool} {l : List Nat} (h : ∀ i ∈ l, p i = true) :
    l.takeWhile p = l := by
  induction l with
  | nil => rfl
  | cons a l ih =>
    rw [List.takeWhile_cons, if_pos (h a (by simp)), ih (fun i hi => h i (by simp [hi]))]

theorem moved_all {s : Space} {a : Addr} {n : Nat} (hg : s.gone = false)
    (h : ∀ i, i < n → s.mapped (a + BitVec.ofNat 64 i) = true) : s.moved a n = some n := by
  unfold Space.moved
  rw [takeWhile_all (fun i hi => h i (List.mem_range.1 hi))]
  simp only [hg, Bool.false_eq_true, if_false, List.length_range]
  rw [if_neg (fun h => h.2 h.1)]

theorem moved_cut {s : Space} {a : Addr} {n k : Nat} (hg : s.gone = false) (hk : k < n)
    (h : ∀ i, i < k → s.mapped (a + BitVec.ofNat 64 i) = true)
    (hc : s.mapped (a + BitVec.ofNat 64 k) = false) :
    s.moved a n = if k = 0 then none else some k := by
  have e : (List.range n).takeWhile (fun i => s.mapped (a + BitVec.ofNat 64 i)) = List.range k := by
    rw [show n = k + (n - k - 1 + 1) by omega, List.range_add, List.takeWhile_append_of_pos]
    · rw [List.range_succ_eq_map, List.map_cons, List.takeWhile_cons, if_neg (by simp [hc])]
      simp
    · intro i hi; exact h i (List.mem_range.1 hi)
  unfold Space.moved
  rw [e]
  simp only [hg, Bool.false_eq_true, if_false, List.length_range]
  by_cases h0 : k = 0
  · rw [if_pos ⟨h0, by omega⟩, if_pos h0]
  · rw [if_neg (fun h => h0 h.1), if_neg h0]

theorem moved_none {s : Space} {a : Addr} {n : Nat} (hg : s.gone = false) (hn : 0 < n)
    (hc : s.mapped a = false) : s.moved a n = none := by
  rw [moved_cut (k := 0) hg hn (fun i hi => absurd hi (by omega)) (by simpa using hc)]
  rfl

/-! ### C95 -/

/-- One round of the loop, for a byte that is mapped. -/
theorem loop_step {s : Space} {dst : List Byte} {src : Addr} {i : Nat} (hg : s.gone = false)
    (hi : i < dst.length) (hm : s.mapped (src + BitVec.ofNat 64 i) = true) :
    strcpyLoop s dst src i =
      let d := dst.set i (s.mem (src + BitVec.ofNat 64 i))
      if s.mem (src + BitVec.ofNat 64 i) = 0 then some d
      else if MAX_STR_LEN ≤ i then some d
      else strcpyLoop s d src (i + 1) := by
  rw [strcpyLoop, List.getElem?_eq_getElem hi]
  have e1 : s.moved (src + BitVec.ofNat 64 i) 1 = some 1 :=
    moved_all hg (fun j hj => by
      rw [show j = 0 by omega]; simpa using hm)
  have e2 : s.mem.read (src + BitVec.ofNat 64 i) 1 = [s.mem (src + BitVec.ofNat 64 i)] := by
    simp [Mem.read, List.range_succ]
  have e3 : dst.take i ++ [s.mem (src + BitVec.ofNat 64 i)] ++ dst.drop (i + 1) =
      dst.set i (s.mem (src + BitVec.ofNat 64 i)) := by
    rw [List.set_eq_take_append_cons_drop, if_pos hi]; simp
  dsimp only [memcpyFromTask]
  simp only [e1, e2, List.drop_succ_cons, List.drop_zero, List.append_nil, e3]
  rw [List.getElem?_set_self hi]
  simp only [Option.some.injEq, dite_eq_ite]

/-- A string that is mapped and fits: what the loop makes of the buffer. -/
theorem loop_string {s : Space} {src : Addr} {t : List Byte} (hg : s.gone = false)
    (hs : StringAt s.mem src t) (hl : t.length ≤ 1024)
    (hm : ∀ i, i ≤ t.length → s.mapped (src + BitVec.ofNat 64 i) = true) :
    ∀ n i dst, t.length - i = n → i ≤ t.length → t.length < dst.length →
      dst.take i = t.take i →
      strcpyLoop s dst src i = some (t ++ 0 :: dst.drop (t.length + 1)) := by
  intro n
  induction n with
  | zero =>
    intro i dst hn hi hd ht
    have hi : i = t.length := by omega
    subst hi
    rw [loop_step hg hd (hm _ (Nat.le_refl _)), hs.2]
    dsimp only
    rw [if_pos rfl, List.set_eq_take_append_cons_drop, if_pos hd, ht, List.take_length]
  | succ n ih =>
    intro i dst hn hi hd ht
    have hlt : i < t.length := by omega
    obtain ⟨e, hne⟩ := hs.1 i t[i] (List.getElem?_eq_getElem hlt)
    rw [loop_step hg (by omega) (hm _ hi), e]
    dsimp only
    rw [if_neg hne, if_neg (by simp only [MAX_STR_LEN]; omega),
      ih (i + 1) _ (by omega) hlt (by simpa using hd)]
    · rw [List.drop_set_of_lt (by omega)]
    · rw [List.take_add_one, List.take_set_of_le (Nat.le_refl _), ht,
        List.getElem?_set_self (by omega), List.take_add_one, List.getElem?_eq_getElem hlt]

/-- **C95, reading.**  For every string of at most 1024 characters in the mapped memory of a
process and every buffer with room for it: the buffer holds the string and its NUL, and its
other bytes are as before. -/
theorem C95_read_partial (s : Space) (src : Addr) (t dst : List Byte) (hg : s.gone = false)
    (hs : StringAt s.mem src t) (hl : t.length ≤ 1024)
    (hm : ∀ i, i ≤ t.length → s.mapped (src + BitVec.ofNat 64 i) = true)
    (hd : t.length < dst.length) :
    strcpyFromTask s dst src = some (t ++ 0 :: dst.drop (t.length + 1)) :=
  loop_string hg hs hl hm _ 0 dst rfl (by omega) hd (by simp)

/-- **C95, writing.**  For every string and every place that is mapped: afterwards the
string is there with its NUL, and nothing else has changed. -/
theorem C95_write_partial (s : Space) (dst : Addr) (t : List Byte) (hg : s.gone = false)
    (h0 : ∀ b ∈ t, b ≠ 0) (hlen : t.length < 2 ^ 63)
    (hm : ∀ i, i ≤ t.length → s.mapped (dst + BitVec.ofNat 64 i) = true) :
    StringAt (strcpyToTask s dst t).mem dst t ∧
      SameBut s.mem (strcpyToTask s dst t).mem dst (t.length + 1) ∧
      (strcpyToTask s dst t).mapped = s.mapped ∧ (strcpyToTask s dst t).gone = s.gone := by
  have e : (strcpyToTask s dst t).mem = s.mem.write dst (t ++ [0]) := by
    unfold strcpyToTask
    rw [moved_all hg (fun i hi => hm i (by omega))]
    simp only [memcpyToTask]
    rw [List.take_of_length_le (by simp)]
  rw [e]
  refine ⟨⟨fun i b hb => ?_, ?_⟩, fun x hx => Mem.write_out _ _ _ _ (by simpa using hx), rfl, rfl⟩
  · have hi := (List.getElem?_eq_some_iff.1 hb).1
    rw [Mem.write_in _ _ _ i (by simp; omega) (by omega), List.getElem_append_left hi]
    exact ⟨(List.getElem?_eq_some_iff.1 hb).2, h0 b (List.mem_of_getElem? hb)⟩
  · rw [Mem.write_in _ _ _ t.length (by simp) (by omega)]
    simp

/-- **C95, round trip, partial.**  A string of at most 1024 characters, written to any mapped
place and read back into any buffer with room, is the same string; the process has changed
only there.  Missing: longer strings lose their NUL (`C95_long`); a place that is not mapped,
or only in part, is not reported (`C95_cut`, `C95_stale`). -/
theorem C95_round_trip_partial (s : Space) (a : Addr) (t dst : List Byte) (hg : s.gone = false)
    (h0 : ∀ b ∈ t, b ≠ 0) (hl : t.length ≤ 1024)
    (hm : ∀ i, i ≤ t.length → s.mapped (a + BitVec.ofNat 64 i) = true)
    (hd : t.length < dst.length) :
    strcpyFromTask (strcpyToTask s a t) dst a = some (t ++ 0 :: dst.drop (t.length + 1)) ∧
      SameBut s.mem (strcpyToTask s a t).mem a (t.length + 1) := by
  obtain ⟨h1, h2, h3, h4⟩ := C95_write_partial s a t hg h0 (by omega) hm
  exact ⟨C95_read_partial _ a t dst (by rw [h4]; exact hg) h1 hl (by rw [h3]; exact hm) hd, h2⟩

/-- A process with nothing in its memory; the page from 0x1000 on is mapped. -/
def exSpace : Space := ⟨fun _ => 0, fun a => a.toNat / 4096 == 1, false⟩

example : strcpyFromTask (strcpyToTask exSpace 0x1ffc [104, 105]) [9, 9, 9, 9] 0x1ffc =
    some [104, 105, 0, 9] :=
  (C95_round_trip_partial exSpace 0x1ffc [104, 105] [9, 9, 9, 9] rfl (by decide) (by decide)
    (by
      intro i hi
      have : i = 0 ∨ i = 1 ∨ i = 2 := by simp at hi; omega
      rcases this with rfl | rfl | rfl <;> rfl) (by decide)).1

theorem read_succ (m : Mem) (a : Addr) (n : Nat) :
    m.read a (n + 1) = m.read a n ++ [m (a + BitVec.ofNat 64 n)] := by
  simp [Mem.read, List.range_succ]

/-- **Finding.**  A string of more than 1024 characters: the first 1025 are copied, and
there is no NUL. -/
theorem C95_long (s : Space) (src : Addr) (dst : List Byte) (hg : s.gone = false)
    (hs : ∀ i, i ≤ 1024 → s.mem (src + BitVec.ofNat 64 i) ≠ 0)
    (hm : ∀ i, i ≤ 1024 → s.mapped (src + BitVec.ofNat 64 i) = true)
    (hd : 1025 ≤ dst.length) :
    strcpyFromTask s dst src = some (s.mem.read src 1025 ++ dst.drop 1025) := by
  have key : ∀ n i d, 1024 - i = n → i ≤ 1024 → d.length = dst.length →
      d.take i = s.mem.read src i → d.drop i = dst.drop i →
      strcpyLoop s d src i = some (s.mem.read src 1025 ++ dst.drop 1025) := by
    intro n
    induction n with
    | zero =>
      intro i d hn hi hdl h1 h2
      rw [loop_step hg (by omega) (hm _ hi)]
      dsimp only
      rw [if_neg (hs _ hi), if_pos (by simp only [MAX_STR_LEN]; omega),
        List.set_eq_take_append_cons_drop, if_pos (by omega), h1, show 1025 = i + 1 by omega,
        read_succ, ← List.drop_drop, h2, List.drop_drop]
      simp
    | succ n ih =>
      intro i d hn hi hdl h1 h2
      rw [loop_step hg (by omega) (hm _ (by omega))]
      dsimp only
      rw [if_neg (hs _ (by omega)), if_neg (by simp only [MAX_STR_LEN]; omega)]
      apply ih (i + 1) _ (by omega) (by omega) (by simpa using hdl)
      · rw [List.take_add_one, List.take_set_of_le (Nat.le_refl _), h1,
          List.getElem?_set_self (by omega), read_succ]
        rfl
      · rw [List.drop_set_of_lt (by omega), ← List.drop_drop, h2, List.drop_drop]
  exact key _ 0 dst rfl (by omega) rfl (by simp [Mem.read]) rfl

example : strcpyFromTask ⟨fun _ => 65, fun _ => true, false⟩ (List.replicate 2000 0) 0 =
    some (Mem.read (fun _ => 65) 0 1025 ++ (List.replicate 2000 0).drop 1025) :=
  C95_long _ 0 _ rfl (fun _ _ => by simp) (fun _ _ => rfl) (by rw [List.length_replicate]; omega)

/-- **Finding.**  The buffer is too small for the string: it is written behind its end. -/
theorem C95_overflow (s : Space) (src : Addr) (dst : List Byte) (hg : s.gone = false)
    (hd : dst.length ≤ 1024)
    (hs : ∀ i, i < dst.length → s.mem (src + BitVec.ofNat 64 i) ≠ 0)
    (hm : ∀ i, i < dst.length → s.mapped (src + BitVec.ofNat 64 i) = true) :
    strcpyFromTask s dst src = none := by
  have key : ∀ n i d, dst.length - i = n → i ≤ dst.length → d.length = dst.length →
      strcpyLoop s d src i = none := by
    intro n
    induction n with
    | zero =>
      intro i d hn hi hdl
      rw [strcpyLoop, List.getElem?_eq_none (by omega)]
    | succ n ih =>
      intro i d hn hi hdl
      rw [loop_step hg (by omega) (hm _ (by omega))]
      dsimp only
      rw [if_neg (hs _ (by omega)), if_neg (by simp only [MAX_STR_LEN]; omega)]
      exact ih (i + 1) _ (by omega) (by omega) (by simpa using hdl)
  exact key _ 0 dst rfl (by omega) rfl

/-- **Finding.**  Nothing is mapped at the source: the "string" that is returned is what was
in the buffer before. -/
theorem C95_stale (s : Space) (src : Addr) (t rest : List Byte) (hg : s.gone = false)
    (h0 : ∀ b ∈ t, b ≠ 0) (hl : t.length ≤ 1024)
    (hm : ∀ i, i ≤ t.length → s.mapped (src + BitVec.ofNat 64 i) = false) :
    strcpyFromTask s (t ++ 0 :: rest) src = some (t ++ 0 :: rest) := by
  have step : ∀ i b, (t ++ 0 :: rest)[i]? = some b → i ≤ t.length →
      strcpyLoop s (t ++ 0 :: rest) src i =
        if b = 0 then some (t ++ 0 :: rest)
        else if MAX_STR_LEN ≤ i then some (t ++ 0 :: rest)
        else strcpyLoop s (t ++ 0 :: rest) src (i + 1) := by
    intro i b hb hi
    have hlt := (List.getElem?_eq_some_iff.1 hb).1
    have e : (t ++ 0 :: rest).take i ++ [b] ++ (t ++ 0 :: rest).drop (i + 1) = t ++ 0 :: rest := by
      have e1 : (t ++ 0 :: rest).take i ++ [b] = (t ++ 0 :: rest).take (i + 1) := by
        rw [List.take_add_one, hb]; rfl
      rw [e1, List.take_append_drop]
    rw [strcpyLoop, hb]
    dsimp only
    rw [moved_none hg (by omega) (hm i hi)]
    have e0 : (memcpyFromTask s.mem (src + BitVec.ofNat 64 i) [b] none).1 = [b] := rfl
    simp only [e0, e, hb, Option.some.injEq, dite_eq_ite]
  have key : ∀ n i, t.length - i = n → i ≤ t.length →
      strcpyLoop s (t ++ 0 :: rest) src i = some (t ++ 0 :: rest) := by
    intro n
    induction n with
    | zero =>
      intro i hn hi
      rw [step i 0 (by rw [List.getElem?_append_right (by omega), show i - t.length = 0 by omega]; rfl) hi,
        if_pos rfl]
    | succ n ih =>
      intro i hn hi
      rw [step i t[i] (by rw [List.getElem?_append_left (by omega)]; exact List.getElem?_eq_getElem (by omega)) hi,
        if_neg (h0 _ (List.getElem_mem _)), if_neg (by simp only [MAX_STR_LEN]; omega)]
      exact ih (i + 1) (by omega) (by omega)
  exact key _ 0 rfl (by omega)

example : strcpyFromTask exSpace [111, 108, 100, 0] 0x5000 = some [111, 108, 100, 0] :=
  C95_stale exSpace 0x5000 [111, 108, 100] [] rfl (by decide) (by decide)
    (by
      intro i hi
      have : i = 0 ∨ i = 1 ∨ i = 2 ∨ i = 3 := by simp at hi; omega
      rcases this with rfl | rfl | rfl | rfl <;> rfl)

/-- **Finding.**  Only the first `k` bytes of the place are mapped: the string is cut off
without its NUL, and the caller is not told, because the source is returned in any case. -/
theorem C95_cut (s : Space) (dst : Addr) (t : List Byte) (k : Nat) (hg : s.gone = false)
    (hk : k ≤ t.length) (hm : ∀ i, i < k → s.mapped (dst + BitVec.ofNat 64 i) = true)
    (hc : s.mapped (dst + BitVec.ofNat 64 k) = false) :
    (strcpyToTask s dst t).mem = s.mem.write dst (t.take k) := by
  unfold strcpyToTask
  rw [moved_cut hg (by omega) hm hc]
  by_cases h0 : k = 0
  · rw [if_pos h0]
    funext x
    rw [Mem.write_out _ _ _ _ (by simp [h0])]
    rfl
  · rw [if_neg h0]
    simp only [memcpyToTask]
    rw [List.take_append_of_le_length hk]

example : (strcpyToTask exSpace 0x1ffe [65, 66, 67]).mem = exSpace.mem.write 0x1ffe [65, 66] :=
  C95_cut exSpace 0x1ffe [65, 66, 67] 2 rfl (by decide)
    (by
      intro i hi
      have : i = 0 ∨ i = 1 := by omega
      rcases this with rfl | rfl <;> rfl) rfl

end Ulp.TaskMem
