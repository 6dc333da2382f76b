/-
C102, C103, C104: the current task, the directory for the patched processes, the size of a
page.
-/
import Verif.Model.Init
namespace Ulp.Init

/-! ### C102: the current task -/

/-- What a history of opening and closing leaves open, by the names of the tasks. -/
def run (s : Tasks) (ops : List Op) : Tasks := ops.foldl step s

/-- The names of open tasks are below the next name, and the current task is one of them. -/
structure Inv (s : Tasks) : Prop where
  below : ∀ i ∈ s.live, i < s.next
  nodup : s.live.Nodup
  cur : ∀ i, s.cur = .task i → i ∈ s.live

theorem step_inv (s : Tasks) (o : Op) (h : Inv s) : Inv (step s o) := by
  cases o with
  | init => exact ⟨h.below, h.nodup, fun i hi => by cases hi⟩
  | opened =>
    refine ⟨?_, ?_, ?_⟩
    · intro i hi
      have hi' : i = s.next ∨ i ∈ s.live := by simpa [step, setCurrent] using hi
      have : i < s.next + 1 := by
        rcases hi' with rfl | h'
        · omega
        · have := h.below i h'
          omega
      simpa [step, setCurrent] using this
    · have : (s.next :: s.live).Nodup :=
        List.nodup_cons.2 ⟨fun hm => absurd (h.below _ hm) (by omega), h.nodup⟩
      simpa [step, setCurrent] using this
    · intro i hi
      have : s.next = i := by simpa [step, setCurrent] using hi
      simp [step, setCurrent, this]
  | failedEarly => exact h
  | failedLate =>
    exact ⟨fun i hi => Nat.lt_succ_of_lt (h.below i hi), h.nodup, fun i hi => by cases hi⟩
  | close id =>
    unfold step
    dsimp only
    by_cases hm : id ∈ s.live
    · rw [if_pos hm]
      exact ⟨fun i hi => h.below i (List.mem_of_mem_erase hi), h.nodup.erase id,
        fun i hi => by cases hi⟩
    · rw [if_neg hm]
      exact h

theorem run_inv (s : Tasks) (ops : List Op) (h : Inv s) : Inv (run s ops) := by
  induction ops generalizing s with
  | nil => exact h
  | cons o os ih => exact ih _ (step_inv s o h)

theorem start_inv : Inv Tasks.start :=
  ⟨fun _ h => absurd h (by simp [Tasks.start]), by simp [Tasks.start],
    fun i h => absurd h (by simp [Tasks.start])⟩

/-- **C102.**  After any history of opening tasks, with or without success, and closing them,
the current task is there: it is the empty task or one that is open, never one that was
closed. -/
theorem C102_never_dangling (ops : List Op) :
    getCurrent (run Tasks.start ops) = .fallback ∨
    ∃ i ∈ (run Tasks.start ops).live, getCurrent (run Tasks.start ops) = .task i := by
  have h := run_inv _ ops start_inv
  generalize run Tasks.start ops = s at h ⊢
  unfold getCurrent
  match hc : s.cur with
  | .null => left; simp
  | .fallback => left; simp
  | .task i => right; exact ⟨i, h.cur i hc, by simp⟩

/-- **C102.**  A task that was just opened is the current one, whatever came before, and it
stays the current one while nothing else is opened or closed. -/
theorem C102_opened_partial (ops : List Op) :
    getCurrent (run Tasks.start (ops ++ [.opened])) = .task (run Tasks.start ops).next ∧
    (run Tasks.start ops).next ∉ (run Tasks.start ops).live ∧
    (run Tasks.start (ops ++ [.opened])).live
      = (run Tasks.start ops).next :: (run Tasks.start ops).live ∧
    getCurrent (run Tasks.start (ops ++ [.opened, .failedEarly]))
      = .task (run Tasks.start ops).next := by
  have h := run_inv _ ops start_inv
  unfold run at h ⊢
  rw [List.foldl_append, List.foldl_append]
  generalize ops.foldl step Tasks.start = s at h ⊢
  refine ⟨?_, fun hm => absurd (h.below _ hm) (by omega), ?_, ?_⟩ <;>
    simp [step, setCurrent, getCurrent]

/-- **C102.**  Closing a task takes it, and no other, from the open ones, and leaves the empty
task as the current one. -/
theorem C102_close (ops : List Op) (i : Nat) (hi : i ∈ (run Tasks.start ops).live) :
    getCurrent (run Tasks.start (ops ++ [.close i])) = .fallback ∧
    ∀ j, j ∈ (run Tasks.start (ops ++ [.close i])).live
      ↔ j ∈ (run Tasks.start ops).live ∧ j ≠ i := by
  have h := run_inv _ ops start_inv
  unfold run at h hi ⊢
  rw [List.foldl_append]
  generalize ops.foldl step Tasks.start = s at h hi ⊢
  simp only [List.foldl_cons, List.foldl_nil, step]
  rw [if_pos hi]
  refine ⟨by simp [resetCurrent, getCurrent], fun j => ?_⟩
  have : (resetCurrent { s with live := s.live.erase i }).live = s.live.erase i := rfl
  rw [this, h.nodup.mem_erase_iff]
  exact And.comm

/-- **C102.**  NULL is refused and changes nothing; every other task becomes the current one. -/
theorem C102_set (s : Tasks) (t : Cur) :
    (t = .null → setCurrent t s = (s, -22)) ∧
    (t ≠ .null → (setCurrent t s).2 = 0 ∧ getCurrent (setCurrent t s).1 = t ∧
      (setCurrent t s).1.live = s.live) := by
  unfold setCurrent
  refine ⟨fun h => if_pos h, fun h => ?_⟩
  rw [if_neg h]
  exact ⟨rfl, by simp [getCurrent, h], rfl⟩

/-- **Finding.**  When a second task cannot be opened, or an earlier one is closed, the task
that is still open is no longer the current one. -/
theorem C102_forgets :
    (run Tasks.start [.init, .opened, .failedLate]).live = [0] ∧
    getCurrent (run Tasks.start [.init, .opened, .failedLate]) = .fallback ∧
    (run Tasks.start [.init, .opened, .opened, .close 0]).live = [1] ∧
    getCurrent (run Tasks.start [.init, .opened, .opened, .close 0]) = .fallback := by
  refine ⟨?_, ?_, ?_, ?_⟩ <;> decide

/-- Two tasks, the first of which is closed before the second is opened. -/
example : getCurrent (run Tasks.start [.init, .opened, .close 0, .opened]) = .task 1 := by decide

/-! ### C103: the directory for the patched processes -/

/-- Everyone may read, write and enter the directory. -/
def ForAll (s : Sys) : Prop := ∃ n, s.root = some n ∧ n.kind = .dir ∧ n.mode = 0o777

/-- **C103.**  If the program goes on and the directory was there, everyone may use it
afterwards. If it was not there, it is there afterwards and belongs to the user, without the
permissions in the `umask`.  Missing: with a `umask` that is not 0, the full claim fails the
first time (`C103_umask`). -/
theorem C103_usable_partial (s : Sys) (h : (envInit s).2 = true) :
    (∀ n, s.root = some n → n.kind = .dir → ForAll (envInit s).1) ∧
    (s.root = none → (envInit s).1.root = some ⟨.dir, 0o777 &&& ~~~s.umask, s.uid⟩) ∧
    (s.root = none → s.umask &&& 0o777 = 0 → ForAll (envInit s).1) := by
  obtain ⟨tmp, tw, root, uid, um⟩ := s
  dsimp only
  unfold envInit rootExists at h ⊢
  cases tmp with
  | false => cases h
  | true =>
    cases root with
    | none =>
      cases tw with
      | false => simp [mkdirat] at h
      | true =>
        refine ⟨nofun, fun _ => ?_, fun _ hu => ?_⟩
        · simp [mkdirat, MODE_0777]
        · refine ⟨⟨.dir, 0o777 &&& ~~~um, uid⟩, by simp [mkdirat, MODE_0777], rfl, ?_⟩
          apply BitVec.eq_of_getLsbD_eq
          intro i hi
          have := congrArg (fun b => b.getLsbD i) hu
          simp only [BitVec.getLsbD_and] at this
          simp only [BitVec.getLsbD_and, BitVec.getLsbD_not, hi, decide_true, Bool.true_and]
          generalize um.getLsbD i = a at this ⊢
          generalize (0o777 : BitVec 12).getLsbD i = b at this ⊢
          cases a <;> cases b <;> simp_all
    | some n =>
      refine ⟨fun m hm hk => ?_, nofun, nofun⟩
      cases hm
      simp only [hk, Bool.true_eq_false, ↓reduceIte, ne_eq, reduceCtorEq, not_false_eq_true,
        decide_true, chmod] at h ⊢
      by_cases ho : uid = 0 ∨ uid = n.owner
      · rw [if_pos ho]
        exact ⟨_, rfl, rfl, rfl⟩
      · rw [if_neg ho] at h
        cases h

/-- **C103.**  The program exits exactly when there is no `/tmp`, the directory cannot be made,
or it belongs to someone else, and then nothing has changed. -/
theorem C103_exit (s : Sys) :
    ((envInit s).2 = false ↔
      s.tmp = false ∨
      (s.root = none ∧ s.tmpWrite = false) ∨
      (∃ n, s.root = some n ∧ n.kind = .link) ∨
      ∃ n, s.root = some n ∧ n.kind ≠ .link ∧ s.uid ≠ 0 ∧ s.uid ≠ n.owner) ∧
    ((envInit s).2 = false → (envInit s).1 = s) := by
  obtain ⟨tmp, tw, root, uid, um⟩ := s
  unfold envInit rootExists
  cases tmp with
  | false => simp
  | true =>
    cases root with
    | none => cases tw <;> simp [mkdirat]
    | some n =>
      by_cases hk : n.kind = .link
      · simp [hk, mkdirat]
      · by_cases ho : uid = 0 ∨ uid = n.owner
        · simp only [hk, Bool.true_eq_false, ↓reduceIte, ne_eq, not_false_eq_true, decide_true,
            chmod, if_pos ho, false_or, Option.some.injEq, exists_eq_left',
            reduceCtorEq, false_and, true_and]
          refine ⟨⟨nofun, fun h => ?_⟩, nofun⟩
          rcases ho with ho | ho
          · exact absurd ho h.1
          · exact absurd ho h.2
        · have h1 : uid ≠ 0 := fun h => ho (.inl h)
          have h2 : uid ≠ n.owner := fun h => ho (.inr h)
          simp [hk, chmod, h1, h2]

/-- **C103.**  The directory stays, whatever users run the program afterwards, in any order and
each with any `umask`: it keeps its owner and, once everyone may use it, everyone may. -/
theorem C103_stays (s : Sys) (users : List (Nat × BitVec 12)) (h : ForAll s) :
    ForAll (users.foldl (fun s u => (envInit { s with uid := u.1, umask := u.2 }).1) s) := by
  induction users generalizing s with
  | nil => exact h
  | cons u us ih =>
    refine ih _ ?_
    by_cases hr : (envInit { s with uid := u.1, umask := u.2 }).2 = true
    · obtain ⟨n, h1, h2, -⟩ := h
      exact (C103_usable_partial _ hr).1 n h1 h2
    · have he := (C103_exit { s with uid := u.1, umask := u.2 }).2 (by simpa using hr)
      show ForAll (envInit { s with uid := u.1, umask := u.2 }).1
      rw [he]
      exact h

/-- A system without the directory and the usual `umask`. -/
def exSys : Sys := ⟨true, true, none, 0, 0o022⟩

/-- **Finding.**  The first time the superuser runs the program with the usual `umask`, others
cannot write to the directory; the second time they can. -/
theorem C103_umask :
    (envInit exSys).2 = true ∧ ¬ ForAll (envInit exSys).1 ∧
    (envInit exSys).1.root = some ⟨.dir, 0o755, 0⟩ ∧
    (envInit (envInit exSys).1).1.root = some ⟨.dir, 0o777, 0⟩ := by
  refine ⟨by decide, ?_, by decide, by decide⟩
  rintro ⟨n, h1, -, h3⟩
  have h4 : (envInit exSys).1.root = some ⟨.dir, 0o755, 0⟩ := by decide
  rw [h4] at h1
  cases h1
  exact absurd h3 (by decide)

/-- **Finding.**  A plain file of that name is made executable and accepted as the directory. -/
theorem C103_file :
    envInit { exSys with root := some ⟨.file, 0o600, 0⟩ }
      = ({ exSys with root := some ⟨.file, 0o777, 0⟩ }, true) := rfl

/-- **Finding.**  Once one user has run the program, another one, not the superuser, cannot. -/
theorem C103_second_user :
    (envInit { exSys with uid := 1000 }).2 = true ∧
    (envInit { (envInit { exSys with uid := 1000 }).1 with uid := 1001 }).2 = false := by
  refine ⟨?_, ?_⟩ <;> decide

/-! ### C104: the size of a page -/

theorem shiftLoop_find (k : Nat) (hk : k < 31) (d : Nat) :
    ∀ t, t + d = k → shiftLoop (BitVec.twoPow 32 k) t = some k := by
  have hs : (BitVec.twoPow 32 k).signExtend 64 = (1 : BitVec 64) <<< k := by
    have hp : 2 ^ k < 2 ^ 31 := Nat.pow_lt_pow_right (by omega) hk
    rw [BitVec.signExtend_eq_setWidth_of_msb_false]
    · apply BitVec.eq_of_toNat_eq
      have : (1 : BitVec 64).toNat = 1 := rfl
      rw [BitVec.toNat_setWidth, BitVec.toNat_twoPow, BitVec.toNat_shiftLeft, this,
        Nat.shiftLeft_eq, Nat.one_mul, Nat.mod_eq_of_lt (by omega : 2 ^ k < 2 ^ 32)]
    · rw [BitVec.msb_eq_false_iff_two_mul_lt, BitVec.toNat_twoPow]
      rw [Nat.mod_eq_of_lt (by omega)]
      omega
  induction d with
  | zero =>
    intro t ht
    have : t = k := by omega
    subst this
    rw [shiftLoop, if_pos (by omega), hs, if_neg (by simp)]
  | succ d ih =>
    intro t ht
    rw [shiftLoop, if_pos (by omega), hs, if_pos]
    · exact ih (t + 1) (by omega)
    · intro he
      have h2 := congrArg BitVec.toNat he
      have h1 : (1 : BitVec 64).toNat = 1 := rfl
      have ha : 2 ^ t < 2 ^ 64 := Nat.pow_lt_pow_right (by omega) (by omega)
      have hb : 2 ^ k < 2 ^ 64 := Nat.pow_lt_pow_right (by omega) (by omega)
      rw [BitVec.toNat_shiftLeft, BitVec.toNat_shiftLeft, h1, Nat.shiftLeft_eq, Nat.shiftLeft_eq,
        Nat.one_mul, Nat.one_mul, Nat.mod_eq_of_lt ha, Nat.mod_eq_of_lt hb] at h2
      have := (Nat.pow_right_inj (by omega : 1 < 2)).1 h2
      omega

/-- The calls a program makes: `ulp_page_size` or `ulp_page_shift`. -/
inductive Call where
  | size
  | shift

/-- Their results, in order; `none` if one is undefined. -/
def calls (sys : BitVec 32) : Pages → List Call → Option (List (BitVec 32))
  | _, [] => some []
  | p, .size :: cs => (calls sys (pageSize sys p).1 cs).map ((pageSize sys p).2 :: ·)
  | p, .shift :: cs =>
    match pageShift sys p with
    | none => none
    | some r => (calls sys r.1 cs).map (r.2 :: ·)

/-- **C104.**  With pages of `2 ^ k` bytes, every call of a program, in every order, gives the
size of a page or `k`. -/
theorem C104_page (k : Nat) (hk : k < 31) (cs : List Call) :
    calls (BitVec.ofNat 32 (2 ^ k)) Pages.init cs
      = some (cs.map fun | .size => BitVec.ofNat 32 (2 ^ k) | .shift => BitVec.ofNat 32 k) := by
  have key : ∀ (cs : List Call) (p : Pages),
      (p.size = 0 ∨ p.size = BitVec.ofNat 32 (2 ^ k)) → (p.shift = 0 ∨ p.shift = BitVec.ofNat 32 k) →
      calls (BitVec.ofNat 32 (2 ^ k)) p cs
        = some (cs.map fun | .size => BitVec.ofNat 32 (2 ^ k) | .shift => BitVec.ofNat 32 k) := by
    have htp : BitVec.ofNat 32 (2 ^ k) = BitVec.twoPow 32 k := by
      apply BitVec.eq_of_toNat_eq
      rw [BitVec.toNat_twoPow, BitVec.toNat_ofNat]
    have hsz : ∀ p : Pages, (p.size = 0 ∨ p.size = BitVec.ofNat 32 (2 ^ k)) →
        pageSize (BitVec.ofNat 32 (2 ^ k)) p
          = (⟨BitVec.ofNat 32 (2 ^ k), p.shift⟩, BitVec.ofNat 32 (2 ^ k)) := by
      intro p hp
      unfold pageSize
      by_cases h0 : p.size = 0
      · rw [if_pos h0]
      · rw [if_neg h0]
        have := hp.resolve_left h0
        rw [← this]
    intro cs
    induction cs with
    | nil => intro p _ _; rfl
    | cons c cs ih =>
      intro p hp hs
      cases c with
      | size =>
        rw [calls, hsz p hp]
        dsimp only
        rw [ih ⟨BitVec.ofNat 32 (2 ^ k), p.shift⟩ (.inr rfl) hs]
        rfl
      | shift =>
        rw [calls]
        have : pageShift (BitVec.ofNat 32 (2 ^ k)) p
            = some (⟨BitVec.ofNat 32 (2 ^ k), BitVec.ofNat 32 k⟩, BitVec.ofNat 32 k) := by
          unfold pageShift
          rw [hsz p hp]
          dsimp only
          by_cases h0 : p.shift = 0
          · rw [if_pos h0, htp, shiftLoop_find k hk k 0 (by omega)]
          · rw [if_neg h0, hs.resolve_left h0]
        rw [this]
        dsimp only
        rw [ih ⟨BitVec.ofNat 32 (2 ^ k), BitVec.ofNat 32 k⟩ (.inr rfl) (.inr rfl)]
        rfl
  exact key cs Pages.init (.inl rfl) (.inl rfl)

/-- Pages of 4096 and of 65536 bytes. -/
example : calls 4096 Pages.init [.shift, .size, .shift] = some [12, 4096, 12] :=
  C104_page 12 (by omega) [.shift, .size, .shift]
example : calls 65536 Pages.init [.size, .shift] = some [65536, 16] :=
  C104_page 16 (by omega) [.size, .shift]

end Ulp.Init
