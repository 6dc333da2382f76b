import Verif.Spec.Files
namespace Ulp.Files

theorem strlen_eq (p : Path) : strlen p = textLength p := by
  induction p with
  | nil => rfl
  | cons n p ih => simp only [strlen, ih, textLength, List.map_cons, List.sum_cons]; omega

theorem find_of_mem {fs : FS} (h : (fs.map (·.1)).Nodup) {p : Path} {o : Obj}
    (hm : (p, o) ∈ fs) : fs.find? (fun e => e.1 = p) = some (p, o) := by
  induction fs with
  | nil => cases hm
  | cons e fs ih =>
    simp only [List.map_cons, List.nodup_cons] at h
    rcases List.mem_cons.1 hm with he | hm'
    · subst he; rw [List.find?_cons_of_pos (by simp)]
    · have hne : e.1 ≠ p := by
        intro he
        exact h.1 (he ▸ List.mem_map_of_mem (f := (·.1)) hm')
      rw [List.find?_cons_of_neg (by simpa using hne)]
      exact ih h.2 hm'

theorem get_of_at {fs : FS} (ht : Tree fs) {p : Path} {o : Obj} (h : At fs p o) :
    fs.get p = some o := by
  cases p with
  | nil =>
    rcases h with ⟨-, rfl⟩ | h
    · rfl
    · exact absurd h (ht.root o)
  | cons n p =>
    rcases h with ⟨h, -⟩ | h
    · cases h
    · simp only [FS.get, find_of_mem ht.one h, Option.map_some]

theorem at_of_get {fs : FS} {p : Path} {o : Obj} (h : fs.get p = some o) : At fs p o := by
  cases p with
  | nil => simp only [FS.get, Option.some.injEq] at h; exact .inl ⟨rfl, h.symm⟩
  | cons n p =>
    simp only [FS.get, Option.map_eq_some_iff] at h
    obtain ⟨e, he, rfl⟩ := h
    have h1 := List.find?_some he
    have h2 := List.mem_of_find?_eq_some he
    simp only [decide_eq_true_eq] at h1
    rw [show e = (n :: p, e.2) from by rw [← h1]] at h2
    exact .inr h2

theorem get_iff {fs : FS} (ht : Tree fs) {p : Path} {o : Obj} :
    fs.get p = some o ↔ At fs p o := ⟨at_of_get, get_of_at ht⟩

theorem get_none {fs : FS} {p : Path} (h : Free fs p) : fs.get p = none := by
  cases hg : fs.get p with
  | none => rfl
  | some o => exact absurd (at_of_get hg) (h o)

theorem free_of_get {fs : FS} (ht : Tree fs) {p : Path} (h : fs.get p = none) : Free fs p := by
  intro o ho; rw [get_of_at ht ho] at h; cases h

theorem At.up {fs : FS} (ht : Tree fs) : ∀ (l : List Name) {p : Path} {o : Obj},
    At fs (l ++ p) o → l ≠ [] → At fs p .dir
  | [], _, _, _, h => absurd rfl h
  | [n], p, o, h, _ => by
    rcases h with ⟨h, -⟩ | h
    · cases h
    · exact ht.parent n p o h
  | n :: m :: l, p, o, h, _ => by
    have h1 : At fs (m :: l ++ p) .dir := by
      rcases h with ⟨h, -⟩ | h
      · cases h
      · exact ht.parent n _ o h
    exact At.up ht (m :: l) h1 (by simp)

theorem walk_at {fs : FS} (ht : Tree fs) (k : Nat) : ∀ (rest : List Name) (cur : Path) {o : Obj},
    At fs (rest.reverse ++ cur) o → (∀ t, o ≠ .link t) →
    walk fs k cur rest = .at (rest.reverse ++ cur)
  | [], cur, o, _, _ => by simp only [walk, List.reverse_nil, List.nil_append]
  | n :: rest, cur, o, h, hl => by
    rw [List.reverse_cons, List.append_assoc, List.singleton_append] at h ⊢
    have h1 : At fs cur .dir := by
      have := At.up (p := cur) ht (rest.reverse ++ [n]) (o := o) (by simpa using h) (by simp)
      exact this
    have ih := walk_at ht k rest (n :: cur) h hl
    unfold walk
    rw [if_pos (get_of_at ht h1)]
    cases hr : rest with
    | nil =>
      subst hr
      have hg := get_of_at ht (show At fs (n :: cur) o from h)
      rw [hg]
      cases o with
      | link t => exact absurd rfl (hl t)
      | _ => exact ih
    | cons m r =>
      have h2 : At fs (n :: cur) .dir := At.up ht rest.reverse h (by simp [hr])
      rw [get_of_at ht h2, ← hr]
      exact ih

theorem resolve_at {fs : FS} (ht : Tree fs) {p : Path} {o : Obj} (h : At fs p o)
    (hl : ∀ t, o ≠ .link t) : resolve fs p = .at p := by
  have := walk_at ht MAXSYMLINKS p.reverse [] (o := o) (by simpa using h) hl
  simpa [resolve] using this

theorem stat_at {fs : FS} (ht : Tree fs) {p : Path} {o : Obj} (h : At fs p o)
    (hl : ∀ t, o ≠ .link t) : stat fs p = some (p, o) := by
  simp only [stat, resolve_at ht h hl, get_of_at ht h, Option.map_some]

theorem walk_missing {fs : FS} (ht : Tree fs) (k : Nat) (x : Name) :
    ∀ (rest : List Name) (cur : Path),
    At fs (rest.reverse ++ cur) .dir → fs.get (x :: (rest.reverse ++ cur)) = none →
    walk fs k cur (rest ++ [x]) = .missing (rest.reverse ++ cur) x
  | [], cur, h, hn => by
    simp only [List.reverse_nil, List.nil_append] at h hn ⊢
    unfold walk
    rw [if_pos (get_of_at ht h), hn]
    simp only [if_true]
  | n :: rest, cur, h, hn => by
    simp only [List.reverse_cons, List.append_assoc, List.singleton_append] at h hn ⊢
    have h1 : At fs cur .dir := by
      have := At.up (p := cur) ht (rest.reverse ++ [n]) (o := .dir) (by simpa using h) (by simp)
      exact this
    have ih := walk_missing ht k x rest (n :: cur) h hn
    rw [List.cons_append]
    unfold walk
    rw [if_pos (get_of_at ht h1)]
    have h2 : At fs (n :: cur) .dir := by
      cases hr : rest with
      | nil => subst hr; exact h
      | cons m r => exact At.up ht rest.reverse h (by simp [hr])
    rw [get_of_at ht h2]
    exact ih

theorem resolve_missing {fs : FS} (ht : Tree fs) {d : Path} {n : Name} (h : At fs d .dir)
    (hn : Free fs (n :: d)) : resolve fs (n :: d) = .missing d n := by
  have := walk_missing ht MAXSYMLINKS n d.reverse [] (by simpa using h)
    (by simpa using get_none hn)
  simpa [resolve] using this

theorem resolveLast_at {fs : FS} (ht : Tree fs) {n : Name} {d : Path} {o : Obj}
    (h : At fs (n :: d) o) : resolveLast fs (n :: d) = .at (n :: d) := by
  have hd : At fs d .dir := At.up ht [n] h (by simp)
  simp only [resolveLast, resolve_at ht hd (by simp), get_of_at ht hd, if_true, get_of_at ht h]

theorem resolveLast_missing {fs : FS} (ht : Tree fs) {n : Name} {d : Path}
    (hd : At fs d .dir) (hn : Free fs (n :: d)) : resolveLast fs (n :: d) = .missing d n := by
  simp only [resolveLast, resolve_at ht hd (by simp), get_of_at ht hd, if_true, get_none hn]

theorem lstat_at {fs : FS} (ht : Tree fs) {p : Path} {o : Obj} (h : At fs p o) :
    lstat fs p = some o := by
  cases p with
  | nil => simp only [lstat, resolveLast]; exact get_of_at ht h
  | cons n d => simp only [lstat, resolveLast_at ht h]; exact get_of_at ht h

/-- A search through a link goes on at its target. -/
theorem walk_link {fs : FS} (ht : Tree fs) (k : Nat) (t : Path) (more : List Name) :
    ∀ (rest : List Name) (cur : Path), rest ≠ [] → At fs (rest.reverse ++ cur) (.link t) →
    walk fs (k + 1) cur (rest ++ more) = walk fs k [] (t.reverse ++ more)
  | [], _, hne, _ => absurd rfl hne
  | n :: rest, cur, _, h => by
    rw [List.reverse_cons, List.append_assoc, List.singleton_append] at h
    have h1 : At fs cur .dir := by
      have := At.up (p := cur) ht (rest.reverse ++ [n]) (by simpa using h) (by simp)
      exact this
    rw [List.cons_append, walk, if_pos (get_of_at ht h1)]
    cases hr : rest with
    | nil =>
      subst hr
      rw [get_of_at ht (show At fs (n :: cur) (.link t) from h), List.nil_append]
    | cons m r =>
      have h2 : At fs (n :: cur) .dir := At.up ht rest.reverse h (by simp [hr])
      rw [get_of_at ht h2, ← hr]
      exact walk_link ht k t more rest (n :: cur) (by simp [hr]) h

theorem resolve_link {fs : FS} (ht : Tree fs) {n : Name} {d t : Path}
    (h : At fs (n :: d) (.link t)) (more : List Name) :
    resolve fs (more.reverse ++ n :: d) = walk fs 39 [] (t.reverse ++ more) := by
  have := walk_link ht 39 t more (n :: d).reverse [] (by simp) (by simpa using h)
  simpa [resolve, MAXSYMLINKS] using this

theorem resolve_link_at {fs : FS} (ht : Tree fs) {n : Name} {d t : Path} {o : Obj}
    (h : At fs (n :: d) (.link t)) (more : List Name) (ho : At fs (more.reverse ++ t) o)
    (hl : ∀ t, o ≠ .link t) :
    resolve fs (more.reverse ++ n :: d) = .at (more.reverse ++ t) := by
  rw [resolve_link ht h]
  have := walk_at ht 39 (t.reverse ++ more) [] (o := o) (by simpa using ho) hl
  simpa using this

theorem resolve_link_missing {fs : FS} (ht : Tree fs) {n m : Name} {d d' : Path}
    (h : At fs (n :: d) (.link (m :: d'))) (hd : At fs d' .dir) (hf : Free fs (m :: d')) :
    resolve fs (n :: d) = .missing d' m := by
  have h1 := resolve_link ht h []
  have := walk_missing ht 39 m d'.reverse [] (by simpa using hd) (by simpa using get_none hf)
  simp only [List.reverse_nil, List.nil_append, List.append_nil, List.reverse_cons] at h1
  rw [h1]
  simpa using this

/-! ### What the search finds is there -/

/-- What a search has found is so. -/
def Good (fs : FS) : Found → Prop
  | .at q => (fs.get q).isSome
  | .missing d n => fs.get d = some .dir ∧ fs.get (n :: d) = none
  | .error _ => True

theorem walk_good {fs : FS} (k : Nat) (cur : Path) (rest : List Name)
    (hc : (fs.get cur).isSome) : Good fs (walk fs k cur rest) := by
  fun_induction walk fs k cur rest with
  | case1 k cur => exact hc
  | case2 k cur n hd hn => exact ⟨hd, hn⟩
  | case3 => trivial
  | case4 => trivial
  | case5 k n rest cur hd t hn ih => exact ih rfl
  | case6 k cur n rest hd o hn hg ih => exact ih (by rw [hg]; rfl)
  | case7 => trivial

theorem resolve_good (fs : FS) (p : Path) : Good fs (resolve fs p) := walk_good _ _ _ rfl

theorem resolve_miss {fs : FS} {p d : Path} {n : Name} (h : resolve fs p = .missing d n) :
    fs.get d = some .dir ∧ fs.get (n :: d) = none := by
  have := resolve_good fs p
  rw [h] at this; exact this

theorem resolveLast_miss {fs : FS} {p d : Path} {n : Name}
    (h : resolveLast fs p = .missing d n) : fs.get d = some .dir ∧ fs.get (n :: d) = none := by
  cases p with
  | nil => cases h
  | cons m p =>
    simp only [resolveLast] at h
    split at h
    · split at h
      · rename_i hd
        split at h
        · rename_i hn; injection h with h1 h2; subst h1 h2; exact ⟨hd, hn⟩
        · cases h
      · cases h
    · cases h
    · cases h

/-! ### Copying -/

/-- A copy without errors: all bytes arrive. -/
theorem copyLoop_all (io : Io) : ∀ (r : List Byte) (n : Nat) (o : Out),
    o.disk.length + o.buf.length + r.length ≤ io.room →
    (∀ i, io.bad = some i → n + r.length ≤ i) →
    (copyLoop io r n o).2 = n + r.length ∧
    ((copyLoop io r n o).1.flush io).1.disk = o.disk ++ o.buf ++ r
  | [], n, o, hr, _ => by
    simp only [copyLoop, List.length_nil, Nat.add_zero, Out.flush, List.append_nil, true_and]
    rw [List.take_of_length_le (by simp at hr; omega)]
  | c :: r, n, o, hr, hb => by
    simp only [List.length_cons] at hr hb
    have hbad : io.bad ≠ some n := by
      intro h; have := hb n h; omega
    have hput : ∃ o', Out.put io o c = (o', true) ∧ o'.disk ++ o'.buf = o.disk ++ o.buf ++ [c] := by
      unfold Out.put
      by_cases hl : o.buf.length < io.block
      · rw [if_pos hl]; exact ⟨_, rfl, by simp⟩
      · rw [if_neg hl]
        have ht : o.buf.take (io.room - o.disk.length) = o.buf :=
          List.take_of_length_le (by omega)
        refine ⟨⟨o.disk ++ o.buf, [c]⟩, ?_, rfl⟩
        simp only [Out.flush, ht, decide_true, if_true]
    obtain ⟨o', hp, ho⟩ := hput
    have hlen : o'.disk.length + o'.buf.length = o.disk.length + o.buf.length + 1 := by
      have := congrArg List.length ho; simp at this; omega
    have ih := copyLoop_all io r (n + 1) o' (by omega) (fun i hi => by have := hb i hi; omega)
    unfold copyLoop
    rw [if_neg hbad, hp]
    dsimp only
    rw [if_pos rfl, ih.1, ih.2, ho]
    refine ⟨by simp only [List.length_cons]; omega, by simp⟩

/-- What the disk has got is a prefix of what was read. -/
theorem copyLoop_prefix (io : Io) : ∀ (r : List Byte) (n : Nat) (o : Out) (pre : List Byte),
    (o.disk ++ o.buf <+: pre ∨ o.disk <+: pre ∧ o.buf = []) →
    (o.disk ++ o.buf = pre) →
    ((copyLoop io r n o).1.flush io).1.disk <+: pre ++ r
  | [], n, o, pre, _, he => by
    simp only [copyLoop, Out.flush, List.append_nil]
    rw [← he]
    exact List.prefix_append_right_inj o.disk |>.2 (List.take_prefix _ _)
  | c :: r, n, o, pre, _, he => by
    unfold copyLoop
    split
    · simp only [Out.flush]
      have h1 : o.disk ++ o.buf.take (io.room - o.disk.length) <+: pre := by
        rw [← he]; exact List.prefix_append_right_inj o.disk |>.2 (List.take_prefix _ _)
      exact h1.trans (List.prefix_append _ _)
    · dsimp only
      split
      · rename_i hw
        have key : (Out.put io o c).1.disk ++ (Out.put io o c).1.buf = pre ++ [c] := by
          rw [← he]
          unfold Out.put at hw ⊢
          split
          · simp
          · rename_i hl
            rw [if_neg hl] at hw
            dsimp only at hw ⊢
            split at hw
            · rename_i hf
              rw [if_pos hf]
              simp only [Out.flush, decide_eq_true_eq, List.length_take] at hf ⊢
              rw [List.take_of_length_le (by omega)]
            · cases hw
        have := copyLoop_prefix io r (n + 1) _ (pre ++ [c]) (.inl (key ▸ List.prefix_refl _)) key
        simpa using this
      · rename_i hw
        unfold Out.put at hw ⊢
        split
        · rename_i hl; rw [if_pos hl] at hw; exact absurd rfl hw
        · rename_i hl
          rw [if_neg hl] at hw
          dsimp only at hw ⊢
          split at hw
          · exact absurd rfl hw
          · rename_i hf
            rw [if_neg hf]
            simp only [Out.flush, List.take_nil, List.append_nil]
            have h1 : o.disk ++ o.buf.take (io.room - o.disk.length) <+: pre := by
              rw [← he]; exact List.prefix_append_right_inj o.disk |>.2 (List.take_prefix _ _)
            exact h1.trans (List.prefix_append _ _)

/-- A copy that fits into the buffer: the error is only seen by `fclose`. -/
theorem copyLoop_buffer (io : Io) (hb : io.bad = none) : ∀ (r : List Byte) (n : Nat) (o : Out),
    o.buf.length + r.length ≤ io.block →
    copyLoop io r n o = (⟨o.disk, o.buf ++ r⟩, n + r.length)
  | [], n, o, _ => by simp [copyLoop]
  | c :: r, n, o, hl => by
    simp only [List.length_cons] at hl
    unfold copyLoop
    have hp : Out.put io o c = (⟨o.disk, o.buf ++ [c]⟩, true) := by
      unfold Out.put; rw [if_pos (by omega)]
    rw [hb, if_neg (by simp), hp]
    dsimp only
    rw [if_pos rfl, copyLoop_buffer io hb r _ _ (by simp; omega)]
    simp only [List.append_assoc, List.singleton_append, List.length_cons, Prod.mk.injEq, true_and]
    omega

/-- A copy that stops at a byte that cannot be read. -/
theorem copyLoop_bad (io : Io) (i : Nat) (hb : io.bad = some i) :
    ∀ (r : List Byte) (n : Nat) (o : Out),
    o.disk.length + o.buf.length + r.length ≤ io.room → n ≤ i → i < n + r.length →
    (copyLoop io r n o).2 = i ∧
    ((copyLoop io r n o).1.flush io).1.disk = o.disk ++ o.buf ++ r.take (i - n)
  | [], n, o, _, _, h2 => by simp only [List.length_nil] at h2; omega
  | c :: r, n, o, hr, h1, h2 => by
    simp only [List.length_cons] at hr h2
    unfold copyLoop
    by_cases hn : n = i
    · subst hn
      rw [if_pos hb]
      refine ⟨rfl, ?_⟩
      simp only [Out.flush, Nat.sub_self, List.take_zero, List.append_nil]
      rw [List.take_of_length_le (by omega)]
    · rw [if_neg (by rw [hb]; simpa using fun h => hn h.symm)]
      have hput : ∃ o', Out.put io o c = (o', true) ∧ o'.disk ++ o'.buf = o.disk ++ o.buf ++ [c] := by
        unfold Out.put
        by_cases hl : o.buf.length < io.block
        · rw [if_pos hl]; exact ⟨_, rfl, by simp⟩
        · rw [if_neg hl]
          have ht : o.buf.take (io.room - o.disk.length) = o.buf :=
            List.take_of_length_le (by omega)
          refine ⟨⟨o.disk ++ o.buf, [c]⟩, ?_, rfl⟩
          simp only [Out.flush, ht, decide_true, if_true]
      obtain ⟨o', hp, ho⟩ := hput
      have hlen : o'.disk.length + o'.buf.length = o.disk.length + o.buf.length + 1 := by
        have := congrArg List.length ho; simp at this; omega
      have ih := copyLoop_bad io i hb r (n + 1) o' (by omega) (by omega) (by omega)
      rw [hp]
      dsimp only
      rw [if_pos rfl, ih.1, ih.2, ho]
      refine ⟨rfl, ?_⟩
      rw [show i - n = (i - (n + 1)) + 1 by omega, List.take_succ_cons]
      simp

theorem at_add {fs : FS} {p : Path} (hp : p ≠ []) (hf : Free fs p) (o : Obj) :
    At (fs.add p o) p o ∧ (∀ o', At (fs.add p o) p o' → o' = o) ∧
    ∀ q o', q ≠ p → (At (fs.add p o) q o' ↔ At fs q o') := by
  refine ⟨.inr (List.mem_cons_self ..), fun o' h => ?_, fun q o' hq => ?_⟩
  · rcases h with ⟨h, -⟩ | h
    · exact absurd h hp
    · rcases List.mem_cons.1 h with h | h
      · injection h
      · exact absurd (.inr h) (hf o')
  · constructor
    · rintro (h | h)
      · exact .inl h
      · rcases List.mem_cons.1 h with h | h
        · injection h with h1 h2; exact absurd h1 hq
        · exact .inr h
    · rintro (h | h)
      · exact .inl h
      · exact .inr (List.mem_cons_of_mem _ h)

/-! ### Removing -/

/-- The files without those for which `P` holds. -/
noncomputable def without (fs : FS) (P : Path → Prop) : FS :=
  open Classical in fs.filter fun e => ¬ P e.1

theorem mem_without {fs : FS} {P : Path → Prop} {p : Path} {o : Obj} :
    (p, o) ∈ without fs P ↔ (p, o) ∈ fs ∧ ¬ P p := by
  classical
  simp only [without, List.mem_filter, decide_eq_true_eq]

theorem without_congr {fs : FS} {P Q : Path → Prop} (h : ∀ e ∈ fs, P e.1 ↔ Q e.1) :
    without fs P = without fs Q := by
  classical
  unfold without
  apply List.filter_congr
  intro e he
  simp [h e he]

theorem without_without {fs : FS} {P Q : Path → Prop} :
    without (without fs P) Q = without fs fun p => P p ∨ Q p := by
  classical
  unfold without
  rw [List.filter_filter]
  apply List.filter_congr
  intro e he
  by_cases h1 : P e.1 <;> by_cases h2 : Q e.1 <;> simp [h1, h2]

theorem erase_eq_without (fs : FS) (p : Path) : fs.erase p = without fs (· = p) := by
  classical
  unfold FS.erase without
  apply List.filter_congr
  intro e he
  simp

theorem tree_without {fs : FS} (ht : Tree fs) {P : Path → Prop} (hP : ∀ n p, P p → P (n :: p)) :
    Tree (without fs P) := by
  refine ⟨?_, ?_, ?_⟩
  · classical
    exact ht.one.sublist (List.filter_sublist.map _)
  · intro o h; exact ht.root o (mem_without.1 h).1
  · intro n p o h
    obtain ⟨h1, h2⟩ := mem_without.1 h
    rcases ht.parent n p o h1 with ⟨h3, -⟩ | h3
    · exact .inl ⟨h3, rfl⟩
    · exact .inr (mem_without.2 ⟨h3, fun h => h2 (hP n p h)⟩)

theorem names_mem {fs : FS} {d : Path} {n : Name} :
    n ∈ fs.names d ↔ ∃ o, (n :: d, o) ∈ fs := by
  unfold FS.names
  simp only [List.mem_filterMap]
  constructor
  · rintro ⟨⟨q, o⟩, he, h⟩
    cases q with
    | nil => cases h
    | cons m p =>
      dsimp only at h
      split at h
      · rename_i hp; injection h with h; subst hp h; exact ⟨o, he⟩
      · cases h
  · rintro ⟨o, he⟩
    exact ⟨(n :: d, o), he, by simp⟩

theorem names_nodup {fs : FS} (h : (fs.map (·.1)).Nodup) (d : Path) : (fs.names d).Nodup := by
  induction fs with
  | nil => exact List.nodup_nil
  | cons e fs ih =>
    simp only [List.map_cons, List.nodup_cons] at h
    have ih := ih h.2
    unfold FS.names at ih ⊢
    rw [List.filterMap_cons]
    split
    · exact ih
    · rename_i n hn
      refine List.nodup_cons.2 ⟨?_, ih⟩
      intro hm
      obtain ⟨o, ho⟩ := names_mem.1 (show n ∈ FS.names fs d from hm)
      have : e.1 = n :: d := by
        obtain ⟨q, o'⟩ := e
        cases q with
        | nil => cases hn
        | cons m p =>
          dsimp only at hn
          split at hn
          · rename_i hp; injection hn with hn; subst hp hn; rfl
          · cases hn
      exact h.1 (this ▸ List.mem_map_of_mem (f := (·.1)) ho)

theorem Plain.child {env : Env} {fs : FS} {p : Path} (h : Plain env fs p) (n : Name) :
    Plain env fs (n :: p) := by
  have hs : ∀ {q}, Below (n :: p) q → Below p q := fun hq => (List.suffix_cons n p).trans hq
  exact ⟨fun q o hq => h.kinds q o (hs hq), fun q o hq => h.short q o (hs hq),
    fun q hq => h.list q (hs hq), fun q hq => h.write q (hs hq)⟩

theorem Plain.less {env : Env} {fs : FS} {p : Path} (h : Plain env fs p) (P : Path → Prop) :
    Plain env (without fs P) p :=
  ⟨fun q o hq hm => h.kinds q o hq (mem_without.1 hm).1,
    fun q o hq hm => h.short q o hq (mem_without.1 hm).1, h.list, h.write⟩

theorem below_up {n : Name} {p q : Path} : Below p q → Below p (n :: q) :=
  fun h => h.trans (List.suffix_cons n q)

theorem below_strict {p q : Path} (h : Below p q) (hne : q ≠ p) : ∃ n, Below (n :: p) q := by
  obtain ⟨l, rfl⟩ := h
  rcases List.eq_nil_or_concat l with rfl | ⟨l', n, rfl⟩
  · exact absurd rfl hne
  · exact ⟨n, l', by simp⟩

theorem below_sibling {m n : Name} {p : Path} (h : Below (n :: p) (m :: p)) : n = m := by
  have := h.eq_of_length (by simp)
  injection this

theorem below_mem {fs : FS} (ht : Tree fs) {p q : Path} {o : Obj} (hp : p ≠ [])
    (h : Below p q) (hq : (q, o) ∈ fs) : ∃ o', (p, o') ∈ fs := by
  obtain ⟨l, rfl⟩ := h
  by_cases hl : l = []
  · subst hl; exact ⟨o, hq⟩
  · rcases At.up ht l (.inr hq) hl with ⟨h1, -⟩ | h1
    · exact absurd h1 hp
    · exact ⟨_, h1⟩

/-- The loop over the names of a directory, if one call does what it should. -/
theorem fold_without {env : Env} (p : Path) (hp : p ≠ []) (step : FS → Name → Except Crash FS)
    (hstep : ∀ fs n, Tree fs → Plain env fs p → (∃ o, (n :: p, o) ∈ fs) →
      step fs n = .ok (without fs (Below (n :: p)))) :
    ∀ (ns : List Name) (fs : FS), ns.Nodup → Tree fs → Plain env fs p →
    (∀ n ∈ ns, ∃ o, (n :: p, o) ∈ fs) →
    ns.foldlM step fs = .ok (without fs fun q => ∃ n ∈ ns, Below (n :: p) q)
  | [], fs, _, _, _, _ => by
    classical
    have : without fs (fun q => ∃ n ∈ ([] : List Name), Below (n :: p) q) = fs := by
      unfold without
      rw [List.filter_eq_self]
      intro e _
      simp
    rw [this]
    rfl
  | n :: ns, fs, hn, ht, hpl, hm => by
    have h1 := hstep fs n ht hpl (hm n (List.mem_cons_self ..))
    have ht1 : Tree (without fs (Below (n :: p))) :=
      tree_without ht (fun m q h => below_up h)
    have ih := fold_without (env := env) p hp step hstep ns _ (List.nodup_cons.1 hn).2 ht1
      (hpl.less _) (fun m hmm => by
        obtain ⟨o, ho⟩ := hm m (List.mem_cons_of_mem _ hmm)
        refine ⟨o, mem_without.2 ⟨ho, fun hb => ?_⟩⟩
        exact (List.nodup_cons.1 hn).1 (below_sibling hb ▸ hmm))
    rw [List.foldlM_cons, h1]
    show ns.foldlM step (without fs (Below (n :: p))) = _
    rw [ih, without_without]
    congr 1
    apply without_congr
    intro e _
    simp only [List.mem_cons, exists_eq_or_imp]

theorem removeRecursive_plain (env : Env) : ∀ (k : Nat) (fs : FS) (n : Name) (d : Path),
    PATH_MAX - strlen (n :: d) ≤ k → Tree fs → Plain env fs (n :: d) →
    env.noWrite d = false → (∃ o, (n :: d, o) ∈ fs) →
    removeRecursive env fs (n :: d) = .ok (without fs (Below (n :: d))) := by
  intro k
  induction k with
  | zero =>
    intro fs n d hk ht hpl _ ⟨o, ho⟩
    have := hpl.short _ o (List.suffix_refl _) ho
    rw [← strlen_eq] at this
    omega
  | succ k ih =>
    intro fs n d hk ht hpl hw ⟨o, ho⟩
    have hat : At fs (n :: d) o := .inr ho
    unfold removeRecursive
    rcases hpl.kinds _ o (List.suffix_refl _) ho with rfl | ⟨b, rfl⟩
    · rw [stat_at ht hat (by simp)]
      dsimp only
      rw [if_neg (by rw [hpl.list _ (List.suffix_refl _)]; simp)]
      have hfold := fold_without (env := env) (n :: d) (by simp)
        (fun fs m => if _h : strlen (m :: n :: d) < PATH_MAX then removeRecursive env fs (m :: n :: d)
          else .error .nameTooLong)
        (fun fs' m ht' hpl' hm => by
          obtain ⟨o', ho'⟩ := hm
          have hs := hpl'.short _ o' (List.suffix_cons m (n :: d)) ho'
          rw [← strlen_eq] at hs
          rw [dif_pos hs]
          exact ih fs' m (n :: d) (by simp only [strlen] at hk hs ⊢; omega) ht' (hpl'.child m)
            (hpl'.write _ (List.suffix_refl _)) ⟨o', ho'⟩)
        (fs.names (n :: d)) fs (names_nodup ht.one _) ht hpl (fun m hm => names_mem.1 hm)
      rw [hfold]
      generalize hfs' : (without fs fun q => ∃ m ∈ fs.names (n :: d), Below (m :: n :: d) q) = fs'
      have ht' : Tree fs' := by
        rw [← hfs']
        exact tree_without ht (fun m q ⟨x, h1, h2⟩ => ⟨x, h1, below_up h2⟩)
      have hat' : At fs' (n :: d) .dir := by
        rw [← hfs']
        refine .inr (mem_without.2 ⟨ho, ?_⟩)
        rintro ⟨x, -, h⟩
        have := h.length_le; simp at this; omega
      have hno : fs'.names (n :: d) = [] := by
        apply List.eq_nil_iff_forall_not_mem.2
        intro m hm
        obtain ⟨o', ho'⟩ := names_mem.1 hm
        rw [← hfs'] at ho'
        obtain ⟨h1, h2⟩ := mem_without.1 ho'
        exact h2 ⟨m, names_mem.2 ⟨o', h1⟩, List.suffix_refl _⟩
      show Except.ok (rmdir env fs' (n :: d)).1 = _
      simp only [rmdir, resolveLast_at ht' hat', hw, Bool.false_eq_true, if_false,
        get_of_at ht' hat', hno, and_self, if_true]
      rw [erase_eq_without, ← hfs', without_without]
      congr 1
      apply without_congr
      intro e he
      constructor
      · rintro (⟨m, -, h⟩ | h)
        · exact (List.suffix_cons m _).trans h
        · rw [h]; exact List.suffix_refl _
      · intro h
        by_cases hq : e.1 = n :: d
        · exact .inr hq
        · obtain ⟨m, hm⟩ := below_strict h hq
          exact .inl ⟨m, names_mem.2 (below_mem ht (by simp) hm he), hm⟩
    · rw [stat_at ht hat (by simp)]
      simp only [unlink, resolveLast_at ht hat, hw, Bool.false_eq_true, if_false,
        get_of_at ht hat, Option.some.injEq, reduceCtorEq]
      rw [erase_eq_without]
      congr 1
      apply without_congr
      intro e he
      constructor
      · intro h; rw [h]; exact List.suffix_refl _
      · intro h
        apply Classical.byContradiction
        intro hq
        obtain ⟨m, hm⟩ := below_strict h hq
        obtain ⟨o', ho'⟩ := below_mem ht (by simp) hm he
        have := get_of_at ht (ht.parent _ _ _ ho')
        rw [get_of_at ht hat] at this
        cases this

theorem erase_sublist (fs : FS) (p : Path) : (fs.erase p).Sublist fs := List.filter_sublist

theorem unlink_sublist (env : Env) (fs : FS) (p : Path) : (unlink env fs p).1.Sublist fs := by
  unfold unlink
  split
  · exact List.Sublist.refl _
  · split
    · exact List.Sublist.refl _
    · split
      · exact List.Sublist.refl _
      · exact erase_sublist ..
  · exact List.Sublist.refl _

theorem rmdir_sublist (env : Env) (fs : FS) (p : Path) : (rmdir env fs p).1.Sublist fs := by
  unfold rmdir
  split
  · exact List.Sublist.refl _
  · split
    · exact List.Sublist.refl _
    · split
      · exact erase_sublist ..
      · exact List.Sublist.refl _
  · exact List.Sublist.refl _

theorem foldlM_sublist (step : FS → Name → Except Crash FS)
    (hs : ∀ fs n fs', step fs n = .ok fs' → fs'.Sublist fs) :
    ∀ (ns : List Name) (fs fs' : FS), ns.foldlM step fs = .ok fs' → fs'.Sublist fs
  | [], fs, fs', h => by
    rw [List.foldlM_nil] at h; injection h with h; subst h; exact List.Sublist.refl _
  | n :: ns, fs, fs', h => by
    rw [List.foldlM_cons] at h
    cases h1 : step fs n with
    | error e => rw [h1] at h; cases h
    | ok fs1 =>
      rw [h1] at h
      exact (foldlM_sublist step hs ns fs1 fs' h).trans (hs fs n fs1 h1)

theorem removeRecursive_sublist (env : Env) : ∀ (k : Nat) (fs : FS) (p : Path) (fs' : FS),
    PATH_MAX - strlen p ≤ k → removeRecursive env fs p = .ok fs' → fs'.Sublist fs := by
  intro k
  induction k with
  | zero =>
    intro fs p fs' hk h
    unfold removeRecursive at h
    split at h
    · injection h with h; subst h; exact List.Sublist.refl _
    · injection h with h; subst h; exact unlink_sublist ..
    · split at h
      · cases h
      · cases hf : List.foldlM (fun fs n =>
            if _h : strlen (n :: p) < PATH_MAX then removeRecursive env fs (n :: p)
            else .error .nameTooLong) fs (fs.names ‹_›) with
        | error e => rw [hf] at h; cases h
        | ok fs1 =>
          rw [hf] at h; injection h with h; subst h
          refine (rmdir_sublist ..).trans (foldlM_sublist _ ?_ _ _ _ hf)
          intro fs n fs' h
          rw [dif_neg (by simp only [strlen]; omega)] at h
          cases h
    · injection h with h; subst h; exact List.Sublist.refl _
  | succ k ih =>
    intro fs p fs' hk h
    unfold removeRecursive at h
    split at h
    · injection h with h; subst h; exact List.Sublist.refl _
    · injection h with h; subst h; exact unlink_sublist ..
    · split at h
      · cases h
      · cases hf : List.foldlM (fun fs n =>
            if _h : strlen (n :: p) < PATH_MAX then removeRecursive env fs (n :: p)
            else .error .nameTooLong) fs (fs.names ‹_›) with
        | error e => rw [hf] at h; cases h
        | ok fs1 =>
          rw [hf] at h; injection h with h; subst h
          refine (rmdir_sublist ..).trans (foldlM_sublist _ ?_ _ _ _ hf)
          intro fs n fs' h
          split at h
          · exact ih _ _ _ (by simp only [strlen]; omega) h
          · cases h
    · injection h with h; subst h; exact List.Sublist.refl _

end Ulp.Files
