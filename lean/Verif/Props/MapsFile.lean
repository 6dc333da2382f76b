/-
C55, C56: what is read from `/proc/PID/maps`.
-/
import Verif.Proof.MapsFile
import Verif.Props.VmaType
import Verif.Props.Maps
namespace Ulp.MapsFile
open Ulp.ProcMaps
open Ulp.MapKind (text)
open Ulp.VmaType (VmaType getVmaType)
open Ulp.Align
open Ulp.Str (isSpace)

/-- The numbers and permissions recorded are those of the mapping. -/
def SameNumbers (r : Rec) (m : Mapping) : Prop :=
  r.start.toNat = m.start ∧ r.stop.toNat = m.stop ∧ r.perms = m.perms ∧ r.off.toNat = m.offset ∧
  r.major.toNat = m.major ∧ r.minor.toNat = m.minor ∧ r.inode.toNat = m.inode

/-- A name that can be read: it does not begin with a blank, has no NUL and no end of
line (the kernel writes these as `\012`), and the line fits into the buffer. -/
def Readable (m : Mapping) : Prop :=
  (∀ c, m.name.head? = some c → ¬ blank c) ∧ 0 ∉ m.name ∧ 10 ∉ m.name ∧ m.line.length ≤ 1023

/-- The part of a name that is recorded: up to the first blank, no more than 255
bytes. -/
def Kept (name w : List Byte) : Prop :=
  ∃ word rest, name = word ++ rest ∧ (∀ c ∈ word, ¬ blank c) ∧ (∀ c, rest.head? = some c → blank c) ∧ w = word.take 255

theorem isSpace_iff (c : Byte) : isSpace c = true ↔ blank c := by
  rw [isSpace, decide_eq_true_iff]
  rfl

theorem same_recOf {m : Mapping} (h : m.InRange) (n : List Byte) : SameNumbers { recOf m with name := n } m := by
  obtain ⟨h1, h2, h3, h4, h5, h6⟩ := h
  simp only [SameNumbers, recOf, BitVec.toNat_ofNat]
  exact ⟨by omega, by omega, trivial, by omega, by omega, by omega, by omega⟩

theorem kept_cut (name : List Byte) : Kept name (cut name) := by
  refine ⟨name.takeWhile fun c => !isSpace c, name.dropWhile fun c => !isSpace c,
    List.takeWhile_append_dropWhile.symm, ?_, ?_, rfl⟩
  · intro c hc hb
    have := VmaType.mem_takeWhile hc
    rw [(isSpace_iff c).2 hb] at this
    simp at this
  · intro c hc
    cases e : name.dropWhile fun c => !isSpace c with
    | nil => rw [e] at hc; simp at hc
    | cons d r =>
      rw [e] at hc
      simp only [List.head?_cons, Option.some.injEq] at hc
      subst hc
      have h1 : (name.dropWhile fun c => !isSpace c) ≠ [] := by rw [e]; simp
      have h2 := List.head_dropWhile_not (fun c : Byte => !isSpace c) h1
      simp only [e, List.head_cons] at h2
      rw [← isSpace_iff]
      simpa using h2

theorem line_fgets {m : Mapping} (hr : Readable m) (rest : List Byte) :
    fgets 1023 (m.line ++ rest) = (m.line, rest) ∧ (0 : Byte) ∉ m.line := by
  obtain ⟨h1, h2, h3, h4⟩ := hr
  obtain ⟨pad, hp, _, _, e⟩ := line_eq m
  have hb := front_bytes m
  have hs : ∀ c ∈ m.front ++ (pad ++ m.name), c ≠ 10 ∧ c ≠ 0 := by
    intro c hc
    rcases List.mem_append.1 hc with hc | hc
    · exact hb c hc
    · rcases List.mem_append.1 hc with hc | hc
      · rw [hp c hc]; decide
      · exact ⟨fun e => h3 (e ▸ hc), fun e => h2 (e ▸ hc)⟩
  have e' : m.line = (m.front ++ (pad ++ m.name)) ++ [10] := by rw [e]; simp only [List.append_assoc]
  rw [e'] at h4 ⊢
  refine ⟨fgets_line (fun h => (hs _ h).1 rfl) (by simp only [List.length_append, List.length_singleton] at h4 ⊢; omega), ?_⟩
  intro h
  rcases List.mem_append.1 h with h | h
  · exact (hs _ h).2 rfl
  · exact absurd (List.mem_singleton.1 h) (by decide)

theorem head_space {m : Mapping} (h : ∀ c, m.name.head? = some c → ¬ blank c) :
    ∀ c r, m.name = c :: r → isSpace c = false := by
  intro c r e
  have := h c (by rw [e]; rfl)
  rw [← isSpace_iff] at this
  simpa using this

theorem readMaps_file : ∀ (l : List Mapping), (∀ m ∈ l, m.InRange ∧ Readable m) →
    readMaps (file l) = some (l.map recOf, 0)
  | [], _ => by rw [file, List.map_nil, List.flatten_nil, readMaps]; rfl
  | m :: l, h => by
    obtain ⟨h1, h2⟩ := h m (by simp)
    obtain ⟨f1, f2⟩ := line_fgets h2 (file l)
    have hf : file (m :: l) = m.line ++ file l := rfl
    have h0 : m.line ++ file l ≠ [] := by simp [Mapping.line]
    rw [hf, readMaps_step h0 f1 f2 (parse_line h1 (head_space h2.1)), readMaps_file l fun m hm => h m (by simp [hm])]
    rfl

/-! ## C55 -/

/-- **C55.** Whatever mappings a process has, if their lines fit into the buffer the
file is read to the end, and there is one record for each mapping, in order, with
its addresses, permissions, offset, device and inode, and its name up to the first
blank, at most 255 bytes of it. -/
theorem C55_fields (l : List Mapping) (h : ∀ m ∈ l, m.InRange ∧ Readable m) :
    ∃ rs, readMaps (file l) = some (rs, 0) ∧ rs.length = l.length ∧
      ∀ (i : Nat) (m : Mapping), l[i]? = some m → ∃ r, rs[i]? = some r ∧ SameNumbers r m ∧ Kept m.name r.name := by
  refine ⟨_, readMaps_file l h, List.length_map .., ?_⟩
  intro i m hi
  refine ⟨recOf m, by rw [List.getElem?_map, hi]; rfl, ?_, kept_cut m.name⟩
  exact same_recOf (h m (List.mem_of_getElem? hi)).1 _

/-- A name without blanks and NUL bytes, of at most 255 bytes. -/
def Plain (name : List Byte) : Prop := (∀ c ∈ name, ¬ blank c ∧ c ≠ 0) ∧ name.length ≤ 255

theorem plain_readable {m : Mapping} (h : m.InRange) (hp : Plain m.name) : Readable m := by
  obtain ⟨h1, h2⟩ := hp
  obtain ⟨pad, _, hl, _, e⟩ := line_eq m
  have hf := front_length h
  refine ⟨?_, fun h => (h1 _ h).2 rfl, fun h => (h1 _ h).1 (by unfold blank; decide), ?_⟩
  · intro c hc
    exact (h1 c (List.mem_of_mem_head? hc)).1
  · rw [e]
    simp only [List.length_append, List.length_singleton]
    omega

theorem plain_cut {name : List Byte} (h : Plain name) : cut name = name := by
  have := List.takeWhile_append_of_pos (p := fun c : Byte => !isSpace c) (l₁ := name) (l₂ := []) (by
    intro c hc
    have := (h.1 c hc).1
    rw [← isSpace_iff] at this
    simpa using this)
  rw [List.append_nil, List.takeWhile_nil, List.append_nil] at this
  rw [cut, this]
  exact List.take_of_length_le h.2

/-- **C55 (part).** Names without blanks of at most 255 bytes are recorded as they
are.  Missing: other names; see `C55_blank`, `C55_long_line`. -/
theorem C55_names_partial (l : List Mapping) (h : ∀ m ∈ l, m.InRange ∧ Plain m.name) :
    ∃ rs, readMaps (file l) = some (rs, 0) ∧ rs.length = l.length ∧
      ∀ (i : Nat) (m : Mapping), l[i]? = some m → ∃ r, rs[i]? = some r ∧ SameNumbers r m ∧ r.name = m.name := by
  refine ⟨_, readMaps_file l fun m hm => ⟨(h m hm).1, plain_readable (h m hm).1 (h m hm).2⟩, List.length_map .., ?_⟩
  intro i m hi
  have hm := h m (List.mem_of_getElem? hi)
  exact ⟨recOf m, by rw [List.getElem?_map, hi]; rfl, same_recOf hm.1 _, plain_cut hm.2⟩

/-- **C55.** From the file to the lookup: for the mappings of a process, which are not
empty and apart from each other, reading the file makes every address be looked up
to the mapping that has it, and to nothing if no mapping has it. -/
theorem C55_lookup (info : Nat → Vma.Vma) (ptr : Nat → Nat) (hptr : ∀ i j, ptr i = ptr j → i = j) (h0 : ∀ i, ptr i ≠ 0)
    (l : List Mapping) (h : ∀ m ∈ l, m.InRange ∧ Readable m) (hne : ∀ m ∈ l, m.start < m.stop)
    (hap : l.Pairwise fun m n => m.stop ≤ n.start) :
    ∃ s, readTask ptr (Vma.initVmas info) false (file l) = some (s, 0) ∧
      (∀ a : BitVec 64, (∀ m ∈ l, ¬ (m.start ≤ a.toNat ∧ a.toNat < m.stop)) → Vma.findVma s a = some 0) ∧
      ∀ (a : BitVec 64) (i : Nat) (m : Mapping), l[i]? = some m → m.start ≤ a.toNat → a.toNat < m.stop →
        Vma.findVma s a = some (ptr i) := by
  have hr := readMaps_file l h
  generalize hL : (l.map recOf).mapIdx (fun i r => ((ptr i, ⟨r.start, r.stop, r.name⟩) : Nat × Vma.Line)) = L
  have hget : ∀ i x, L[i]? = some x → ∃ m, l[i]? = some m ∧ x.1 = ptr i ∧ x.2.start.toNat = m.start ∧
      x.2.stop.toNat = m.stop := by
    intro i x hx
    rw [← hL, List.getElem?_mapIdx, List.getElem?_map] at hx
    cases hm : l[i]? with
    | none => rw [hm] at hx; simp at hx
    | some m =>
      rw [hm] at hx
      simp only [Option.map_some, Option.some.injEq] at hx
      subst hx
      have := same_recOf (h m (List.mem_of_getElem? hm)).1 (cut m.name)
      exact ⟨m, rfl, rfl, this.1, this.2.1⟩
  have hlen : L.length = l.length := by rw [← hL]; simp
  have hnd : (0 :: L.map (·.1)).Nodup := by
    have e : L.map (·.1) = (List.range l.length).map ptr := by
      apply List.ext_getElem?
      intro i
      rw [List.getElem?_map, List.getElem?_map]
      by_cases hi : i < l.length
      · have hi' : i < L.length := by omega
        rw [List.getElem?_eq_getElem hi', List.getElem?_range hi]
        obtain ⟨m, _, h2, _⟩ := hget i L[i] (List.getElem?_eq_getElem hi')
        simp [h2]
      · rw [List.getElem?_eq_none (by omega), List.getElem?_eq_none (by simpa using hi)]
        rfl
    rw [e, List.nodup_cons]
    refine ⟨?_, ?_⟩
    · intro hm
      obtain ⟨i, _, hi⟩ := List.mem_map.1 hm
      exact h0 i hi
    · rw [List.nodup_iff_pairwise_ne]
      exact List.Pairwise.map ptr (fun a b hab hc => hab (hptr a b hc)) List.nodup_range
  obtain ⟨s, e, f1, f2⟩ := Vma.C46_first_read_found info L hnd (by
      intro x hx
      obtain ⟨i, hi⟩ := List.getElem?_of_mem hx
      obtain ⟨m, h1, _, h3, h4⟩ := hget i x hi
      rw [BitVec.lt_def, h3, h4]
      exact hne m (List.mem_of_getElem? h1)) (by
      rw [List.pairwise_iff_getElem]
      intro i j hi hj hij
      obtain ⟨m, m1, _, m3, m4⟩ := hget i L[i] (List.getElem?_eq_getElem hi)
      obtain ⟨n, n1, _, n3, n4⟩ := hget j L[j] (List.getElem?_eq_getElem hj)
      rw [List.pairwise_iff_getElem] at hap
      have := hap i j (by omega) (by omega) hij
      rw [List.getElem?_eq_getElem (by omega)] at m1 n1
      rw [Option.some.inj m1, Option.some.inj n1] at this
      intro b hb
      simp only [Range.Range.Has, Vma.Line.range] at hb
      omega)
  refine ⟨s, ?_, ?_, ?_⟩
  · rw [readTask, hr]
    simp only [Option.bind_some]
    rw [hL, e]
    rfl
  · intro a ha
    apply f1
    intro x hx hh
    obtain ⟨i, hi⟩ := List.getElem?_of_mem hx
    obtain ⟨m, h1, _, h3, h4⟩ := hget i x hi
    apply ha m (List.mem_of_getElem? h1)
    rw [← h3, ← h4]
    exact hh
  · intro a i m hi h1 h2
    have hil : i < L.length := by rw [hlen]; exact (List.getElem?_eq_some_iff.1 hi).1
    obtain ⟨m', m1, m2, m3, m4⟩ := hget i L[i] (List.getElem?_eq_getElem hil)
    rw [hi] at m1
    cases m1
    rw [← m2]
    apply f2 a _ (List.getElem_mem hil)
    · rw [BitVec.le_def, m3]; exact h1
    · rw [BitVec.lt_def, m4]; exact h2

/-- **C55.** The permissions as bits and the offset in pages. -/
theorem C55_prot (shift pid : Nat) (exe : List Byte) (m : Mapping) (r : Rec) (h : SameNumbers r m) :
    ∃ v, mapInfo shift pid exe r = some v ∧ v.start = r.start ∧ v.stop = r.stop ∧ v.name = r.name ∧
      (v.prot &&& PROT_READ ≠ 0 ↔ m.r = true) ∧ (v.prot &&& PROT_WRITE ≠ 0 ↔ m.w = true) ∧
      (v.prot &&& PROT_EXEC ≠ 0 ↔ m.x = true) ∧ v.pgoff.toNat = m.offset / 2 ^ shift ∧
      v.type = getVmaType pid exe r.name := by
  obtain ⟨h1, h2, h3, h4, h5, h6, h7⟩ := h
  have key : ∀ rr w x s : Bool, ∃ p, perms2prot ((Mapping.perms ⟨0, 0, rr, w, x, s, 0, 0, 0, 0, []⟩) ++
      List.replicate (5 - (Mapping.perms ⟨0, 0, rr, w, x, s, 0, 0, 0, 0, []⟩).length) 0) = some p ∧
      (p &&& PROT_READ ≠ 0 ↔ rr = true) ∧ (p &&& PROT_WRITE ≠ 0 ↔ w = true) ∧ (p &&& PROT_EXEC ≠ 0 ↔ x = true) := by
    intro rr w x s
    cases rr <;> cases w <;> cases x <;> cases s <;> exact ⟨_, rfl, by decide⟩
  obtain ⟨p, hp, p1, p2, p3⟩ := key m.r m.w m.x m.shared
  have hp' : perms2prot (r.perms ++ List.replicate (5 - r.perms.length) 0) = some p := by
    rw [h3]; exact hp
  refine ⟨_, by rw [mapInfo, hp']; rfl, rfl, rfl, rfl, p1, p2, p3, ?_, rfl⟩
  show (r.off >>> shift).toNat = _
  rw [BitVec.toNat_ushiftRight, h4, Nat.shiftRight_eq_div_pow]

/-! ### Findings -/

/-- A mapping of a file whose name has a blank is recorded with another name; so no
mapping of an executable with a blank in its path is recognised as that of the
program itself. -/
theorem C55_blank (pid : Nat) (name w : List Byte) (h : ∃ c ∈ name, blank c) (hw : Kept name w) :
    w ≠ name ∧ getVmaType pid name w ≠ .self := by
  have hne : w ≠ name := by
    obtain ⟨word, rest, e, h1, _, rfl⟩ := hw
    intro hh
    obtain ⟨c, hc, hb⟩ := h
    rw [← hh] at hc
    exact h1 c (List.mem_of_mem_take hc) hb
  refine ⟨hne, ?_⟩
  unfold getVmaType
  dsimp only
  rw [if_neg hne]
  have key : ∀ {c : Prop} [Decidable c] {a b : VmaType}, a ≠ .self → b ≠ .self → (if c then a else b) ≠ .self := by
    intro c _ a b ha hb
    by_cases h : c
    · rw [if_pos h]; exact ha
    · rw [if_neg h]; exact hb
  repeat' apply key
  all_goals exact fun h => by cases h

/-- A line that is too long is read in two parts: if the name goes on after the
buffer is full, the rest of the name is taken for a line of its own. -/
theorem C55_long_line (m : Mapping) (p q rest : List Byte) (h : m.InRange) (hf : m.front.length ≤ 72)
    (hn : m.name = p ++ q) (hp : p.length = 950) (h1 : ∀ c, p.head? = some c → ¬ blank c)
    (h2 : 0 ∉ p) (h3 : 10 ∉ p) :
    ∃ r, SameNumbers r m ∧ Kept p r.name ∧
      readMaps (m.line ++ rest) = (readMaps (q ++ [10] ++ rest)).map fun x => (r :: x.1, x.2) := by
  obtain ⟨pad, hpad, _, hl, e⟩ := line_eq m
  have hn0 : m.name ≠ [] := by
    intro h0
    rw [h0] at hn
    have := congrArg List.length hn
    simp only [List.length_nil, List.length_append] at this
    omega
  have hl := hl hn0
  refine ⟨{ recOf m with name := cut p }, same_recOf h _, kept_cut p, ?_⟩
  have e1 : m.line ++ rest = (m.front ++ (pad ++ p)) ++ (q ++ [10] ++ rest) := by
    rw [e, hn]; simp only [List.append_assoc]
  have hb : ∀ c ∈ m.front ++ (pad ++ p), c ≠ 10 ∧ c ≠ 0 := by
    intro c hc
    rcases List.mem_append.1 hc with hc | hc
    · exact front_bytes m c hc
    · rcases List.mem_append.1 hc with hc | hc
      · rw [hpad c hc]; decide
      · exact ⟨fun e => h3 (e ▸ hc), fun e => h2 (e ▸ hc)⟩
  rw [e1]
  have hp0 := parse_pre h (N := p) (pad := pad) (e := []) (Or.inl rfl) (fun c hc => by rw [hpad c hc]; decide) (by
    intro c r ec
    have := h1 c (by rw [ec]; rfl)
    rw [← isSpace_iff] at this
    simpa using this)
  rw [List.append_nil] at hp0
  refine readMaps_step ?_ (fgets_long (fun h => (hb _ h).1 rfl) ?_) (fun h => (hb _ h).2 rfl) hp0
  · intro h0
    have := congrArg List.length h0
    simp only [List.length_append, List.length_nil] at this
    omega
  · simp only [List.length_append]
    omega

/-- The rest of a name `1-2 rwxpAAAA` makes `sscanf` write past the end of `perms`;
`1-2 r-xp` makes up a mapping that the process does not have; most others make
reading fail. -/
theorem C55_rest :
    readMaps (text "1-2 rwxpAAAA" ++ [10]) = none ∧
    readMaps (text "1-2 r-xp" ++ [10]) =
      some ([⟨1, 2, text "r-xp", 0, 0, 0, 0, []⟩], 0) ∧
    readMaps (text "zzz" ++ [10]) = some ([], -1) := by
  refine ⟨?_, ?_, ?_⟩
  · rw [show text "1-2 rwxpAAAA" ++ [10] = 49 :: (text "-2 rwxpAAAA" ++ [10]) by decide, readMaps,
      show parseLine ((fgets 1023 (49 :: (text "-2 rwxpAAAA" ++ [10]))).1.takeWhile (· ≠ 0)) = none by decide +kernel]
  · rw [show text "1-2 r-xp" ++ [10] = 49 :: (text "-2 r-xp" ++ [10]) by decide, readMaps,
      show parseLine ((fgets 1023 (49 :: (text "-2 r-xp" ++ [10]))).1.takeWhile (· ≠ 0)) =
        some (some ⟨1, 2, text "r-xp", 0, 0, 0, 0, []⟩) by decide +kernel,
      show (fgets 1023 (49 :: (text "-2 r-xp" ++ [10]))).2 = [] by decide +kernel]
    simp only
    rw [readMaps]
    rfl
  · rw [show text "zzz" ++ [10] = 122 :: (text "zz" ++ [10]) by decide, readMaps,
      show parseLine ((fgets 1023 (122 :: (text "zz" ++ [10]))).1.takeWhile (· ≠ 0)) = some none by decide +kernel]

/-! ## C56 -/

/-- `p` is the first in the list with the property. -/
def FirstWith (q : MapInfo → Prop) (l : List (Nat × MapInfo)) (p : Nat) : Prop :=
  ∃ a v b, l = a ++ (p, v) :: b ∧ q v ∧ ∀ x ∈ a, ¬ q x.2

theorem libcCode_some (p : Nat) : ∀ l, libcCode (some p) l = some p
  | [] => rfl
  | (x, v) :: l => by rw [libcCode, if_neg (by simp)]; exact libcCode_some p l

theorem stackVma_some (p : Nat) : ∀ l, stackVma (some p) l = some p
  | [] => rfl
  | (x, v) :: l => by rw [stackVma, if_neg (by simp)]; exact stackVma_some p l

theorem first_cons {q : MapInfo → Prop} {x : Nat × MapInfo} {l : List (Nat × MapInfo)} {p : Nat} (h : ¬ q x.2) :
    FirstWith q (x :: l) p ↔ FirstWith q l p := by
  constructor
  · rintro ⟨a, v, b, e, h1, h2⟩
    cases a with
    | nil =>
      simp only [List.nil_append, List.cons.injEq] at e
      rw [e.1] at h
      exact absurd h1 h
    | cons y a =>
      simp only [List.cons_append, List.cons.injEq] at e
      exact ⟨a, v, b, e.2, h1, fun z hz => h2 z (by simp [hz])⟩
  · rintro ⟨a, v, b, rfl, h1, h2⟩
    refine ⟨x :: a, v, b, rfl, h1, ?_⟩
    intro z hz
    rcases List.mem_cons.1 hz with rfl | hz
    · exact h
    · exact h2 z hz

theorem first_here {q : MapInfo → Prop} {x : Nat} {v : MapInfo} {l : List (Nat × MapInfo)} {p : Nat} (h : q v) :
    FirstWith q ((x, v) :: l) p ↔ x = p := by
  constructor
  · rintro ⟨a, w, b, e, h1, h2⟩
    cases a with
    | nil =>
      simp only [List.nil_append, List.cons.injEq, Prod.mk.injEq] at e
      exact e.1.1
    | cons y a =>
      simp only [List.cons_append, List.cons.injEq] at e
      have := h2 y (by simp)
      rw [← e.1] at this
      exact absurd h this
  · rintro rfl
    exact ⟨[], v, l, rfl, h, by simp⟩

/-- **C56.** The place where system calls are run is the first mapping, in the order
of the file, that is of the C library and executable; the stack is the first
mapping that is one.  Without such a mapping there is none. -/
theorem C56_first (l : List (Nat × MapInfo)) (p : Nat) :
    (libcCode none l = some p ↔ FirstWith (fun v => v.type = .libc ∧ v.prot &&& PROT_EXEC ≠ 0) l p) ∧
    (stackVma none l = some p ↔ FirstWith (fun v => v.type = .stack) l p) := by
  have nil : ∀ q : MapInfo → Prop, ¬ FirstWith q [] p := by
    rintro q ⟨a, v, b, e, _⟩
    have := congrArg List.length e
    simp at this
  constructor
  · induction l with
    | nil => simp [libcCode, nil]
    | cons x l ih =>
      obtain ⟨x, v⟩ := x
      by_cases h : v.type = .libc ∧ v.prot &&& PROT_EXEC ≠ 0
      · rw [libcCode, if_pos ⟨rfl, h⟩, libcCode_some, Option.some.injEq,
          first_here (q := fun v => v.type = .libc ∧ v.prot &&& PROT_EXEC ≠ 0) h]
      · rw [libcCode, if_neg (fun hh => h hh.2), ih,
          first_cons (q := fun v => v.type = .libc ∧ v.prot &&& PROT_EXEC ≠ 0) h]
  · induction l with
    | nil => simp [stackVma, nil]
    | cons x l ih =>
      obtain ⟨x, v⟩ := x
      by_cases h : v.type = .stack
      · rw [stackVma, if_pos ⟨rfl, h⟩, stackVma_some, Option.some.injEq,
          first_here (q := fun v => v.type = .stack) h]
      · rw [stackVma, if_neg (fun hh => h hh.2), ih, first_cons (q := fun v => v.type = .stack) h]

/-- **C56.** Reading the mappings again does not change the choice, whatever they are
then. -/
theorem C56_kept (p : Nat) (l : List (Nat × MapInfo)) : libcCode (some p) l = some p ∧ stackVma (some p) l = some p :=
  ⟨libcCode_some p l, stackVma_some p l⟩

/-! ### Examples -/

def bash : Mapping :=
  ⟨0x55e0a4a00000, 0x55e0a4a2f000, true, false, true, false, 0x1000, 8, 1, 1835, text "/usr/bin/bash"⟩
def heap : Mapping := ⟨0x55e0a5000000, 0x55e0a5021000, true, true, false, false, 0, 0, 0, 0, text "[heap]"⟩
def anon : Mapping := ⟨0x7f0000000000, 0x7f0000021000, true, true, false, false, 0, 0, 0, 0, []⟩

example : ∀ m ∈ [bash, heap, anon], m.InRange ∧ Plain m.name := by
  intro m hm
  simp only [List.mem_cons, List.not_mem_nil, or_false] at hm
  rcases hm with rfl | rfl | rfl
  · exact ⟨by unfold Mapping.InRange bash; decide, by unfold Plain blank; decide⟩
  · exact ⟨by unfold Mapping.InRange heap; decide, by unfold Plain blank; decide⟩
  · exact ⟨by unfold Mapping.InRange anon; decide, by unfold Plain blank; decide⟩

example : (∀ m ∈ [bash, heap, anon], m.start < m.stop) ∧
    [bash, heap, anon].Pairwise fun m n => m.stop ≤ n.start := by
  refine ⟨?_, ?_⟩
  · intro m hm
    simp only [List.mem_cons, List.not_mem_nil, or_false] at hm
    rcases hm with rfl | rfl | rfl <;> decide
  · simp [bash, heap, anon]

/-- The line of `bash` as the kernel writes it. -/
example : bash.line = text
    "55e0a4a00000-55e0a4a2f000 r-xp 00001000 08:01 1835                       /usr/bin/bash" ++ [10] := by
  decide +kernel

/-- The mapping of a file with a long name. -/
def long (q : List Byte) : Mapping :=
  ⟨0x1000, 0x2000, true, false, false, false, 0, 8, 1, 77, 47 :: List.replicate 949 97 ++ q⟩

example : ∃ r, readMaps ((long (text "1-2 r-xp")).line ++ []) =
    some ([r, ⟨1, 2, text "r-xp", 0, 0, 0, 0, []⟩], 0) := by
  obtain ⟨r, _, _, e⟩ := C55_long_line (long (text "1-2 r-xp")) (47 :: List.replicate 949 97) (text "1-2 r-xp") []
    (by unfold Mapping.InRange long; decide) (by decide +kernel) rfl (by rw [List.length_cons, List.length_replicate])
    (by intro c hc; simp only [List.head?_cons, Option.some.injEq] at hc; subst hc; unfold blank; decide)
    (fun h => (List.mem_cons.1 h).elim (fun h => absurd h (by decide)) fun h => absurd (List.eq_of_mem_replicate h) (by decide))
    (fun h => (List.mem_cons.1 h).elim (fun h => absurd h (by decide)) fun h => absurd (List.eq_of_mem_replicate h) (by decide))
  refine ⟨r, ?_⟩
  rw [e, List.append_nil, C55_rest.2.1]
  rfl

example : (∃ c ∈ text "/opt/my app/bin", blank c) ∧ Kept (text "/opt/my app/bin") (text "/opt/my") := by
  refine ⟨⟨32, by decide, by unfold blank; decide⟩, text "/opt/my", text " app/bin", by decide, ?_, ?_, by decide⟩
  · unfold blank; decide
  · intro c hc
    have : c = 32 := by
      have h : (text " app/bin").head? = some 32 := by decide
      rw [h] at hc
      exact (Option.some.inj hc).symm
    rw [this]
    unfold blank
    decide

example : libcCode none [(8, ⟨0, 1, 1, 0, 0, 0, 0, text "/lib/libc.so.6", .libc⟩),
    (16, ⟨1, 2, 5, 0, 0, 0, 0, text "/lib/libc.so.6", .libc⟩)] = some 16 := by decide +kernel

end Ulp.MapsFile
