/-
Runs of `ultask` that are killed: proofs.
-/
import Verif.Spec.TaskKill
import Verif.Proof.TaskRun
namespace Ulp.TaskRun
open Ulp.Linux
open Ulp.Ultask
open Ulp.Vma
open Ulp.Cli (Act Opt)

variable {pg : Nat} {k : Kern (Proc State)} {fs : Fs} {maps : List Area} {as : List Act}

/-- A request that may change pages. -/
def moves : Req → Bool
  | .mmap _ _ _ _ _ _ => true
  | .mprotect _ _ _ => true
  | .munmap _ _ => true
  | _ => false

/-- The run has gone on with requests of which at most `n` change pages. -/
structure Few (k : Kern (Proc State)) (n : Nat) (r r' : Run (Proc State)) : Prop where
  ex : ∃ qs, r'.log = r.log ++ qs ∧ r'.w = via k r.w qs ∧ (qs.filter moves).length ≤ n

theorem Few.refl {n : Nat} (r : Run (Proc State)) : Few k n r r := ⟨[], by simp, rfl, by simp⟩

theorem Few.still {n : Nat} {r r' : Run (Proc State)} (h : Few k n r r') {q : Req} (hq : moves q = false) :
    Few k n r (r'.ask k q).1 := by
  obtain ⟨qs, h1, h2, h3⟩ := h.ex
  refine ⟨qs ++ [q], by simp [Run.ask, h1], ?_, ?_⟩
  · simp only [Run.ask, via, List.foldl_append, List.foldl_cons, List.foldl_nil]
    rw [h2]
    rfl
  · simp [hq, h3]

theorem Few.ask {n : Nat} {r r' : Run (Proc State)} (h : Few k n r r') (q : Req) : Few k (n + 1) r (r'.ask k q).1 := by
  obtain ⟨qs, h1, h2, h3⟩ := h.ex
  refine ⟨qs ++ [q], by simp [Run.ask, h1], ?_, ?_⟩
  · simp only [Run.ask, via, List.foldl_append, List.foldl_cons, List.foldl_nil]
    rw [h2]
    rfl
  · rw [List.filter_append, List.length_append]
    have := List.length_filter_le moves [q]
    simp at this ⊢
    omega

theorem Few.mono {n m : Nat} {r r' : Run (Proc State)} (h : Few k n r r') (hn : n ≤ m) : Few k m r r' := by
  obtain ⟨qs, h1, h2, h3⟩ := h.ex
  exact ⟨qs, h1, h2, by omega⟩

theorem few_mprotect {vs : Vmas} {addr len prot : BitVec 64} {r r' : Run (Proc State)} {ret : Int}
    (h : mprotectRegion k vs addr len prot r = some (r', ret)) : Few k 1 r r' := by
  unfold mprotectRegion at h
  by_cases h0 : addr = 0 ∨ len = 0
  · rw [if_pos h0] at h; cases h; exact .refl _
  · rw [if_neg h0] at h
    cases h1 : findVma vs addr with
    | none => rw [h1] at h; cases h
    | some v =>
      rw [h1, Option.bind_some] at h
      by_cases h2 : v = 0
      · rw [if_pos h2] at h; cases h; exact .refl _
      · rw [if_neg h2] at h
        cases h3 : findVma vs (addr + len) with
        | none => rw [h3] at h; cases h
        | some u =>
          rw [h3, Option.bind_some] at h
          by_cases h4 : u = 0
          · rw [if_pos h4] at h; cases h; exact .refl _
          · rw [if_neg h4] at h
            dsimp only at h
            by_cases h5 : int (Run.ask k r .attach).2 ≠ 0
            · rw [if_pos h5] at h; cases h; exact (Few.refl _).still rfl
            · rw [if_neg h5] at h; cases h; exact (((Few.refl (n := 0) _).still rfl).ask _).still rfl

theorem few_munmap {vs : Vmas} {addr : BitVec 64} {r r' : Run (Proc State)} {ret : Int}
    (h : munmapVma k fs vs addr r = some (r', ret)) : Few k 1 r r' := by
  unfold munmapVma at h
  cases h2 : findVma vs addr with
  | none => rw [h2] at h; cases h
  | some v =>
    rw [h2, Option.bind_some] at h
    by_cases h3 : v = 0
    · rw [if_pos h3] at h; cases h; exact .refl _
    · rw [if_neg h3] at h
      dsimp only at h
      by_cases h5 : int (Run.ask k r .attach).2 ≠ 0
      · rw [if_pos h5] at h; cases h; exact (Few.refl _).still rfl
      · rw [if_neg h5] at h; cases h
        exact (((Few.refl (n := 0) _).still rfl).ask _).still rfl

theorem few_close {n : Nat} {fd : BitVec 32} {ret : Int} {r r' : Run (Proc State)} (h : Few k n r r') :
    Few k n r (closeRet k fd ret r').1 := by
  unfold closeRet
  dsimp only
  split
  · exact h.still rfl
  · exact (h.still rfl).still rfl

theorem few_ftruncate {n : Nat} {fd : BitVec 32} {len : BitVec 64} {r r' : Run (Proc State)} (h : Few k n r r') :
    Few k n r (ftruncateReq k fd len r').1 := by
  unfold ftruncateReq
  split
  · exact h
  · exact h.still rfl

theorem few_map {vs : Vmas} {path : List Byte} {addr : BitVec 64} {ro noexec : Bool} {r r' : Run (Proc State)} {ret : Int}
    (h : mmapFile k fs vs path addr ro noexec r = some (r', ret)) : Few k 1 r r' := by
  unfold mmapFile at h
  dsimp only at h
  cases h1 : mapInUse vs addr ((fsize fs path).signExtend 64) with
  | none => rw [h1] at h; cases h
  | some used =>
    rw [h1, Option.map_some] at h
    by_cases h2 : used = true
    · rw [if_pos h2] at h; cases h; exact .refl _
    · rw [if_neg h2] at h
      by_cases h3 : int (Run.ask k r .attach).2 ≠ 0
      · rw [if_pos h3] at h; cases h; exact (Few.refl _).still rfl
      · rw [if_neg h3] at h
        have g1 : Few k 0 r (Run.ask k (Run.ask k r .attach).1 (.open path 2)).1 := ((Few.refl r).still rfl).still rfl
        by_cases h4 : ((Run.ask k (Run.ask k r .attach).1 (.open path 2)).2.setWidth 32).toInt ≤ 0
        · rw [if_pos h4] at h; cases h; exact g1.mono (by omega)
        · rw [if_neg h4] at h
          have g2 := few_ftruncate (fd := (Run.ask k (Run.ask k r .attach).1 (.open path 2)).2.setWidth 32)
            (len := (fsize fs path).signExtend 64) g1
          by_cases h5 : (ftruncateReq k ((Run.ask k (Run.ask k r .attach).1 (.open path 2)).2.setWidth 32)
              ((fsize fs path).signExtend 64) (Run.ask k (Run.ask k r .attach).1 (.open path 2)).1).2 ≠ 0
          · rw [if_pos h5] at h
            have := congrArg Prod.fst (Option.some.inj h)
            dsimp only at this
            rw [← this]
            exact (few_close g2).mono (by omega)
          · rw [if_neg h5] at h
            have := congrArg Prod.fst (Option.some.inj h)
            dsimp only at this
            rw [← this]
            exact few_close (g2.ask _)

theorem few_act {arch : Arch} {c : Circ} {a : Act} {s s' : Run' State} (ha : a.change ≠ some .jmp)
    (e : act k arch c s a = some s') : Few k 1 s.run s'.run := by
  have same : act k arch c s a = some s → Few k 1 s.run s'.run := by
    intro h0
    rw [h0] at e; cases e
    exact .refl _
  have outs : ∀ x, withOut s x = some s' → Few k 1 s.run s'.run := by
    intro x hx
    rw [(withOut_run hx).1]
    exact .refl _
  cases a with
  | mprotect addr len prot =>
    unfold act at e
    dsimp only at e
    cases h1 : mprotectRegion k s.vs addr len prot s.run with
    | none => rw [h1] at e; cases e
    | some x => rw [h1] at e; cases e; exact few_mprotect h1
  | unmap addr =>
    unfold act at e
    dsimp only at e
    cases h1 : munmapVma k c.fs s.vs addr s.run with
    | none => rw [h1] at e; cases e
    | some x => rw [h1] at e; cases e; exact few_munmap h1
  | map path addr ro noexec =>
    unfold act at e
    dsimp only at e
    cases h1 : mmapFile k c.fs s.vs path addr ro noexec ⟨s.run.w, []⟩ with
    | none => rw [h1] at e; cases e
    | some x =>
      rw [h1, Option.bind_some] at e
      have hx : Few k 1 s.run ⟨x.1.w, s.run.log ++ x.1.log⟩ := by
        obtain ⟨qs, g1, g2, g3⟩ := (few_map h1).ex
        exact ⟨qs, by simpa using g1, g2, g3⟩
      by_cases hd : x.1.log.getLast? = some .detach
      · rw [if_pos hd] at e
        cases hr : reread s.vs c.lines with
        | none => rw [hr] at e; cases e
        | some vs => rw [hr] at e; cases e; exact hx
      · rw [if_neg hd] at e; cases e; exact hx
  | dumpVma file addr => exact outs _ e
  | dumpVdso file =>
    unfold act at e
    dsimp only at e
    cases hv : c.vdso with
    | none => rw [hv] at e; cases e
    | some a => rw [hv] at e; exact outs _ e
  | dumpMem file addr size => exact outs _ e
  | jmp src dst => exact absurd rfl ha
  | printTask => exact same rfl
  | auxv => exact same rfl
  | status => exact same rfl
  | vmas => exact same rfl
  | symbols => exact same rfl
  | threads => exact same rfl
  | fds => exact same rfl
  | disasm _ _ => exact same rfl

theorem cut_other {arch : Arch} {c : Circ} {s : Run' State} {a : Act} {n : Nat} (ha : a.change ≠ some .jmp) :
    cut k arch c s a n = (act k arch c s a).map fun s' =>
      (via k s.run.w ((s'.run.log.drop s.run.log.length).take n), (s'.run.log.drop s.run.log.length).take n) := by
  cases a <;> first | rfl | exact absurd rfl ha

/-! ## What a cut leaves -/

/-- What holds when a run is cut. -/
structure Left (pg : Nat) (c : Circ) (maps : List Area) (as : List Act) (p : Proc State) (x : Proc State × List Req) : Prop where
  frame : Frame pg c.fs maps as p x.1
  log : ∀ q ∈ x.2, Asked c.fs maps as q

theorem left_cut (hk : LawfulP pg k) {arch : Arch} {c : Circ} {a : Act} {rest : List Act} {p : Proc State} {s : Run' State}
    {n : Nat} {x : Proc State × List Req}
    (h : Held pg c maps as (a :: rest) p s) (hin : a ∈ as) (hone : isMap a = true → rest.any isMap = false)
    (hl : ∀ ls, c.lines = some ls → ∀ x ∈ ls, areaOfLine x.2 ∈ maps) (e : cut k arch c s a n = some x) :
    Left pg c maps as p (x.1, s.run.log ++ x.2) := by
  by_cases ha : a.change = some .jmp
  · cases a with
    | jmp src dst =>
      unfold cut at e
      dsimp only at e
      cases h1 : runJmp arch s.vs s.run.w.mem src dst c.rd (some n) with
      | none => rw [h1] at e; cases e
      | some y =>
        rw [h1] at e; cases e
        refine ⟨h.frame.trans ⟨fun _ _ _ q => Or.inl q, fun _ _ q => Or.inl q, fun a _ _ hj => ?_⟩, ?_⟩
        · exact jump_frame h1 (fun hlt => hj ⟨src, dst, hin, hlt⟩)
        · rw [List.append_nil]; exact h.log
    | _ => exact absurd ha (by simp [Act.change])
  · rw [cut_other ha] at e
    cases h1 : act k arch c s a with
    | none => rw [h1] at e; cases e
    | some s' =>
      rw [h1] at e; cases e
      have hh := held_act hk h hin hone hl h1
      obtain ⟨qs, g1, g2, _⟩ := (few_act ha h1).ex
      dsimp only
      rw [g1, List.drop_left]
      have hq : ∀ q ∈ qs, Asked c.fs maps as q := fun q hq => hh.log q (by rw [g1]; exact List.mem_append_right _ hq)
      exact ⟨h.frame.trans (frame_via hk _ _ fun q hm => hq q (List.mem_of_mem_take hm)), fun q hm => by
        rw [List.mem_append] at hm
        exact hm.elim (h.log q) fun hm => hq q (List.mem_of_mem_take hm)⟩

theorem left_acts (hk : LawfulP pg k) {arch : Arch} {c : Circ} {p : Proc State}
    (hl : ∀ ls, c.lines = some ls → ∀ x ∈ ls, areaOfLine x.2 ∈ maps) {s : Run' State} {i n : Nat} {x : Proc State × List Req}
    (h : Held pg c maps as as p s) (hone : (as.filter isMap).length ≤ 1)
    (e : cutActs k arch c s as i n = some x) : Left pg c maps as p x := by
  unfold cutActs at e
  cases h1 : doActs k arch c s (as.take i) with
  | none => rw [h1] at e; cases e
  | some s1 =>
    rw [h1, Option.bind_some] at e
    have h2 := held_split hk hl (as.take i) (as.drop i) (by rwa [List.take_append_drop])
      (fun a ha => List.mem_of_mem_take ha) (by rwa [List.take_append_drop]) h1
    cases hd : as.drop i with
    | nil =>
      rw [hd] at e
      cases e
      exact ⟨h2.frame, h2.log⟩
    | cons a rest =>
      rw [hd] at e h2
      dsimp only at e
      have hin : a ∈ as := List.mem_of_mem_drop (i := i) (by rw [hd]; simp)
      cases h3 : cut k arch c s1 a n with
      | none => rw [h3] at e; cases e
      | some y =>
        rw [h3] at e; cases e
        refine left_cut hk h2 hin (fun hm => ?_) hl h3
        rw [List.any_eq_false]
        intro b hb hbm
        rw [← List.take_append_drop i as, hd, List.filter_append, List.filter_cons, if_pos hm, List.length_append,
          List.length_cons] at hone
        have hz : (rest.filter isMap).length = 0 := by omega
        have : b ∈ rest.filter isMap := List.mem_filter.2 ⟨hb, hbm⟩
        rw [List.length_eq_zero_iff.1 hz] at this
        cases this

/-! ## Whole actions -/

/-- The pages are the same, and so are the bytes of those that are mapped. -/
structure Alike (pg : Nat) (as : List Act) (p p' : Proc State) : Prop where
  space : p'.w.space = p.w.space
  mem : ∀ a : Addr, p.w.space (a.toNat / pg) ≠ none → ¬ Jumps as a → p'.mem a = p.mem a

theorem Alike.refl (p : Proc State) : Alike pg as p p := ⟨rfl, fun _ _ _ => rfl⟩

theorem Alike.trans {p p' p'' : Proc State} (h : Alike pg as p p') (h' : Alike pg as p' p'') : Alike pg as p p'' :=
  ⟨h'.space.trans h.space, fun a hm hj => (h'.mem a (by rw [h.space]; exact hm) hj).trans (h.mem a hm hj)⟩

theorem Alike.symm {p p' : Proc State} (h : Alike pg as p p') : Alike pg as p' p :=
  ⟨h.space.symm, fun a hm hj => (h.mem a (by rw [← h.space]; exact hm) hj).symm⟩

theorem alike_ask (hk : LawfulP pg k) (p : Proc State) {q : Req} (hq : moves q = false) : Alike pg as p (k.ask p q).1 := by
  obtain ⟨h1, h2⟩ := hk p q
  have hs : (k.ask p q).1.w.space = p.w.space := by
    cases q with
    | attach => rcases h1 with ⟨_, _, e⟩ | ⟨_, e⟩ <;> rw [e]
    | detach => simp only [Answers] at h1; rw [h1]
    | «open» path flags => rcases h1 with ⟨_, _, e⟩ | ⟨_, e⟩ <;> rw [e]
    | ftruncate fd len => rcases h1 with ⟨_, _, e⟩ | e <;> rw [e]
    | close fd => simp only [Answers] at h1; rw [h1]
    | mmap _ _ _ _ _ _ => cases hq
    | mprotect _ _ _ => cases hq
    | munmap _ _ => cases hq
  exact ⟨hs, fun a hm _ => h2 a hm (by rw [hs]; exact hm)⟩

theorem alike_via (hk : LawfulP pg k) : ∀ (qs : List Req) (p : Proc State), qs.filter moves = [] →
    Alike pg as p (via k p qs)
  | [], p, _ => .refl p
  | q :: qs, p, h => by
    rw [List.filter_cons] at h
    split at h
    · cases h
    · rename_i hq
      exact (alike_ask hk p (by simpa using hq)).trans (alike_via hk qs _ h)

theorem via_append (l1 l2 : List Req) (p : Proc State) : via k p (l1 ++ l2) = via k (via k p l1) l2 := by
  simp only [via, List.foldl_append]

/-- With at most one request that changes pages, every moment is like the beginning or like the
end. -/
theorem alike_cut (hk : LawfulP pg k) {qs : List Req} (p : Proc State) (n : Nat) (h : (qs.filter moves).length ≤ 1) :
    Alike pg as p (via k p (qs.take n)) ∨ Alike pg as (via k p qs) (via k p (qs.take n)) := by
  rw [← List.take_append_drop n qs, List.filter_append, List.length_append] at h
  by_cases h0 : (qs.take n).filter moves = []
  · exact Or.inl (alike_via hk _ _ h0)
  · have h1 : (qs.drop n).filter moves = [] := by
      have := List.length_pos_iff.2 h0
      exact List.length_eq_zero_iff.1 (by omega)
    refine Or.inr (Alike.symm ?_)
    have e : via k p qs = via k (via k p (qs.take n)) (qs.drop n) := by rw [← via_append, List.take_append_drop]
    rw [e]
    exact alike_via hk _ _ h1

theorem whole_cut (hk : LawfulP pg k) {arch : Arch} {c : Circ} {a : Act} {s : Run' State} {n : Nat}
    {x : Proc State × List Req} (hin : a ∈ as) (e : cut k arch c s a n = some x) :
    Alike pg as s.run.w x.1 ∨ ∃ s', act k arch c s a = some s' ∧ Alike pg as s'.run.w x.1 := by
  by_cases ha : a.change = some .jmp
  · cases a with
    | jmp src dst =>
      unfold cut at e
      dsimp only at e
      cases h1 : runJmp arch s.vs s.run.w.mem src dst c.rd (some n) with
      | none => rw [h1] at e; cases e
      | some y =>
        rw [h1] at e; cases e
        exact Or.inl ⟨rfl, fun b _ hj => jump_frame h1 (fun hlt => hj ⟨src, dst, hin, hlt⟩)⟩
    | _ => exact absurd ha (by simp [Act.change])
  · rw [cut_other ha] at e
    cases h1 : act k arch c s a with
    | none => rw [h1] at e; cases e
    | some s' =>
      rw [h1] at e; cases e
      obtain ⟨qs, g1, g2, g3⟩ := (few_act ha h1).ex
      dsimp only
      rw [g1, List.drop_left]
      exact (alike_cut hk s.run.w n g3).imp id fun h => ⟨s', rfl, by rw [g2]; exact h⟩

theorem doActs_one {arch : Arch} {c : Circ} : ∀ (l : List Act) {s s1 s2 : Run' State} {a : Act},
    doActs k arch c s l = some s1 → act k arch c s1 a = some s2 → doActs k arch c s (l ++ [a]) = some s2
  | [], s, s1, s2, a, h, h' => by
    cases h
    simp only [List.nil_append, doActs, h', Option.bind_some]
  | b :: l, s, s1, s2, a, h, h' => by
    unfold doActs at h
    rw [List.cons_append]
    unfold doActs
    cases h1 : act k arch c s b with
    | none => rw [h1] at h; cases h
    | some s3 =>
      rw [h1, Option.bind_some] at h
      rw [Option.bind_some]
      exact doActs_one l h h'

theorem whole_acts (hk : LawfulP pg k) {arch : Arch} {c : Circ} {s : Run' State} {i n : Nat} {x : Proc State × List Req}
    (e : cutActs k arch c s as i n = some x) :
    ∃ j s', j ≤ i + 1 ∧ doActs k arch c s (as.take j) = some s' ∧ Alike pg as s'.run.w x.1 := by
  unfold cutActs at e
  cases h1 : doActs k arch c s (as.take i) with
  | none => rw [h1] at e; cases e
  | some s1 =>
    rw [h1, Option.bind_some] at e
    cases hd : as.drop i with
    | nil =>
      rw [hd] at e
      cases e
      exact ⟨i, s1, by omega, h1, .refl _⟩
    | cons a rest =>
      rw [hd] at e
      dsimp only at e
      have hin : a ∈ as := List.mem_of_mem_drop (i := i) (by rw [hd]; simp)
      cases h3 : cut k arch c s1 a n with
      | none => rw [h3] at e; cases e
      | some y =>
        rw [h3] at e; cases e
        rcases whole_cut hk hin h3 with h | ⟨s2, h4, h⟩
        · exact ⟨i, s1, by omega, h1, h⟩
        · refine ⟨i + 1, s2, by omega, ?_, h⟩
          have : as.take (i + 1) = as.take i ++ [a] := by
            have hlt : i < as.length := by
              have := congrArg List.length hd
              simp at this
              omega
            rw [List.take_succ_eq_append_getElem hlt]
            congr 2
            have := List.drop_eq_getElem_cons hlt
            rw [hd] at this
            cases this
            rfl
          rw [this]
          exact doActs_one _ h1 h4

end Ulp.TaskRun
