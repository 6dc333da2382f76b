/-
C43: callbacks run once each, in the order of registration.
-/
import Verif.Props.CList
import Verif.Model.Callback
namespace Ulp.Callback
open Ulp.CList

/-- The chain holds the entries `es`, stored at the pointers `ps`. -/
structure Chain (s : State) (chain : Nat) (ps : List Nat) (es : List Entry) : Prop where
  list : IsList s.heap chain ps
  entries : ps.map s.entry = es.map some

/-- A registration: the callback, its argument, and what `malloc` does. -/
structure Reg where
  cb : Nat
  arg : Nat
  new : Nat
  g : Node
  e : Entry

/-- The registrations one after the other: the state and the return values. -/
def register (s : State) (chain : Nat) : List Reg → Option (State × List Int)
  | [] => some (s, [])
  | r :: rs =>
    match insertCallback s chain r.cb r.arg r.new r.g r.e with
    | none => none
    | some (s, ret) => (register s chain rs).map fun x => (x.1, ret :: x.2)

/-- `malloc` never returns memory that is in use, nor the same memory twice. -/
def FreshRegs (s : State) (chain : Nat) : List Reg → Prop
  | [] => True
  | r :: rs => (r.new = 0 ∨ (s.heap r.new = none ∧ ∀ r' ∈ rs, r'.new ≠ r.new)) ∧ FreshRegs s chain rs

/-- The registrations that succeed. -/
def accepted (rs : List Reg) : List Reg := rs.filter fun r => decide (r.cb ≠ 0 ∧ r.new ≠ 0)

theorem isList_map_congr {ps : List Nat} {f g : Nat → Option Entry} (h : ∀ p ∈ ps, g p = f p) :
    ps.map g = ps.map f := by
  induction ps with
  | nil => rfl
  | cons p ps ih =>
    rw [List.map_cons, List.map_cons, h p (by simp), ih fun q hq => h q (by simp [hq])]

theorem insert_ok {s : State} {chain : Nat} {ps : List Nat} {es : List Entry} (hc : Chain s chain ps es)
    {r : Reg} (h0 : chain ≠ 0) (hcb : r.cb ≠ 0) (hnew : r.new ≠ 0) (hf : s.heap r.new = none) :
    ∃ s', insertCallback s chain r.cb r.arg r.new r.g r.e = some (s', 0) ∧
      Chain s' chain (ps ++ [r.new]) (es ++ [⟨r.cb, r.arg⟩]) ∧
      (∀ x, s.heap x = none → x ≠ r.new → s'.heap x = none) := by
  have hnm : r.new ∉ chain :: ps := by
    intro hm
    have := Ring.live hc.list r.new hm
    rw [hf] at this
    cases this
  have hl : IsList (malloc s r.new r.g r.e).heap chain ps := by
    refine Ring.congr hc.list fun x hx => ?_
    have : x ≠ r.new := fun e => hnm (e ▸ hx)
    simp [malloc, this]
  obtain ⟨h', he, hr, hs⟩ := C28_add hl hnm (by simp [malloc])
  refine ⟨{ heap := h', entry := fun x => if x = r.new then some ⟨r.cb, r.arg⟩ else
      (malloc s r.new r.g r.e).entry x }, ?_, ⟨hr, ?_⟩, ?_⟩
  · unfold insertCallback
    rw [if_neg (by simp [h0, hcb]), if_neg hnew]
    dsimp only
    rw [he]
    rfl
  · rw [List.map_append, List.map_append]
    congr 1
    · rw [← hc.entries]
      refine isList_map_congr fun p hp => ?_
      have : p ≠ r.new := fun e => hnm (e ▸ List.mem_cons_of_mem _ hp)
      simp [malloc, this]
    · simp
  · intro x hx hxn
    have hxl : x ∉ r.new :: chain :: ps := by
      intro hm
      rcases List.mem_cons.1 hm with e | hm
      · exact hxn e
      · have := Ring.live hc.list x hm
        rw [hx] at this
        cases this
    have h1 : h' x = (malloc s r.new r.g r.e).heap x := hs x hxl
    show h' x = none
    rw [h1]
    simp [malloc, hxn, hx]

theorem register_ok {chain : Nat} (h0 : chain ≠ 0) : ∀ (rs : List Reg) (s : State) (ps : List Nat)
    (es : List Entry), Chain s chain ps es → FreshRegs s chain rs →
    ∃ s' rets, register s chain rs = some (s', rets) ∧
      rets = rs.map (fun r => if r.cb = 0 then -2 else if r.new = 0 then -12 else 0) ∧
      Chain s' chain (ps ++ (accepted rs).map Reg.new)
        (es ++ (accepted rs).map fun r => ⟨r.cb, r.arg⟩)
  | [], s, ps, es, hc, _ => ⟨s, [], rfl, rfl, by simpa [accepted] using hc⟩
  | r :: rs, s, ps, es, hc, hf => by
    by_cases hcb : r.cb = 0
    · obtain ⟨s', rets, e, hr, hch⟩ := register_ok h0 rs s ps es hc hf.2
      refine ⟨s', -2 :: rets, ?_, ?_, ?_⟩
      · have : insertCallback s chain r.cb r.arg r.new r.g r.e = some (s, -2) := by
          simp [insertCallback, hcb]
        simp only [register, this, e]
        rfl
      · rw [List.map_cons, if_pos hcb, hr]
      · simpa [accepted, hcb] using hch
    · by_cases hnew : r.new = 0
      · obtain ⟨s', rets, e, hr, hch⟩ := register_ok h0 rs s ps es hc hf.2
        refine ⟨s', -12 :: rets, ?_, ?_, ?_⟩
        · have : insertCallback s chain r.cb r.arg r.new r.g r.e = some (s, -12) := by
            simp [insertCallback, hcb, h0, hnew]
          simp only [register, this, e]
          rfl
        · rw [List.map_cons, if_neg hcb, if_pos hnew, hr]
        · simpa [accepted, hnew] using hch
      · obtain ⟨hfr, hdis⟩ := hf.1.resolve_left hnew
        obtain ⟨s1, e1, hc1, hk⟩ := insert_ok hc h0 hcb hnew hfr
        have hf1 : FreshRegs s1 chain rs := by
          have hgen : ∀ l : List Reg, (∀ r' ∈ l, r'.new ≠ r.new) → FreshRegs s chain l →
              FreshRegs s1 chain l := by
            intro l
            induction l with
            | nil => intro _ _; trivial
            | cons a l ih =>
              intro hd hfl
              refine ⟨?_, ih (fun r' hr' => hd r' (by simp [hr'])) hfl.2⟩
              rcases hfl.1 with h | h
              · exact Or.inl h
              · exact Or.inr ⟨hk _ h.1 (hd a (by simp)), h.2⟩
          exact hgen rs hdis hf.2
        obtain ⟨s', rets, e, hr, hch⟩ := register_ok h0 rs s1 _ _ hc1 hf1
        refine ⟨s', 0 :: rets, ?_, ?_, ?_⟩
        · simp only [register, e1, e]
          rfl
        · rw [List.map_cons, if_neg hcb, if_neg hnew, hr]
        · simpa [accepted, hcb, hnew] using hch

theorem launchLoop_ok {s : State} {head : Nat} : ∀ (ps : List Nat) (es : List Entry) (log : List Entry)
    (pos n : Nat) (pre : Nat), Linked s.heap (pre :: ps ++ [head]) → head ∉ ps →
    ps.map s.entry = es.map some → next s.heap pre = some pos → next s.heap pos = some n →
    (∃ k, next s.heap head = some k) →
    launchLoop s head pos n log = some (log ++ es)
  | [], es, log, pos, n, pre, hk, _, he, hp, _, _ => by
    have : pos = head := by
      have h1 : next s.heap pre = some head := hk.1
      rw [hp] at h1
      exact Option.some.inj h1
    cases es with
    | nil => rw [launchLoop, if_pos this]; simp
    | cons e es => simp at he
  | p :: ps, es, log, pos, n, pre, hk, hh, he, hp, hn, hhd => by
    have hpos : pos = p := by
      have h1 : next s.heap pre = some p := hk.1
      rw [hp] at h1
      exact Option.some.inj h1
    subst hpos
    have hph : ¬ pos = head := fun e => hh (by simp [e])
    cases es with
    | nil => simp at he
    | cons e es =>
      simp only [List.map_cons, List.cons.injEq] at he
      have hk2 : Linked s.heap (pos :: ps ++ [head]) := hk.2.2
      have hn2 : ∃ k, next s.heap n = some k := by
        cases ps with
        | nil =>
          have h1 : next s.heap pos = some head := hk2.1
          rw [hn] at h1
          cases h1
          exact hhd
        | cons q ps =>
          have h1 : next s.heap pos = some q := hk2.1
          rw [hn] at h1
          cases h1
          have hk3 : Linked s.heap (n :: ps ++ [head]) := hk2.2.2
          cases ps with
          | nil => exact ⟨head, hk3.1⟩
          | cons q ps => exact ⟨q, hk3.1⟩
      obtain ⟨k, hk'⟩ := hn2
      rw [launchLoop, if_neg hph, he.1]
      simp only [Option.bind_eq_bind, Option.bind_some, hk']
      rw [launchLoop_ok ps es (log ++ [e]) n k pos hk2 (fun hm => hh (by simp [hm])) he.2 hn hk' hhd]
      simp

theorem launch_ok {s : State} {chain : Nat} {ps : List Nat} {es : List Entry} (hc : Chain s chain ps es) :
    callbackLaunchChain s chain = some es := by
  obtain ⟨hnd, x, r, e, hk⟩ := hc.list
  cases e
  have hk' : Linked s.heap (chain :: ps ++ [chain]) := hk
  cases ps with
  | nil =>
    have h1 : next s.heap chain = some chain := hk'.1
    unfold callbackLaunchChain
    simp only [h1, Option.bind_eq_bind, Option.bind_some]
    rw [launchLoop_ok [] es [] chain chain chain hk' (by simp) hc.entries h1 h1 ⟨_, h1⟩]
    rfl
  | cons p ps =>
    have h1 : next s.heap chain = some p := hk'.1
    have h2 : ∃ n, next s.heap p = some n := by
      have hk2 : Linked s.heap (p :: ps ++ [chain]) := hk'.2.2
      cases ps with
      | nil => exact ⟨chain, hk2.1⟩
      | cons q ps => exact ⟨q, hk2.1⟩
    obtain ⟨n, h2⟩ := h2
    unfold callbackLaunchChain
    simp only [h1, Option.bind_eq_bind, Option.bind_some, h2]
    rw [launchLoop_ok (p :: ps) es [] p n chain hk' (List.nodup_cons.1 hnd).1 hc.entries h1 h2
      ⟨_, h1⟩]
    rfl

theorem destroyLoop_ok {head : Nat} : ∀ (ps : List Nat) (es : List Entry) (s : State) (log : List Nat)
    (pos n : Nat), Chain s head ps es → next s.heap head = some pos → next s.heap pos = some n →
    ∃ s', destroyLoop s head pos n log = some (s', log ++ ps) ∧ Chain s' head [] [] ∧
      (∀ p ∈ ps, s'.heap p = none ∧ s'.entry p = none) ∧
      (∀ x, x ∉ head :: ps → s'.heap x = s.heap x ∧ s'.entry x = s.entry x)
  | [], es, s, log, pos, n, hc, hp, hn => by
    obtain ⟨_, x, r, e, hk⟩ := hc.list
    cases e
    have h1 : next s.heap head = some head := hk.1
    rw [hp] at h1
    cases h1
    refine ⟨s, ?_, ⟨hc.list, rfl⟩, by simp, fun _ _ => ⟨rfl, rfl⟩⟩
    rw [destroyLoop, if_pos rfl]
    simp
  | p :: ps, es, s, log, pos, n, hc, hp, hn => by
    obtain ⟨hnd, x, r, e, hk⟩ := id hc.list
    cases e
    have h1 : next s.heap head = some p := hk.1
    rw [hp] at h1
    have hpe : pos = p := Option.some.inj h1
    subst hpe
    have hph : ¬ pos = head := fun e => by rw [e] at hnd; simp at hnd
    cases es with
    | nil => have := hc.entries; simp at this
    | cons e es =>
      have hent := hc.entries
      simp only [List.map_cons, List.cons.injEq] at hent
      obtain ⟨h', he, hr, hs, hx⟩ := C28_del (a := []) hc.list
      simp only [List.nil_append] at hr hs
      have hposl : pos ∉ head :: ps := by
        have := hnd
        simp only [List.nodup_cons, List.mem_cons, not_or] at this ⊢
        exact ⟨hph, this.2.1⟩
      have hsp : (s.heap pos).isSome = true := Ring.live hc.list pos (by simp)
      obtain ⟨v, hv⟩ := Option.isSome_iff_exists.1 hsp
      have hfree : free { s with heap := h' } pos = some
          { heap := fun x => if x = pos then none else h' x
            entry := fun x => if x = pos then none else s.entry x } := by
        simp only [free, hx, hv, hent.1]
      have hc1 : Chain { heap := fun x => if x = pos then none else h' x,
                         entry := fun x => if x = pos then none else s.entry x } head ps es := by
        refine ⟨Ring.congr hr fun y hy => if_neg fun (e : y = pos) => hposl (by rw [← e]; exact hy), ?_⟩
        rw [← hent.2]
        refine isList_map_congr fun q hq => if_neg fun e => hposl ?_
        rw [← e]
        exact List.mem_cons_of_mem _ hq
      obtain ⟨hnd1, x, r, e', hk1⟩ := id hc1.list
      cases e'
      have hn1 : ∃ k, next (fun x => if x = pos then none else h' x) n = some k ∧
          next (fun x => if x = pos then none else h' x) head = some n := by
        have hk2 : Linked s.heap (pos :: ps ++ [head]) := hk.2.2
        cases ps with
        | nil =>
          have h2 : next s.heap pos = some head := hk2.1
          rw [hn] at h2
          have e2 : n = head := Option.some.inj h2
          rw [e2]
          exact ⟨head, hk1.1, hk1.1⟩
        | cons q ps =>
          have h2 : next s.heap pos = some q := hk2.1
          rw [hn] at h2
          have e2 : n = q := Option.some.inj h2
          rw [← e2] at hk1
          have hk3 : Linked (fun x => if x = pos then none else h' x) (n :: ps ++ [head]) := hk1.2.2
          cases ps with
          | nil => exact ⟨head, hk3.1, hk1.1⟩
          | cons q ps => exact ⟨q, hk3.1, hk1.1⟩
      obtain ⟨k, hk', hkh⟩ := hn1
      obtain ⟨s', e2, hc2, hd2, ho2⟩ := destroyLoop_ok ps es _ (log ++ [pos]) n k hc1 hkh hk'
      refine ⟨s', ?_, hc2, ?_, ?_⟩
      · rw [destroyLoop, if_neg hph]
        simp only [he, Option.bind_eq_bind, Option.bind_some, hfree, hk']
        rw [e2]
        simp
      · intro q hq
        rcases List.mem_cons.1 hq with rfl | hq
        · have := ho2 q hposl
          simpa using this
        · exact hd2 q hq
      · intro y hy
        have hy1 : y ∉ head :: ps := fun hm => hy (by
          rcases List.mem_cons.1 hm with h | h <;> simp [h])
        have hy2 : ¬ y = pos := fun e => hy (by simp [e])
        have := ho2 y hy1
        simp only [hy2, if_false] at this
        exact ⟨this.1.trans (hs y hy1), this.2⟩

theorem destroy_ok {s : State} {chain : Nat} {ps : List Nat} {es : List Entry} (hc : Chain s chain ps es) :
    ∃ s', destroyCallbackChain s chain = some (s', ps) ∧ Chain s' chain [] [] ∧
      (∀ p ∈ ps, s'.heap p = none ∧ s'.entry p = none) ∧
      (∀ x, x ∉ chain :: ps → s'.heap x = s.heap x ∧ s'.entry x = s.entry x) := by
  obtain ⟨hnd, x, r, e, hk⟩ := id hc.list
  cases e
  have hk' : Linked s.heap (chain :: ps ++ [chain]) := hk
  have h12 : ∃ p n, next s.heap chain = some p ∧ next s.heap p = some n := by
    cases ps with
    | nil =>
      have h1 : next s.heap chain = some chain := hk'.1
      exact ⟨chain, chain, h1, h1⟩
    | cons p ps =>
      have hk2 : Linked s.heap (p :: ps ++ [chain]) := hk'.2.2
      cases ps with
      | nil => exact ⟨p, chain, hk'.1, hk2.1⟩
      | cons q ps => exact ⟨p, q, hk'.1, hk2.1⟩
  obtain ⟨p, n, h1, h2⟩ := h12
  obtain ⟨s', e, hc', hd, ho⟩ := destroyLoop_ok ps es s [] p n hc h1 h2
  refine ⟨s', ?_, hc', hd, ho⟩
  unfold destroyCallbackChain
  simp only [h1, h2, Option.bind_eq_bind, Option.bind_some, e]
  rfl

/-- C43: start with an empty chain and make any registrations, some of which may
be refused or fail for lack of memory.  Launching then makes exactly the calls
that were accepted, each once with its argument, in the order of registration;
destroying frees every entry exactly once, touches nothing else, and leaves the
chain empty. -/
theorem C43_callbacks {s : State} {chain : Nat} {rs : List Reg} (h0 : chain ≠ 0)
    (hempty : IsList s.heap chain []) (hf : FreshRegs s chain rs) :
    ∃ s1 rets, register s chain rs = some (s1, rets) ∧
      callbackLaunchChain s1 chain = some ((accepted rs).map fun r => ⟨r.cb, r.arg⟩) ∧
      ∃ s2, destroyCallbackChain s1 chain = some (s2, (accepted rs).map Reg.new) ∧
        IsList s2.heap chain [] ∧ callbackLaunchChain s2 chain = some [] ∧
        ((accepted rs).map Reg.new).Nodup ∧
        (∀ r ∈ accepted rs, s2.heap r.new = none ∧ s2.entry r.new = none) ∧
        (∀ x, x ≠ chain → (∀ r ∈ accepted rs, x ≠ r.new) →
          s2.heap x = s1.heap x ∧ s2.entry x = s1.entry x) := by
  obtain ⟨s1, rets, e, _, hc⟩ := register_ok h0 rs s [] [] ⟨hempty, rfl⟩ hf
  simp only [List.nil_append] at hc
  obtain ⟨s2, e2, hc2, hd, ho⟩ := destroy_ok hc
  refine ⟨s1, rets, e, launch_ok hc, s2, e2, hc2.list, launch_ok hc2, ?_, ?_, ?_⟩
  · exact (List.nodup_cons.1 hc.list.1).2
  · intro r hr
    exact hd r.new (List.mem_map.2 ⟨r, hr, rfl⟩)
  · intro x hx hxr
    refine ho x ?_
    intro hm
    rcases List.mem_cons.1 hm with e | hm
    · exact hx e
    · obtain ⟨r, hr, e⟩ := List.mem_map.1 hm
      exact hxr r hr e.symm

/-- C43: registering reports success exactly when the callback was accepted. -/
theorem C43_register_result {s : State} {chain : Nat} {rs : List Reg} (h0 : chain ≠ 0)
    (hempty : IsList s.heap chain []) (hf : FreshRegs s chain rs) :
    ∃ s1, register s chain rs =
      some (s1, rs.map fun r => if r.cb = 0 then -2 else if r.new = 0 then -12 else 0) := by
  obtain ⟨s1, rets, e, hr, _⟩ := register_ok h0 rs s [] [] ⟨hempty, rfl⟩ hf
  exact ⟨s1, by rw [e, hr]⟩

/-! Non-vacuity -/

def exState : State := { heap := fun x => if x = 1 then some ⟨1, 1⟩ else none, entry := fun _ => none }

def exRegs : List Reg :=
  [⟨100, 7, 2, ⟨0, 0⟩, ⟨0, 0⟩⟩, ⟨0, 8, 3, ⟨0, 0⟩, ⟨0, 0⟩⟩, ⟨101, 9, 0, ⟨0, 0⟩, ⟨0, 0⟩⟩,
   ⟨102, 7, 4, ⟨9, 9⟩, ⟨5, 5⟩⟩]

example : IsList exState.heap 1 [] ∧ FreshRegs exState 1 exRegs ∧
    (accepted exRegs).map (fun r => (r.cb, r.arg)) = [(100, 7), (102, 7)] := by
  refine ⟨⟨by decide, 1, [], rfl, rfl, rfl, trivial⟩, ?_, by decide⟩
  simp [FreshRegs, exRegs, exState]

end Ulp.Callback
