/-
C32, C33, C34, C51: the symbols of a process.
-/
import Verif.Proof.SymFree
import Verif.Model.SymLoad
namespace Ulp.Sym
open Rb (Tree IsTree RB St Mono)
open Rb.Tree (ids)
open SymSpec

theorem NInv.init (info : Nat → Info) : NInv (initSyms info) .leaf [] :=
  ⟨by simp [ids], by simp [ids], by simp, by simp [ids]⟩

theorem AInv.init (info : Nat → Info) : AInv (initSyms info) .leaf [] :=
  ⟨by simp [ids], by simp [ids], by simp, by simp [ids]⟩

theorem registered (info : Nat → Info) {regs : List Reg} (h0 : ∀ r ∈ regs, r.id ≠ 0)
    (hnd : (regs.map Reg.id).Nodup) :
    ∃ s tn ta, registerAll (initSyms info) regs = some s ∧ SInv s regs tn ta ∧ NInv s tn regs ∧
      (∀ ok, CmpOK addrCmp ok → (∀ q ∈ regs, ok q.addr) → AInv s ta regs) ∧
      ta = addrTree (addrIn regs) regs .leaf := by
  obtain ⟨s, tn, ta, e, h, hN, hA, hT⟩ := (SInv.init info).registerAll (l := regs) (NInv.init info) h0 (by simpa using hnd)
  exact ⟨s, tn, ta, e, by simpa using h, by simpa using hN,
    fun ok hc hok => by simpa using hA ok hc (by simpa using hok) (AInv.init info),
    hT _ (by simpa using fun q hq => addrIn_mem hnd hq)⟩

/-- C32.  After registering any symbols, looking up a name gives the first symbol
registered with that name, and as extras the others of that name, one for each
address, in the order they were registered; a name never registered gives none. -/
theorem C32_by_name (info : Nat → Info) {regs : List Reg} (h0 : ∀ r ∈ regs, r.id ≠ 0)
    (hnd : (regs.map Reg.id).Nodup) :
    ∃ s, registerAll (initSyms info) regs = some s ∧ ∀ name,
      match byName regs name with
      | [] => findTaskSym s name = some (0, [])
      | p :: extras => findTaskSym s name = some (p, extras) ∧ p ≠ 0 ∧ s.info p = ⟨name, (s.info p).addr⟩ := by
  obtain ⟨s, tn, ta, e, h, hN, _, _⟩ := registered info h0 hnd
  refine ⟨s, e, ?_⟩
  intro name
  obtain ⟨r, er, hr⟩ := hN.find (i := s.names) (t := tn) strcmp_ok (fun _ _ => trivial) h.names.tree (k := name) trivial
  have e' : findTaskSym s name = if r = 0 then some (0, []) else some (r, s.names.lists r) := by
    rw [findTaskSym, show cmpName s name = fun n => strcmp (s.info n).name name from rfl, er]
    rfl
  change (r = 0 ∧ byName regs name = []) ∨ (r ≠ 0 ∧ byName regs name = r :: s.names.lists r) at hr
  rcases hr with ⟨h1, h2⟩ | ⟨h1, h2⟩
  · rw [h2]
    simp only [e', if_pos h1]
  · rw [h2]
    simp only [e', if_neg h1]
    refine ⟨trivial, h1, ?_⟩
    have hm : r ∈ byName regs name := by rw [h2]; simp
    obtain ⟨q, hq, rfl⟩ := List.mem_map.1 hm
    obtain ⟨hqR, hqn⟩ := List.mem_filter.1 (mem_firstOfEach hq)
    rw [h.info q hqR, ← of_decide_eq_true hqn]
    rfl

def nm (c : Nat) : List Byte := [BitVec.ofNat 8 c, 0x6f#8]

/-- Five symbols of two names; `5` repeats the name and address of `3`. -/
def someRegs : List Reg :=
  [⟨1, nm 0x66, 0x1000#64⟩, ⟨2, nm 0x67, 0x1000#64⟩, ⟨3, nm 0x66, 0x2000#64⟩, ⟨4, nm 0x66, 0x3000#64⟩,
   ⟨5, nm 0x66, 0x2000#64⟩]

example : byName someRegs (nm 0x66) = [1, 3, 4] := by decide
example : byName someRegs (nm 0x68) = [] := by decide
example : (∀ r ∈ someRegs, r.id ≠ 0) ∧ (someRegs.map Reg.id).Nodup := by decide

/-! ### C33 -/

/-- Less than 2 GiB from `base` on. -/
def Window (base a : BitVec 64) : Prop := (a - base).toNat < 2 ^ 31

theorem addrCmp_window {base a b : BitVec 64} (ha : Window base a) (hb : Window base b) :
    addrCmp a b = ((a - base).toNat : Int) - (b - base).toNat := by
  rw [Window] at ha hb
  have e : a - b = (a - base) - (b - base) := by
    apply BitVec.eq_of_toNat_eq
    simp only [BitVec.toNat_sub]
    omega
  rw [addrCmp, e]
  generalize a - base = x at *
  generalize b - base = y at *
  rw [BitVec.toInt_eq_toNat_cond, BitVec.truncate, BitVec.toNat_setWidth, BitVec.toNat_sub]
  split <;> omega

theorem sub_base_inj {base a b : BitVec 64} (h : (a - base).toNat = (b - base).toNat) : a = b := by
  apply BitVec.eq_of_toNat_eq
  simp only [BitVec.toNat_sub] at h
  omega

theorem addrCmp_ok (base : BitVec 64) : CmpOK addrCmp (Window base) where
  eq := by
    intro a b ha hb
    rw [addrCmp_window ha hb]
    constructor
    · intro h
      exact sub_base_inj (base := base) (by omega)
    · rintro rfl
      omega
  swap := by
    intro a b ha hb
    rw [addrCmp_window ha hb, addrCmp_window hb ha]
    omega
  trans := by
    intro a b c ha hb hc
    rw [addrCmp_window ha hb, addrCmp_window hb hc, addrCmp_window ha hc]
    omega

/-- C33, when all addresses registered, and the one looked up, are within 2 GiB of
each other: the lookup gives the first symbol registered at exactly that address,
or none.  The full statement is for all addresses; it is false
(`C33_wrong_symbol`, `C33_missed_symbol`). -/
theorem C33_exact_partial (info : Nat → Info) {regs : List Reg} (h0 : ∀ r ∈ regs, r.id ≠ 0)
    (hnd : (regs.map Reg.id).Nodup) {base : BitVec 64} (hw : ∀ r ∈ regs, Window base r.addr) :
    ∃ s, registerAll (initSyms info) regs = some s ∧ ∀ addr, Window base addr →
      match byAddr regs addr with
      | [] => findTaskAddr s addr = some 0
      | p :: _ => findTaskAddr s addr = some p ∧ p ≠ 0 ∧ (s.info p).addr = addr := by
  obtain ⟨s, tn, ta, e, h, _, hA, _⟩ := registered info h0 hnd
  refine ⟨s, e, ?_⟩
  intro addr ha
  obtain ⟨r, er, hr⟩ := (hA _ (addrCmp_ok base) hw).find (i := s.addrs) (t := ta) (addrCmp_ok base) hw h.addrs.tree ha
  have e' : findTaskAddr s addr = some r := er
  change (r = 0 ∧ byAddr regs addr = []) ∨ (r ≠ 0 ∧ byAddr regs addr = r :: s.addrs.lists r) at hr
  rcases hr with ⟨h1, h2⟩ | ⟨h1, h2⟩
  · rw [h2]
    simp only [e', h1]
  · rw [h2]
    simp only [e']
    refine ⟨trivial, h1, ?_⟩
    have hm : r ∈ byAddr regs addr := by rw [h2]; simp
    obtain ⟨q, hq, rfl⟩ := List.mem_map.1 hm
    obtain ⟨hqR, hqn⟩ := List.mem_filter.1 (mem_firstOfEach hq)
    rw [h.info q hqR, ← of_decide_eq_true hqn]
    rfl

example : (∀ r ∈ someRegs, Window 0x1000#64 r.addr) ∧ Window 0x1000#64 0x2000#64 ∧ byAddr someRegs 0x2000#64 = [3] ∧
    byAddr someRegs 0x1000#64 = [1, 2] := by
  simp only [Window]
  decide

/-- What the lookup by address does, for all addresses: the search of a tree that
can be computed. -/
theorem findTaskAddr_computed (info : Nat → Info) {regs : List Reg} (h0 : ∀ r ∈ regs, r.id ≠ 0)
    (hnd : (regs.map Reg.id).Nodup) :
    ∃ s, registerAll (initSyms info) regs = some s ∧ ∀ addr, findTaskAddr s addr =
      some (Rb.searchTree (fun n => addrCmp (addrIn regs n) addr) (addrTree (addrIn regs) regs .leaf)) := by
  obtain ⟨s, tn, ta, e, h, _, _, hT⟩ := registered info h0 hnd
  refine ⟨s, e, ?_⟩
  intro addr
  rw [findTaskAddr, Rb.rbSearchNode, h.addrs.tree.root, Rb.searchLoop_any h.addrs.tree.rep, ← hT]
  congr 1
  refine searchTree_congr _ ?_
  intro x hx
  obtain ⟨q, hq, rfl⟩ := h.asub x (head_mem hx)
  rw [addrIn_mem hnd hq, cmpAddr, h.info q hq]
  rfl

theorem addrCmp_far {a b : BitVec 64} (h : a.toNat % 2 ^ 32 = b.toNat % 2 ^ 32) : addrCmp a b = 0 := by
  have : (a - b).toNat % 2 ^ 32 = 0 := by
    rw [BitVec.toNat_sub]
    omega
  rw [addrCmp, BitVec.toInt_eq_toNat_cond, BitVec.truncate, BitVec.toNat_setWidth, this]
  simp

/-- Finding: with one symbol registered, any address with the same low 32 bits
gives that symbol although it is not there.  Shared libraries and programs are
mapped further apart than 4 GiB. -/
theorem C33_wrong_symbol (info : Nat → Info) (r : Reg) (h0 : r.id ≠ 0) (addr : BitVec 64)
    (h : r.addr.toNat % 2 ^ 32 = addr.toNat % 2 ^ 32) :
    ∃ s, registerAll (initSyms info) [r] = some s ∧ findTaskAddr s addr = some r.id := by
  obtain ⟨s, e, hf⟩ := findTaskAddr_computed info (regs := [r]) (by simpa using h0) (by simp)
  refine ⟨s, e, ?_⟩
  rw [hf]
  have hz : addrCmp (addrIn [r] r.id) addr = 0 := by
    rw [addrIn_mem (by simp) (List.mem_singleton.2 rfl)]
    exact addrCmp_far h
  have ht : addrTree (addrIn [r]) [r] .leaf = .node true .leaf r.id .leaf := by rfl
  rw [ht, Rb.searchTree, if_neg (by omega), if_neg (by omega)]

example : byAddr [⟨1, nm 1, 0x400000#64⟩] 0x100400000#64 = [] ∧
    (0x400000#64).toNat % 2 ^ 32 = (0x100400000#64).toNat % 2 ^ 32 := by decide

/-- Eight symbols spread over 3 GiB. -/
def wideRegs : List Reg :=
  [⟨1, nm 1, 0x100000000#64⟩, ⟨2, nm 2, 0x160000000#64⟩, ⟨3, nm 3, 0x1C0000000#64⟩, ⟨4, nm 4, 0x1B0000000#64⟩,
   ⟨5, nm 5, 0x1A0000000#64⟩, ⟨6, nm 6, 0x190000000#64⟩, ⟨7, nm 7, 0x188000000#64⟩, ⟨8, nm 8, 0x184000000#64⟩]

/-- Finding: symbols that are registered, of distinct names and addresses, and
spread over less than 4 GiB, are not found at their address. -/
theorem C33_missed_symbol (info : Nat → Info) :
    ∃ s, registerAll (initSyms info) wideRegs = some s ∧ byAddr wideRegs 0x160000000#64 = [2] ∧
      findTaskAddr s 0x160000000#64 ≠ some 2 := by
  obtain ⟨s, e, h⟩ := findTaskAddr_computed info (regs := wideRegs) (by decide) (by decide)
  refine ⟨s, e, by decide, ?_⟩
  rw [h]
  decide +kernel

/-! ### C34 -/

/-- No symbol of the same name and address was registered before `r`. -/
def Novel (before : List Reg) (r : Reg) : Prop := ∀ q ∈ before, ¬ (q.name = r.name ∧ q.addr = r.addr)

theorem novel_firstOfEach {α κ : Type} [DecidableEq κ] {key : α → κ} {r : α} : ∀ {a b : List α},
    (∀ x ∈ a, key x ≠ key r) → r ∈ firstOfEach key (a ++ r :: b)
  | [], b, _ => by simp [firstOfEach]
  | x :: a, b, h => by
    rw [List.cons_append, firstOfEach]
    refine List.mem_cons_of_mem _ (List.mem_filter.2 ⟨novel_firstOfEach fun y hy => h y (by simp [hy]), ?_⟩)
    simpa using Ne.symm (h x (by simp))

theorem not_novel_firstOfEach {α κ : Type} [DecidableEq κ] {key : α → κ} {r : α} : ∀ {a b : List α},
    (∃ x ∈ a, key x = key r) → r ∉ a → r ∉ firstOfEach key (a ++ r :: b)
  | [], b, h, _ => by simp at h
  | x :: a, b, h, hn => by
    rw [List.cons_append, firstOfEach]
    rw [List.mem_cons, not_or] at hn
    intro hm
    rcases List.mem_cons.1 hm with hm | hm
    · exact hn.1 hm
    · obtain ⟨hm, hk⟩ := List.mem_filter.1 hm
      have hk : key r ≠ key x := by simpa using hk
      obtain ⟨y, hy, e⟩ := h
      rcases List.mem_cons.1 hy with rfl | hy
      · exact hk e.symm
      · exact not_novel_firstOfEach ⟨y, hy, e⟩ hn.2 hm

/-- C34.  After registering any symbols, freeing them all touches no freed memory
and frees none twice (either would be `none`); each symbol that was not registered
before with the same name and address is freed, and nothing else is touched.
What is missing is the freeing of the others: `C34_leak`. -/
theorem C34_freed_once_partial (info : Nat → Info) {regs : List Reg} (h0 : ∀ r ∈ regs, r.id ≠ 0)
    (hnd : (regs.map Reg.id).Nodup) :
    ∃ s s', registerAll (initSyms info) regs = some s ∧ freeTaskSyms s = some s' ∧
      (∀ r ∈ regs, s.rc r.id ≠ none) ∧
      (∀ before r after, regs = before ++ r :: after → Novel before r → s'.rc r.id = none) ∧
      ∀ p, (∀ r ∈ regs, r.id ≠ p) → s'.rc p = s.rc p := by
  obtain ⟨s, tn, ta, e, h, hN, _, _⟩ := registered info h0 hnd
  obtain ⟨s', e', hrc⟩ := freeTaskSyms_ok h
  refine ⟨s, s', e, e', ?_, ?_, ?_⟩
  · intro r hr
    rw [h.rc r hr]
    simp
  · intro a r b hab hnov
    rw [hrc, if_pos]
    refine Or.inl ?_
    have hr : r ∈ regs := by rw [hab]; simp
    obtain ⟨x, hx, ex⟩ := hN.cover r hr
    have hg := hN.group x hx
    rw [ex] at hg
    have : r.id ∈ x :: s.names.lists x := by
      rw [hg]
      refine List.mem_map_of_mem ?_
      rw [hab, List.filter_append, List.filter_cons_of_pos (by simp)]
      refine novel_firstOfEach ?_
      intro q hq ek
      obtain ⟨hq, hqn⟩ := List.mem_filter.1 hq
      exact hnov q hq ⟨of_decide_eq_true hqn, ek⟩
    exact List.mem_flatMap.2 ⟨x, hx, this⟩
  · intro p hp
    rw [hrc, if_neg]
    rintro (hm | hm)
    · obtain ⟨r, hr, er⟩ := h.nsub p hm
      exact hp r hr er
    · obtain ⟨r, hr, er⟩ := h.asub p hm
      exact hp r hr er

theorem not_member {κ κ' : Type} [DecidableEq κ] [DecidableEq κ'] {cmp : κ → κ → Int} {kf : Info → κ}
    {sf : Info → κ'} {info : Nat → Info} {L : Nat → List Nat} {H : List Nat} {a b : List Reg} {r : Reg}
    (h : GInv cmp kf sf info L H (a ++ r :: b)) (hnd : ((a ++ r :: b).map Reg.id).Nodup)
    (hq : ∃ q ∈ a, kf (infoOf q) = kf (infoOf r) ∧ sf (infoOf q) = sf (infoOf r)) : r.id ∉ members L H := by
  intro hm
  obtain ⟨x, hx, hm⟩ := List.mem_flatMap.1 hm
  rw [h.group x hx] at hm
  obtain ⟨y, hy, ey⟩ := List.mem_map.1 hm
  obtain ⟨hyR, hyk⟩ := List.mem_filter.1 (mem_firstOfEach hy)
  have hinj : y = r := by
    have hr : r ∈ a ++ r :: b := by simp
    obtain ⟨i, hi⟩ := List.getElem?_of_mem hyR
    obtain ⟨j, hj⟩ := List.getElem?_of_mem hr
    have hi' : ((a ++ r :: b).map Reg.id)[i]? = some r.id := by rw [List.getElem?_map, hi]; simp [ey]
    have hj' : ((a ++ r :: b).map Reg.id)[j]? = some r.id := by rw [List.getElem?_map, hj]; rfl
    have : i = j := by
      obtain ⟨hil, _⟩ := List.getElem?_eq_some_iff.1 hi'
      exact (List.getElem?_inj hil hnd).1 (hi'.trans hj'.symm)
    subst this
    rw [hi] at hj
    exact Option.some.inj hj
  subst hinj
  have hyk := of_decide_eq_true hyk
  rw [List.filter_append, List.filter_cons_of_pos (by simpa using hyk)] at hy
  refine not_novel_firstOfEach ?_ ?_ hy
  · obtain ⟨q, hqa, h1, h2⟩ := hq
    exact ⟨q, List.mem_filter.2 ⟨hqa, by simpa using h1.trans hyk⟩, h2⟩
  · intro hya
    rw [List.map_append, List.map_cons, List.nodup_append] at hnd
    exact hnd.2.2 _ (List.mem_map_of_mem (List.mem_filter.1 hya).1) _ (by simp) rfl

/-- Finding: a symbol that was registered before with the same name and address is
in no index and is never freed (addresses within 2 GiB). -/
theorem C34_leak (info : Nat → Info) {before after : List Reg} {r : Reg}
    (h0 : ∀ q ∈ before ++ r :: after, q.id ≠ 0) (hnd : ((before ++ r :: after).map Reg.id).Nodup)
    (hdup : ¬ Novel before r) {base : BitVec 64} (hw : ∀ q ∈ before ++ r :: after, Window base q.addr) :
    ∃ s s', registerAll (initSyms info) (before ++ r :: after) = some s ∧ freeTaskSyms s = some s' ∧
      s'.rc r.id = some 0 := by
  obtain ⟨s, tn, ta, e, h, hN, hA, _⟩ := registered info h0 hnd
  obtain ⟨s', e', hrc⟩ := freeTaskSyms_ok h
  have hq : ∃ q ∈ before, q.name = r.name ∧ q.addr = r.addr := by
    simp only [Novel, Classical.not_forall, Classical.not_not] at hdup
    obtain ⟨q, hq, h⟩ := hdup
    exact ⟨q, hq, h⟩
  obtain ⟨q, hqb, h1, h2⟩ := hq
  have hn := not_member hN hnd ⟨q, hqb, h1, h2⟩
  have ha := not_member (hA _ (addrCmp_ok base) hw) hnd ⟨q, hqb, h2, h1⟩
  refine ⟨s, s', e, e', ?_⟩
  rw [hrc, if_neg (by simp [hn, ha]), h.rc r (by simp), contrib_eq_zero hn, contrib_eq_zero ha]

example : someRegs = someRegs.take 4 ++ ⟨5, nm 0x66, 0x2000#64⟩ :: [] ∧
    ¬ Novel (someRegs.take 4) ⟨5, nm 0x66, 0x2000#64⟩ := by
  refine ⟨by decide, ?_⟩
  intro h
  exact h ⟨3, nm 0x66, 0x2000#64⟩ (by decide) (by decide)

/-! ### C51 -/

/-- The symbols a mapping adds: the file's text, data and stub symbols, in that
order, each at its address in the file plus the load address. -/
def Mapping.regs (v : Mapping) : List Reg :=
  if v.isElf = true ∧ v.opened = true ∧ v.isUlpatch = false then
    (v.text ++ v.data ++ v.plt).map fun f => ⟨f.ptr, f.name, f.addr + v.loadAddr⟩
  else []

theorem registerAll_append : ∀ {s : Syms} {a b : List Reg}, registerAll s (a ++ b) =
    (registerAll s a).bind fun s => registerAll s b
  | s, [], b => rfl
  | s, r :: a, b => by
    rw [List.cons_append, registerAll, registerAll, Option.bind_assoc]
    congr 1
    funext s
    exact registerAll_append

theorem linkSyms_eq {load : BitVec 64} : ∀ {l : List FileSym} {s : Syms}, linkSyms load s l =
    registerAll s (l.map fun f => ⟨f.ptr, f.name, f.addr + load⟩)
  | [], s => rfl
  | f :: l, s => by
    rw [linkSyms, List.map_cons, registerAll]
    congr 1
    funext s
    exact linkSyms_eq

theorem taskLoadVmaElfSyms_eq (s : Syms) (v : Mapping) : taskLoadVmaElfSyms s v =
    (registerAll s v.regs).bind fun s => some (s, if v.isElf = true ∧ v.opened = true ∧ v.isUlpatch = false then 0 else -22) := by
  rw [taskLoadVmaElfSyms, Mapping.regs]
  cases v.isElf <;> cases v.opened <;> cases v.isUlpatch <;> simp [registerAll]
  rw [linkSyms_eq]
  rw [registerAll_append, Option.bind_assoc]
  congr 1
  funext s
  rw [linkSyms_eq, registerAll_append, Option.bind_assoc]
  congr 1
  funext s
  rw [linkSyms_eq]

theorem loadAll_eq : ∀ {vs : List Mapping} {s : Syms}, loadAll s vs = registerAll s (vs.flatMap Mapping.regs)
  | [], s => rfl
  | v :: vs, s => by
    rw [loadAll, taskLoadVmaElfSyms_eq, List.flatMap_cons, registerAll_append, Option.bind_assoc]
    congr 1
    funext s
    exact loadAll_eq

/-- C51.  After loading the symbols of any mappings one after another, a name is
found exactly if some of these files define it, and then it has the address of the
first definition in its file plus the load address of that file; mappings that are
no opened ELF files, and those of patches, add nothing. -/
theorem C51_load_symbols (info : Nat → Info) {vs : List Mapping} (h0 : ∀ r ∈ vs.flatMap Mapping.regs, r.id ≠ 0)
    (hnd : ((vs.flatMap Mapping.regs).map Reg.id).Nodup) :
    ∃ s, loadAll (initSyms info) vs = some s ∧ ∀ name,
      match (vs.flatMap Mapping.regs).find? (fun r => r.name = name) with
      | none => findTaskSym s name = some (0, [])
      | some r => ∃ extras, findTaskSym s name = some (r.id, extras) ∧ s.info r.id = ⟨name, r.addr⟩ := by
  obtain ⟨s, e, hn⟩ := C32_by_name info h0 hnd
  obtain ⟨s2, tn, ta, e2, h, _, _, _⟩ := registered info h0 hnd
  rw [e] at e2
  cases e2
  refine ⟨s, by rw [loadAll_eq]; exact e, ?_⟩
  intro name
  have hn := hn name
  generalize hR : vs.flatMap Mapping.regs = R at *
  cases hf : R.find? (fun r => r.name = name) with
  | none =>
    have : R.filter (fun r => r.name = name) = [] := by
      rw [List.filter_eq_nil_iff]
      rw [List.find?_eq_none] at hf
      exact hf
    rw [byName, this] at hn
    exact hn
  | some r =>
    have hfl : ∃ t, R.filter (fun r => r.name = name) = r :: t := by
      rw [← List.head?_filter] at hf
      cases hl : R.filter (fun r => decide (r.name = name)) with
      | nil => rw [hl] at hf; cases hf
      | cons x t =>
        rw [hl] at hf
        cases hf
        exact ⟨t, rfl⟩
    obtain ⟨t, ht⟩ := hfl
    have hr : r ∈ R ∧ r.name = name := by
      have : r ∈ R.filter (fun r => r.name = name) := by rw [ht]; simp
      obtain ⟨h1, h2⟩ := List.mem_filter.1 this
      exact ⟨h1, of_decide_eq_true h2⟩
    rw [byName, ht, firstOfEach, List.map_cons] at hn
    refine ⟨_, hn.1, ?_⟩
    rw [h.info r hr.1, infoOf, hr.2]

/-- A program and a library that both define one name, and a patch. -/
def someMappings : List Mapping :=
  [⟨true, true, false, 0x400000#64, [⟨1, nm 0x66, 0x10#64⟩], [⟨2, nm 0x67, 0x20#64⟩], []⟩,
   ⟨true, true, true, 0x600000#64, [⟨9, nm 0x66, 0x10#64⟩], [], []⟩,
   ⟨true, true, false, 0x7f0000000000#64, [⟨3, nm 0x68, 0x30#64⟩], [], [⟨4, nm 0x66, 0x40#64⟩]⟩]

example : ((someMappings.flatMap Mapping.regs).map Reg.id) = [1, 2, 3, 4] ∧
    (someMappings.flatMap Mapping.regs).find? (fun r => r.name = nm 0x68) = some ⟨3, nm 0x68, 0x7f0000000030#64⟩ := by
  decide

end Ulp.Sym
