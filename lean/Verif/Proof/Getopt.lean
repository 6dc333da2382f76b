/-
The tables of options and the help texts of the tools say the same.
-/
import Verif.Spec.Getopt
namespace Ulp.Getopt
open Ulp.Load (lit)
open Ulp.Cli (Opt AOpt)

/-- The row of the table does what the help text says. -/
def Agrees (case : Ret → Case) (d : Doc) (arg : Bool) (v : Nat) : Prop :=
  match d.mean with
  | .inl o => arg = false ∧ case (.opt v none) = .opt o ∧ o ≠ .own (.stop 1)
  | .inr f => arg = true ∧ (∀ a, case (.opt v (some a)) = .opt (f a)) ∧ ∀ a, f a ≠ .own (.stop 1)

def takes (s : List Byte) (c : Byte) : Option Bool :=
  match letter s c with
  | some .no => some false
  | some .required => some true
  | _ => none

structure Fits (t : Table) (case : Ret → Case) (D : List Doc) : Prop where
  short : ∀ d ∈ D, ∀ c, d.short = some c → ∃ b, takes t.shorts c = some b ∧ Agrees case d b c.toNat
  letters : ∀ c, letter t.shorts c = none ∨ c = 118 ∨ ∃ d ∈ D, d.short = some c
  v : letter t.shorts 118 = some .optional
  vs : ∀ a, case (.opt 118 a) = .opt (.verbose (match a with | none => 0 | some a => BitVec.ofNat 32 (Str.str2verbose a)))
  dash : letter t.shorts 45 = none
  long : ∀ d ∈ D, ∀ l ∈ t.longs, l.name ∈ d.longs → Agrees case d l.arg l.val
  cover : ∀ l ∈ t.longs, ∃ d ∈ D, l.name ∈ d.longs
  have_ : ∀ d ∈ D, ∀ n ∈ d.longs, ∃ l ∈ t.longs, l.name = n
  same : ∀ d ∈ D, ∀ l ∈ t.longs, ∀ m ∈ t.longs, l.name ∈ d.longs → ((m.arg = l.arg ∧ m.val = l.val) ↔ m.name ∈ d.longs)
  many : ∀ d ∈ D, ∃ l ∈ t.longs, l.name ∉ d.longs
  plain : ∀ l ∈ t.longs, l.name ≠ [] ∧ 61 ∉ l.name
  bad : case .bad = .opt (.own (.stop 1))

theorem level_ne (a : Word) : levelOpt a ≠ .own (.stop 1) := by
  unfold levelOpt
  cases Log.optLogLevel a with
  | none => exact nofun
  | some l => exact nofun

theorem long_of {t : Table} {case : Ret → Case} {d : Doc} (b : Bool) (v : Nat)
    (h : ∀ l ∈ t.longs, l.name ∈ d.longs → l.arg = b ∧ l.val = v) (ha : Agrees case d b v) :
    ∀ l ∈ t.longs, l.name ∈ d.longs → Agrees case d l.arg l.val := by
  intro l hl hn
  obtain ⟨h1, h2⟩ := h l hl hn
  rw [h1, h2]
  exact ha

theorem short_of {t : Table} {case : Ret → Case} {d : Doc} (x : Byte) (b : Bool) (hx : d.short = some x)
    (h : takes t.shorts x = some b) (ha : Agrees case d b x.toNat) :
    ∀ c, d.short = some c → ∃ b, takes t.shorts c = some b ∧ Agrees case d b c.toNat := by
  intro c hc
  rw [hx] at hc
  cases hc
  exact ⟨b, h, ha⟩

theorem flag_of {case : Ret → Case} {s : Option Byte} {ns : List Word} {o : AOpt} {v : Nat}
    (h : case (.opt v none) = .opt o) (ho : o ≠ .own (.stop 1)) : Agrees case ⟨s, ns, .inl o⟩ false v := ⟨rfl, h, ho⟩

theorem arg_of {case : Ret → Case} {s : Option Byte} {ns : List Word} {f : Word → AOpt} {v : Nat}
    (h : ∀ a, case (.opt v (some a)) = .opt (f a)) (ho : ∀ a, f a ≠ .own (.stop 1)) : Agrees case ⟨s, ns, .inr f⟩ true v :=
  ⟨rfl, h, ho⟩

theorem no_short {t : Table} {case : Ret → Case} {d : Doc} (hx : d.short = none) :
    ∀ c, d.short = some c → ∃ b, takes t.shorts c = some b ∧ Agrees case d b c.toNat := by
  intro c hc
  rw [hx] at hc
  cases hc

theorem all_cons {P : Doc → Prop} {d : Doc} {D : List Doc} (h : P d) (hs : ∀ e ∈ D, P e) : ∀ e ∈ d :: D, P e := by
  intro e he
  cases he with
  | head => exact h
  | tail _ he => exact hs e he

theorem ultask_short : ∀ d ∈ Prog.ultask.doc, ∀ c, d.short = some c →
    ∃ b, takes Prog.ultask.table.shorts c = some b ∧ Agrees Prog.ultask.case d b c.toNat := by
  simp only [Prog.doc, commonDoc, List.cons_append, List.nil_append]
  refine all_cons (short_of 112 true rfl (by decide +kernel) (arg_of (fun _ => rfl) (fun _ => by simp))) ?_
  refine all_cons (no_short rfl) ?_
  refine all_cons (no_short rfl) ?_
  refine all_cons (no_short rfl) ?_
  refine all_cons (no_short rfl) ?_
  refine all_cons (no_short rfl) ?_
  refine all_cons (no_short rfl) ?_
  refine all_cons (no_short rfl) ?_
  refine all_cons (no_short rfl) ?_
  refine all_cons (no_short rfl) ?_
  refine all_cons (no_short rfl) ?_
  refine all_cons (no_short rfl) ?_
  refine all_cons (short_of 111 true rfl (by decide +kernel) (arg_of (fun _ => rfl) (fun _ => by simp))) ?_
  refine all_cons (no_short rfl) ?_
  refine all_cons (no_short rfl) ?_
  refine all_cons (no_short rfl) ?_
  refine all_cons (short_of 117 false rfl (by decide +kernel) (flag_of rfl (by decide))) ?_
  refine all_cons (no_short rfl) ?_
  refine all_cons (short_of 104 false rfl (by decide +kernel) (flag_of rfl (by decide))) ?_
  refine all_cons (short_of 86 false rfl (by decide +kernel) (flag_of rfl (by decide))) ?_
  refine all_cons (short_of 70 false rfl (by decide +kernel) (flag_of rfl (by decide))) ?_
  refine all_cons (no_short rfl) ?_
  exact nofun

theorem ultask_long : ∀ d ∈ Prog.ultask.doc, ∀ l ∈ Prog.ultask.table.longs, l.name ∈ d.longs →
    Agrees Prog.ultask.case d l.arg l.val := by
  simp only [Prog.doc, commonDoc, List.cons_append, List.nil_append]
  refine all_cons (long_of true 112 (by decide +kernel) (arg_of (fun _ => rfl) (fun _ => by simp))) ?_
  refine all_cons (long_of true 146 (by decide +kernel) (arg_of (fun _ => rfl) (fun _ => by simp))) ?_
  refine all_cons (long_of true 144 (by decide +kernel) (arg_of (fun _ => rfl) (fun _ => by simp))) ?_
  refine all_cons (long_of true 147 (by decide +kernel) (arg_of (fun _ => rfl) (fun _ => by simp))) ?_
  refine all_cons (long_of true 149 (by decide +kernel) (arg_of (fun _ => rfl) (fun _ => by simp))) ?_
  refine all_cons (long_of true 148 (by decide +kernel) (arg_of (fun _ => rfl) (fun _ => by simp))) ?_
  refine all_cons (long_of false 145 (by decide +kernel) (flag_of rfl (by decide))) ?_
  refine all_cons (long_of false 150 (by decide +kernel) (flag_of rfl (by decide))) ?_
  refine all_cons (long_of false 151 (by decide +kernel) (flag_of rfl (by decide))) ?_
  refine all_cons (long_of false 152 (by decide +kernel) (flag_of rfl (by decide))) ?_
  refine all_cons (long_of false 153 (by decide +kernel) (flag_of rfl (by decide))) ?_
  refine all_cons (long_of false 154 (by decide +kernel) (flag_of rfl (by decide))) ?_
  refine all_cons (long_of true 111 (by decide +kernel) (arg_of (fun _ => rfl) (fun _ => by simp))) ?_
  refine all_cons (long_of true 139 (by decide +kernel) (arg_of (fun _ => rfl) level_ne)) ?_
  refine all_cons (long_of false 140 (by decide +kernel) (flag_of rfl (by decide))) ?_
  refine all_cons (long_of false 141 (by decide +kernel) (flag_of rfl (by decide))) ?_
  refine all_cons (long_of false 117 (by decide +kernel) (flag_of rfl (by decide))) ?_
  refine all_cons (long_of false 118 (by decide +kernel) (flag_of rfl (by decide))) ?_
  refine all_cons (long_of false 104 (by decide +kernel) (flag_of rfl (by decide))) ?_
  refine all_cons (long_of false 86 (by decide +kernel) (flag_of rfl (by decide))) ?_
  refine all_cons (long_of false 70 (by decide +kernel) (flag_of rfl (by decide))) ?_
  refine all_cons (long_of false 142 (by decide +kernel) (flag_of rfl (by decide))) ?_
  exact nofun

theorem ulpatch_short : ∀ d ∈ Prog.ulpatch.doc, ∀ c, d.short = some c →
    ∃ b, takes Prog.ulpatch.table.shorts c = some b ∧ Agrees Prog.ulpatch.case d b c.toNat := by
  simp only [Prog.doc, commonDoc, List.cons_append, List.nil_append]
  refine all_cons (short_of 112 true rfl (by decide +kernel) (arg_of (fun _ => rfl) (fun _ => by simp))) ?_
  refine all_cons (no_short rfl) ?_
  refine all_cons (no_short rfl) ?_
  refine all_cons (no_short rfl) ?_
  refine all_cons (no_short rfl) ?_
  refine all_cons (no_short rfl) ?_
  refine all_cons (no_short rfl) ?_
  refine all_cons (short_of 117 false rfl (by decide +kernel) (flag_of rfl (by decide))) ?_
  refine all_cons (no_short rfl) ?_
  refine all_cons (short_of 104 false rfl (by decide +kernel) (flag_of rfl (by decide))) ?_
  refine all_cons (short_of 86 false rfl (by decide +kernel) (flag_of rfl (by decide))) ?_
  refine all_cons (short_of 70 false rfl (by decide +kernel) (flag_of rfl (by decide))) ?_
  refine all_cons (no_short rfl) ?_
  exact nofun

theorem ulpatch_long : ∀ d ∈ Prog.ulpatch.doc, ∀ l ∈ Prog.ulpatch.table.longs, l.name ∈ d.longs →
    Agrees Prog.ulpatch.case d l.arg l.val := by
  simp only [Prog.doc, commonDoc, List.cons_append, List.nil_append]
  refine all_cons (long_of true 112 (by decide +kernel) (arg_of (fun _ => rfl) (fun _ => by simp))) ?_
  refine all_cons (long_of true 144 (by decide +kernel) (arg_of (fun _ => rfl) (fun _ => by simp))) ?_
  refine all_cons (long_of false 145 (by decide +kernel) (flag_of rfl (by decide))) ?_
  refine all_cons (long_of false 146 (by decide +kernel) (flag_of rfl (by decide))) ?_
  refine all_cons (long_of true 139 (by decide +kernel) (arg_of (fun _ => rfl) level_ne)) ?_
  refine all_cons (long_of false 140 (by decide +kernel) (flag_of rfl (by decide))) ?_
  refine all_cons (long_of false 141 (by decide +kernel) (flag_of rfl (by decide))) ?_
  refine all_cons (long_of false 117 (by decide +kernel) (flag_of rfl (by decide))) ?_
  refine all_cons (long_of false 118 (by decide +kernel) (flag_of rfl (by decide))) ?_
  refine all_cons (long_of false 104 (by decide +kernel) (flag_of rfl (by decide))) ?_
  refine all_cons (long_of false 86 (by decide +kernel) (flag_of rfl (by decide))) ?_
  refine all_cons (long_of false 70 (by decide +kernel) (flag_of rfl (by decide))) ?_
  refine all_cons (long_of false 142 (by decide +kernel) (flag_of rfl (by decide))) ?_
  exact nofun

theorem ulftrace_short : ∀ d ∈ Prog.ulftrace.doc, ∀ c, d.short = some c →
    ∃ b, takes Prog.ulftrace.table.shorts c = some b ∧ Agrees Prog.ulftrace.case d b c.toNat := by
  simp only [Prog.doc, commonDoc, List.cons_append, List.nil_append]
  refine all_cons (short_of 112 true rfl (by decide +kernel) (arg_of (fun _ => rfl) (fun _ => by simp))) ?_
  refine all_cons (short_of 102 true rfl (by decide +kernel) (arg_of (fun _ => rfl) (fun _ => by simp))) ?_
  refine all_cons (short_of 106 true rfl (by decide +kernel) (arg_of (fun _ => rfl) (fun _ => by simp))) ?_
  refine all_cons (no_short rfl) ?_
  refine all_cons (no_short rfl) ?_
  refine all_cons (no_short rfl) ?_
  refine all_cons (short_of 117 false rfl (by decide +kernel) (flag_of rfl (by decide))) ?_
  refine all_cons (no_short rfl) ?_
  refine all_cons (short_of 104 false rfl (by decide +kernel) (flag_of rfl (by decide))) ?_
  refine all_cons (short_of 86 false rfl (by decide +kernel) (flag_of rfl (by decide))) ?_
  refine all_cons (short_of 70 false rfl (by decide +kernel) (flag_of rfl (by decide))) ?_
  refine all_cons (no_short rfl) ?_
  exact nofun

theorem ulftrace_long : ∀ d ∈ Prog.ulftrace.doc, ∀ l ∈ Prog.ulftrace.table.longs, l.name ∈ d.longs →
    Agrees Prog.ulftrace.case d l.arg l.val := by
  simp only [Prog.doc, commonDoc, List.cons_append, List.nil_append]
  refine all_cons (long_of true 112 (by decide +kernel) (arg_of (fun _ => rfl) (fun _ => by simp))) ?_
  refine all_cons (long_of true 102 (by decide +kernel) (arg_of (fun _ => rfl) (fun _ => by simp))) ?_
  refine all_cons (long_of true 106 (by decide +kernel) (arg_of (fun _ => rfl) (fun _ => by simp))) ?_
  refine all_cons (long_of true 139 (by decide +kernel) (arg_of (fun _ => rfl) level_ne)) ?_
  refine all_cons (long_of false 140 (by decide +kernel) (flag_of rfl (by decide))) ?_
  refine all_cons (long_of false 141 (by decide +kernel) (flag_of rfl (by decide))) ?_
  refine all_cons (long_of false 117 (by decide +kernel) (flag_of rfl (by decide))) ?_
  refine all_cons (long_of false 118 (by decide +kernel) (flag_of rfl (by decide))) ?_
  refine all_cons (long_of false 104 (by decide +kernel) (flag_of rfl (by decide))) ?_
  refine all_cons (long_of false 86 (by decide +kernel) (flag_of rfl (by decide))) ?_
  refine all_cons (long_of false 70 (by decide +kernel) (flag_of rfl (by decide))) ?_
  refine all_cons (long_of false 142 (by decide +kernel) (flag_of rfl (by decide))) ?_
  exact nofun

theorem ulpinfo_short : ∀ d ∈ Prog.ulpinfo.doc, ∀ c, d.short = some c →
    ∃ b, takes Prog.ulpinfo.table.shorts c = some b ∧ Agrees Prog.ulpinfo.case d b c.toNat := by
  simp only [Prog.doc, commonDoc, List.cons_append, List.nil_append]
  refine all_cons (short_of 105 true rfl (by decide +kernel) (arg_of (fun _ => rfl) (fun _ => by simp))) ?_
  refine all_cons (short_of 112 true rfl (by decide +kernel) (arg_of (fun _ => rfl) (fun _ => by simp))) ?_
  refine all_cons (no_short rfl) ?_
  refine all_cons (no_short rfl) ?_
  refine all_cons (no_short rfl) ?_
  refine all_cons (short_of 117 false rfl (by decide +kernel) (flag_of rfl (by decide))) ?_
  refine all_cons (no_short rfl) ?_
  refine all_cons (short_of 104 false rfl (by decide +kernel) (flag_of rfl (by decide))) ?_
  refine all_cons (short_of 86 false rfl (by decide +kernel) (flag_of rfl (by decide))) ?_
  refine all_cons (short_of 70 false rfl (by decide +kernel) (flag_of rfl (by decide))) ?_
  refine all_cons (no_short rfl) ?_
  exact nofun

theorem ulpinfo_long : ∀ d ∈ Prog.ulpinfo.doc, ∀ l ∈ Prog.ulpinfo.table.longs, l.name ∈ d.longs →
    Agrees Prog.ulpinfo.case d l.arg l.val := by
  simp only [Prog.doc, commonDoc, List.cons_append, List.nil_append]
  refine all_cons (long_of true 105 (by decide +kernel) (arg_of (fun _ => rfl) (fun _ => by simp))) ?_
  refine all_cons (long_of true 112 (by decide +kernel) (arg_of (fun _ => rfl) (fun _ => by simp))) ?_
  refine all_cons (long_of true 139 (by decide +kernel) (arg_of (fun _ => rfl) level_ne)) ?_
  refine all_cons (long_of false 140 (by decide +kernel) (flag_of rfl (by decide))) ?_
  refine all_cons (long_of false 141 (by decide +kernel) (flag_of rfl (by decide))) ?_
  refine all_cons (long_of false 117 (by decide +kernel) (flag_of rfl (by decide))) ?_
  refine all_cons (long_of false 118 (by decide +kernel) (flag_of rfl (by decide))) ?_
  refine all_cons (long_of false 104 (by decide +kernel) (flag_of rfl (by decide))) ?_
  refine all_cons (long_of false 86 (by decide +kernel) (flag_of rfl (by decide))) ?_
  refine all_cons (long_of false 70 (by decide +kernel) (flag_of rfl (by decide))) ?_
  refine all_cons (long_of false 142 (by decide +kernel) (flag_of rfl (by decide))) ?_
  exact nofun

theorem fits (p : Prog) : Fits p.table p.case p.doc := by
  cases p with
  | ultask =>
    exact ⟨ultask_short, by decide +kernel, by decide +kernel, fun a => rfl, by decide +kernel, ultask_long, by decide +kernel,
      by decide +kernel, by decide +kernel, by decide +kernel, by decide +kernel, rfl⟩
  | ulpatch =>
    exact ⟨ulpatch_short, by decide +kernel, by decide +kernel, fun a => rfl, by decide +kernel, ulpatch_long, by decide +kernel,
      by decide +kernel, by decide +kernel, by decide +kernel, by decide +kernel, rfl⟩
  | ulftrace =>
    exact ⟨ulftrace_short, by decide +kernel, by decide +kernel, fun a => rfl, by decide +kernel, ulftrace_long, by decide +kernel,
      by decide +kernel, by decide +kernel, by decide +kernel, by decide +kernel, rfl⟩
  | ulpinfo =>
    exact ⟨ulpinfo_short, by decide +kernel, by decide +kernel, fun a => rfl, by decide +kernel, ulpinfo_long, by decide +kernel,
      by decide +kernel, by decide +kernel, by decide +kernel, by decide +kernel, rfl⟩

end Ulp.Getopt
