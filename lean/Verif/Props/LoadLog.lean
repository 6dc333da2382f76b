/-
C121.  The log level and what is shown of a patch.
-/
import Verif.Model.LoadLog
import Verif.Props.Dump
import Verif.Props.LoadBytesEx
namespace Ulp.LoadLog
open Load LoadBytes PatchFile DumpSpec

section
variable {f : Image} {secs : List Sec} {o : Nat} {strs : Sec} {si : Nat} {st str : Sec} {syms : List SymEntry}

theorem toInt_small {n : Nat} (h : n < 2 ^ 31) : ((BitVec.ofNat 64 n).setWidth 32).toInt = (n : Int) := by
  rw [BitVec.toInt_eq_toNat_of_lt] <;>
    (rw [BitVec.toNat_setWidth, BitVec.toNat_ofNat, Nat.mod_eq_of_lt (by omega), Nat.mod_eq_of_lt (by omega)]; try omega)

theorem paged_length (f : Image) : (paged f).length = 4096 * ((f.length + 4095) / 4096) := by
  unfold paged
  rw [List.length_append, List.length_replicate]
  omega

/-- Where the loader found the symbol table and the string table. -/
theorem recorded_sym (l : Laid f secs o strs) (hr : Readable f secs) (hS : Symbols f secs si st str syms)
    {inf : Info} (h : setupLoadInfo f = some (.ok inf)) :
    inf.strtab.toNat = str.offset ∧
      ∃ sh, shdrAt f inf.symIdx = some sh ∧ sh.size = BitVec.ofNat 64 st.size := by
  obtain ⟨o', x, strs', d⟩ := Describes.desc l.describes
  obtain ⟨r, h1, _, _, h4⟩ := setup_master d hr
  rw [h] at h1; cases h1
  have hI := h4 inf rfl
  have hsi : inf.symIdx = si := by
    obtain ⟨s', t', p1, p2, p3, p4, _⟩ := hI.sym
    rcases Nat.lt_trichotomy inf.symIdx si with h | h | h
    · exact absurd p3 (hS.first _ s' p1 h p2)
    · exact h
    · exact absurd hS.type (p4 si st hS.pos h hS.sec)
  have hstr : inf.strtab = BitVec.ofNat 64 str.offset := by
    obtain ⟨s', t', p1, p2, p3, p4, p5, p6, p7⟩ := hI.sym
    rw [hsi, hS.sec] at p2; cases p2
    rw [p5, hS.link] at p6; cases p6
    exact p7
  have hin := l.inside _ _ hS.link (by rw [hS.strType]; decide)
  have := l.describes.small
  obtain ⟨sh, hsh, ha, _⟩ := d.shdr hS.sec
  refine ⟨by rw [hstr, BitVec.toNat_ofNat, Nat.mod_eq_of_lt (by omega)], sh, by rw [hsi]; exact hsh, ha.size⟩

/-- C121.  Without debug messages nothing is dumped, and loading does what it does. -/
theorem C121_quiet (l : Laid f secs o strs) (hr : Readable f secs) (hS : Symbols f secs si st str syms)
    (M : Machine) (E : Env) (level : Int) (hl : level < 7) :
    loadLog level M E f = (load M E f).map fun r => ([], r) := by
  unfold loadLog
  split
  next inf h =>
    obtain ⟨_, sh, hsh, _⟩ := recorded_sym l hr hS h
    unfold strtabDump memshowinlog
    rw [hsh]
    dsimp only
    rw [if_pos (show Log.LOG_DEBUG > level from hl)]
  · rfl

/-- C121, as far as it holds.  If as many bytes as the symbol table has, rounded up to
lines of 16, can be read from the start of the string table to the end of the last page of
the file, loading with debug messages does the same as without, and what is dumped are
that many bytes from the start of the string table on.  Missing: what is dumped is the
string table (`C121_other_length`), and any file can be loaded (`C121_violated`). -/
theorem C121_partial (l : Laid f secs o strs) (hr : Readable f secs) (hc : Complete f secs)
    (hS : Symbols f secs si st str syms) (M : Machine) (E : Env) (level : Int) (hl : 7 ≤ level)
    (hpos : 0 < st.size) (hsize : st.size + 15 < 2 ^ 31) (hfit : str.offset + st.size ≤ f.length)
    (hpage : str.offset + 16 * ((st.size + 15) / 16) ≤ 4096 * ((f.length + 4095) / 4096)) :
    ∃ t, IsDump ((f.drop str.offset).take st.size) t ∧
      loadLog level M E f = (load M E f).map fun r => (t, r) := by
  obtain ⟨inf, h⟩ := (C19_accepts_iff f secs l.describes hr).2 hc
  obtain ⟨hstr, sh, hsh, hsz⟩ := recorded_sym l hr hS h
  obtain ⟨t, r, h1, h2⟩ := Dump.C94_dump_partial ((paged f).drop str.offset) st.size hpos hsize
    (by rw [List.length_drop, paged_length]; omega)
  refine ⟨t, ?_, ?_⟩
  · have e : (f.drop str.offset).take st.size = ((paged f).drop str.offset).take st.size := by
      unfold paged
      rw [List.drop_append_of_le_length (by omega), List.take_append_of_le_length (by rw [List.length_drop]; omega)]
    rw [e]; exact h2
  · unfold loadLog
    rw [h]
    unfold strtabDump memshowinlog
    dsimp only
    rw [hsh]
    dsimp only
    rw [if_neg (show ¬ Log.LOG_DEBUG > level from by unfold Log.LOG_DEBUG; omega), hstr, hsz,
      toInt_small (by omega), h1]

/-- What could be dumped could be read. -/
theorem lines_ok {mem : List Byte} {len : Nat} : ∀ (n k : Nat) (v : List Byte × Int), len - k * 16 ≤ n →
    Dump.lines mem len k = .ok v → ∀ i, k * 16 ≤ i → i < len → i < mem.length := by
  intro n
  induction n with
  | zero => intro k v hn h i h1 h2; omega
  | succ n ih =>
    intro k v hn h i h1 h2
    unfold Dump.lines at h
    rw [if_pos (by omega)] at h
    cases hl : Dump.line mem len k with
    | error e => rw [hl] at h; cases h
    | ok l =>
      cases hr : Dump.lines mem len (k + 1) with
      | error e => rw [hl, hr] at h; cases h
      | ok r =>
        by_cases hi : (k + 1) * 16 ≤ i
        · exact ih (k + 1) r (by omega) hr i hi h2
        · unfold Dump.line at hl
          cases h3 : (List.range 16).mapM (Dump.hexCol mem len k) with
          | error e => rw [h3] at hl; cases hl
          | ok w =>
            obtain ⟨x, hx⟩ := Dump.mapM_ok h3 (i - k * 16) (by rw [List.mem_range]; omega)
            unfold Dump.hexCol at hx
            dsimp only at hx
            rw [if_neg (by omega), show k * 16 + (i - k * 16) = i by omega] at hx
            split at hx
            · cases hx
            · rename_i b hb; exact (List.getElem?_eq_some_iff.1 hb).1

/-- C121.  If the symbol table has more bytes than there are from the start of the string
table to the end of the last page of the file, loading with debug messages reads memory
behind that page, whatever the file and the target are. -/
theorem C121_overread (l : Laid f secs o strs) (hr : Readable f secs) (hc : Complete f secs)
    (hS : Symbols f secs si st str syms) (M : Machine) (E : Env) (level : Int) (hl : 7 ≤ level)
    (hpos : 0 < st.size) (hsize : st.size < 2 ^ 31)
    (hover : 4096 * ((f.length + 4095) / 4096) < str.offset + st.size) : loadLog level M E f = none := by
  obtain ⟨inf, h⟩ := (C19_accepts_iff f secs l.describes hr).2 hc
  obtain ⟨hstr, sh, hsh, hsz⟩ := recorded_sym l hr hS h
  have hin := l.inside _ _ hS.link (by rw [hS.strType]; decide)
  unfold loadLog
  rw [h]
  unfold strtabDump memshowinlog Dump.memshow
  dsimp only
  rw [hsh]
  dsimp only
  rw [if_neg (show ¬ Log.LOG_DEBUG > level from by unfold Log.LOG_DEBUG; omega), hstr, hsz,
    toInt_small hsize, if_neg (by omega), if_neg (by decide), Int.toNat_natCast]
  cases hd : Dump.lines ((paged f).drop str.offset) st.size 0 with
  | error e => rfl
  | ok v =>
    have := lines_ok _ 0 v (Nat.le_refl _) hd (st.size - 1) (by omega) (by omega)
    rw [List.length_drop, paged_length] at this
    omega
end

/-- The hypotheses of `C121_partial` are met by a file that is loaded. -/
example : ∃ t r, IsDump ((lkFile.drop 313).take 72) t ∧ loadLog 7 x86 lkEnv lkFile = some (t, .ok r) := by
  obtain ⟨L, hL⟩ := lk_loads
  obtain ⟨t, h1, h2⟩ := C121_partial lk_laid lk_readable lk_complete lk_symbols x86 lkEnv 7 (by decide)
    (by decide) (by decide) (by decide +kernel) (by decide +kernel)
  exact ⟨t, L, h1, by rw [h2, hL]; rfl⟩

/-- C121.  What is dumped is not the string table, which has 129 bytes, but the number of
bytes of the symbol table. -/
theorem C121_other_length : ∃ t r, loadLog 7 x86 lkEnv lkFile = some (t, .ok r) ∧
    ¬ IsDump ((lkFile.drop 313).take 129) t := by
  obtain ⟨L, hL⟩ := lk_loads
  obtain ⟨t, h1, h2⟩ := C121_partial lk_laid lk_readable lk_complete lk_symbols x86 lkEnv 7 (by decide)
    (by decide) (by decide) (by decide +kernel) (by decide +kernel)
  refine ⟨t, L, by rw [h2, hL]; rfl, fun h => ?_⟩
  have a := h.length
  rw [h1.length] at a
  rw [show ((lkFile.drop 313).take 129).length = 129 by decide +kernel,
    show ((lkFile.drop 313).take 72).length = 72 by decide +kernel] at a
  omega

end Ulp.LoadLog
