import Verif.Proof.Load
namespace Ulp.Load
open PatchFile

/-- What a successful `setup_load_info` recorded. -/
structure Recorded (f : List Byte) (secs : List Sec) (i : Info) : Prop where
  secstrings : ∃ x s, Num f 62 2 x ∧ secs[x]? = some s ∧ i.secstrings = BitVec.ofNat 64 s.offset
  info : ∃ s, Has secs ".ulpatch.info" s ∧ secs[i.infoIdx]? = some s ∧ i.infoIdx ≠ 0 ∧
    i.ulpInfo = BitVec.ofNat 64 s.offset
  names : ∃ s magic src, Has secs ".ulpatch.strtab" s ∧ Str f s.offset magic ∧
    Str f (s.offset + magic.length + 1) src ∧
    i.srcFunc = BitVec.ofNat 64 (s.offset + magic.length + 1) ∧
    i.dstFunc = BitVec.ofNat 64 (s.offset + magic.length + 1 + src.length + 1)
  author : ∃ s, Has secs ".ulpatch.author" s ∧ i.author = BitVec.ofNat 64 s.offset
  license : ∃ s, Has secs ".ulpatch.license" s ∧ i.license = BitVec.ofNat 64 s.offset
  buildId : ∃ s namesz descsz type, Has secs ".note.gnu.build-id" s ∧ Num f s.offset 4 namesz ∧
    Num f (s.offset + 4) 4 descsz ∧ Num f (s.offset + 8) 4 type ∧
    i.buildId = (if type = 3 then
      some (((f.drop (s.offset + 12 + namesz)).take descsz).flatMap hex2) else none)
  sym : ∃ s t, 0 < i.symIdx ∧ secs[i.symIdx]? = some s ∧ s.type = 2 ∧
    (∀ (j : Nat) (u : Sec), 1 ≤ j → j < i.symIdx → secs[j]? = some u → u.type ≠ 2) ∧
    i.strIdx = s.link ∧ secs[i.strIdx]? = some t ∧ i.strtab = BitVec.ofNat 64 t.offset

theorem Str.unique' {f : List Byte} {off : Nat} {s t : List Byte} (hs : f.length < 2 ^ 64)
    (h : Str f off s) (h' : Str f off t) : s = t := by
  have h1 := strEq_str hs t h h'.1
  have h2 := strEq_str hs t h' h'.1
  rw [h1] at h2
  simpa using h2

theorem setup_master {f secs o x strs} (d : Desc f secs o x strs) (hr : Readable f secs) :
    ∃ r, setupLoadInfo f = some r ∧ Verdict f secs (code r) ∧
      (∀ e, r = .error e → e < 0) ∧ ∀ i, r = .ok i → Recorded f secs i := by
  have hs := d.small
  obtain ⟨ssh, hssh, hsa, _⟩ := d.shdr d.hstrs
  unfold setupLoadInfo
  rw [show shstrndx f = some x from rd_num' d.hx (by omega) hs rfl]
  simp only [Option.bind_eq_bind, Option.bind_some, hssh, hsa.offset]
  rcases findSec_has d ".ulpatch.info" (by decide) with ⟨hf, hno⟩ | ⟨k, s, hf, hk, hhas, hat⟩
  · rw [hf]; exact ⟨_, rfl, .noInfo hno, by rintro e ⟨⟩; decide, nofun⟩
  have hinfo : HasInfo secs := ⟨s, hhas⟩
  obtain ⟨sh, h1, ha, _⟩ := d.shdr hat
  have hle := hr.info s hhas
  have hv := Num.of_le (f := f) (off := s.offset + 56) (n := 4) (by omega)
  have hrv : rd f (BitVec.ofNat 64 s.offset + 56) 4 = some _ :=
    rd_num' hv (by omega) hs (BitVec.ofNat_add ..).symm
  generalize leNat ((f.drop (s.offset + 56)).take 4) = v at hv hrv
  simp only [hf, Option.bind_some, if_neg hk, h1, ha.offset, hrv]
  by_cases hv5 : v ≠ 5
  · rw [if_pos hv5]
    refine ⟨_, rfl, .version hinfo ?_, by rintro e ⟨⟩; decide, nofun⟩
    rintro ⟨t, ht, hn⟩
    cases Has.unique hhas ht
    exact hv5 (hv.unique hn)
  rw [if_neg hv5]
  have hver : VersionOk f secs := ⟨s, hhas, by rw [← Decidable.not_not.1 hv5]; exact hv⟩
  have hI : ∃ s, Has secs ".ulpatch.info" s ∧ secs[k]? = some s ∧ k ≠ 0 ∧
    BitVec.ofNat 64 s.offset = BitVec.ofNat 64 s.offset := ⟨s, hhas, hat, hk, rfl⟩
  have hsoff : s.offset = s.offset := rfl
  rcases findSec_has d ".ulpatch.strtab" (by decide) with ⟨hf2, hno⟩ | ⟨k2, s2, hf2, hk2, hhas2, hat2⟩
  · rw [hf2]; exact ⟨_, rfl, .noStrtab hver hno, by rintro e ⟨⟩; decide, nofun⟩
  have hstr : HasStrtab secs := ⟨s2, hhas2⟩
  obtain ⟨sh2, h12, ha2, _⟩ := d.shdr hat2
  simp only [hf2, Option.bind_some, if_neg hk2, h12, ha2.offset]
  rcases findSec_has d ".ulpatch.author" (by decide) with ⟨hf3, hno⟩ | ⟨k3, s3, hf3, hk3, hhas3, hat3⟩
  · rw [hf3]; exact ⟨_, rfl, .noAuthor hver hstr hno, by rintro e ⟨⟩; decide, nofun⟩
  have haut : HasAuthor secs := ⟨s3, hhas3⟩
  obtain ⟨sh3, h13, ha3, _⟩ := d.shdr hat3
  simp only [hf3, Option.bind_some, if_neg hk3, h13, ha3.offset]
  rcases findSec_has d ".ulpatch.license" (by decide) with ⟨hf4, hno⟩ | ⟨k4, s4, hf4, hk4, hhas4, hat4⟩
  · rw [hf4]; exact ⟨_, rfl, .noLicense hver hstr haut hno, by rintro e ⟨⟩; decide, nofun⟩
  have hlic : HasLicense secs := ⟨s4, hhas4⟩
  obtain ⟨sh4, h14, ha4, _⟩ := d.shdr hat4
  simp only [hf4, Option.bind_some, if_neg hk4, h14, ha4.offset]
  rcases findSec_has d ".note.gnu.build-id" (by decide) with ⟨hf5, hno⟩ | ⟨k5, s5, hf5, hk5, hhas5, hat5⟩
  · rw [hf5]
    exact ⟨_, rfl, .noBuildId hver hstr haut hlic fun ⟨t, ht, _⟩ => hno ⟨t, ht⟩, by rintro e ⟨⟩; decide, nofun⟩
  obtain ⟨sh5, h15, ha5, _⟩ := d.shdr hat5
  simp only [hf5, Option.bind_some, if_neg hk5, h15, ha5.offset, ha5.type]
  by_cases hnt : s5.type ≠ SHT_NOTE
  · rw [if_pos hnt]
    refine ⟨_, rfl, .noBuildId hver hstr haut hlic ?_, by rintro e ⟨⟩; decide, nofun⟩
    rintro ⟨t, ht, hty⟩
    cases Has.unique hhas5 ht
    exact hnt hty
  rw [if_neg hnt]
  have hbid : HasBuildId secs := ⟨s5, hhas5, Decidable.not_not.1 hnt⟩
  obtain ⟨namesz, descsz, ty, hn1, hn2, hn3, hd, hle5⟩ := hr.note s5 hhas5
  obtain ⟨magic, src, dst, hm, hsrc, hdst⟩ := hr.strtab s2 hhas2
  rw [buildIdText_spec hs hn1 hn2 hn3 hd hle5, Option.bind_some]
  unfold parseStrtab
  rw [strEq_str hs _ hm (by decide)]
  by_cases hmag : magic = lit ".ULPATCH"
  · rw [decide_eq_true hmag, skipStr_str hs hm]
    dsimp only
    rw [skipStr_str hs hsrc]
    dsimp only
    have hmg : MagicOk f secs := ⟨s2, hhas2, by rw [← lit_eq, ← hmag]; exact hm⟩
    simp only [Option.bind_some, d.num]
    rcases findSymtab_spec d hr.sym (secs.length - 1) 1 (by omega) with
      ⟨kk, ss, l, t, hfs, hkk, hsk, hst, hfst, hl, u, hu, ht⟩ | ⟨hfs, hnos⟩
    · simp only [hfs, Option.bind_some]
      refine ⟨_, rfl, .ok ⟨hinfo, hver, hstr, haut, hlic, hbid, hmg, kk, ss, by omega, hsk, hst⟩, nofun, ?_⟩
      intro i hi
      cases hi
      exact ⟨⟨x, strs, d.hx, d.hstrs, rfl⟩, hI.imp fun _ h => ⟨h.1, h.2.1, h.2.2.1, by
          cases Has.unique hhas h.1; rfl⟩,
        ⟨s2, magic, src, hhas2, hm, hsrc, rfl, rfl⟩, ⟨s3, hhas3, rfl⟩, ⟨s4, hhas4, rfl⟩,
        ⟨s5, namesz, descsz, ty, hhas5, hn1, hn2, hn3, rfl⟩,
        ⟨ss, u, by show 0 < kk; omega, hsk, hst, hfst, hl, hu, ht⟩⟩
    · simp only [hfs, Option.bind_some]
      refine ⟨_, rfl, .noSymtab hver hstr haut hlic hbid hmg ?_, by rintro e ⟨⟩; decide, nofun⟩
      rintro ⟨i, s, hi, his, hty⟩
      exact hnos i s (by omega) his hty
  · rw [decide_eq_false hmag]
    refine ⟨_, rfl, .noMagic hver hstr haut hlic hbid ?_, by rintro e ⟨⟩; decide, nofun⟩
    rintro ⟨t, ht, hn⟩
    cases Has.unique hhas2 ht
    exact hmag (Str.unique' hs hm hn)

theorem Describes.desc {f secs} (h : Describes f secs) : ∃ o x strs, Desc f secs o x strs := by
  obtain ⟨o, x, strs, h1, h2, h3, h4⟩ := h.table
  exact ⟨o, x, strs, h.small, h.count, h1, h2, h3, h4⟩

theorem hasInfo_of_version {f secs} (h : VersionOk f secs) : HasInfo secs :=
  h.elim fun s hs => ⟨s, hs.1⟩

/-- The verdict is a function of the file. -/
theorem Verdict.unique {f secs a b} (h : Verdict f secs a) (h' : Verdict f secs b) : a = b := by
  have hi := @hasInfo_of_version f secs
  cases h <;> cases h' <;> first | rfl | (exfalso; simp_all [Complete])

theorem Verdict.zero_iff {f secs} : Verdict f secs 0 ↔ Complete f secs := by
  refine ⟨?_, .ok⟩
  intro h
  generalize hz : (0 : Int) = z at h
  cases h <;> first | assumption | (exfalso; revert hz; decide)

end Ulp.Load
