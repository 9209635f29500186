import Verif.Data.LoadProps
import Mathlib.Tactic.IntervalCases

/-!
# A case that meets the hypotheses of C96
-/

namespace Elisa.Data

open Elisa Elisa.Grouping

/-- A spectrum of two channels. -/
noncomputable def exLoadPha (c : List ℝ) : Pha :=
  { poisserr := some true, counts := some c, rate := none, rates := none, statErr := none, sysErr := none, quality := none, grouping := none,
    exposure := 10, areaScal := none, backScal := none, hduclas2 := "" }

/-- Its header. -/
noncomputable def exRow (c : List ℝ) (back : Option Path) : PhaRow :=
  ⟨exLoadPha c, back, some "r.rsp{2}".toList, some "NONE".toList, ⟨some "none", some "XRT", none⟩⟩

noncomputable def exRmf : Rmf :=
  { detchans := some 2, tlmin := none, rows := [⟨1, [1], [2], [1, 1]⟩], elo := [1], ehi := [2], emin := [1, 2], emax := [2, 3], fwhm := [1, 1] }

/-- A type II file with two spectra, a background named in the header of the second, and a response file with two matrices. -/
noncomputable def exFiles : Files where
  spec p := if p = "s.pha2".toList then some ⟨none, true, .inr [exRow [1, 1] none, exRow [3, 4] (some "b.pha".toList)]⟩
    else if p = "b.pha".toList then some ⟨some 2, false, .inl (exRow [1, 0] none)⟩ else none
  resp p := if p = "r.rsp".toList then some fun n => if n = 2 then some exRmf else none else none
  arf _ := none

noncomputable def exArgs : LoadArgs :=
  { erange := [(1, 3)], spec := "s.pha2{2}".toList, back := none, resp := none, ancr := none, name := none, specPoisson := none, backPoisson := none,
    ignoreBad := true, group := none }

theorem exLoadPha_read (a b : ℝ) (ha : 0 ≤ a) (hb : 0 ≤ b) :
    ∃ s, (exLoadPha [a, b]).read none = .ok s ∧ s.counts = [a, b] ∧ s.quality = [0, 0] := by
  have hacc : ((exLoadPha [a, b]).input true).Acceptable := by
    constructor <;> simp [exLoadPha, Pha.input, Pha.countsArr, Pha.errArr, Pha.statArr, Pha.sysArr, columnOr, ha, hb, Real.sqrt_nonneg]
  obtain ⟨s, hs⟩ := (C21_spectrum _).1.2 hacc
  have hc := ((C21_spectrum _).2 s hs).2.1
  have hr : (exLoadPha [a, b]).read none = .ok s := read_ok.2 ⟨.inl (by simp [exLoadPha]), true, .inl rfl, by simp [Pha.refused], hs⟩
  refine ⟨s, hr, by rw [hc]; rfl, ?_⟩
  have := ((C58_spectrum (exLoadPha [a, b]) none).2.2.2 s hr).2.2.2.2.1 rfl
  rw [this, hc]; rfl

theorem exRmf_build : ∃ r, exRmf.build none = .ok r ∧ r.emin = [1, 2] := by
  have hg : photonGrid exRmf.elo exRmf.ehi = .ok [1, 2] := by
    simp only [photonGrid, exRmf, List.getLast?_singleton, List.cons_append, List.nil_append]
    rw [if_neg (by norm_num)]
  obtain ⟨mat, hm, hl, hc⟩ : ∃ mat, readMatrix exRmf.detchans exRmf.tlmin exRmf.rows = .ok mat ∧ mat.length = 1 ∧ ∀ row ∈ mat, row.length = 2 := by
    refine ⟨_, rfl, rfl, ?_⟩
    intro row hrow
    obtain ⟨i, -, rfl⟩ := List.mem_map.1 hrow
    simp
  obtain ⟨r, hr⟩ := (C21_response [1, 2] [1, 2] [2, 3] 2 2 mat [1, 1] hc).1.2 (by
    refine ⟨rfl, rfl, rfl, by simp [hl], ?_, ?_⟩
    · intro i hi
      interval_cases i <;> norm_num [at0]
    · intro i hi
      have : i = 0 := by simp at hi; omega
      subst this; norm_num [at0])
  refine ⟨r, ?_, ((C21_response _ _ _ _ _ _ _ hc).2 r hr).2.1⟩
  simp only [Rmf.build, hg, hm, bind, Except.bind, applyArf]
  exact hr

/-- The second spectrum of the file is loaded, with the background of its header and the second matrix of the response file. -/
theorem exLoad : ∃ d row, loadData exInt exFiles exArgs = .ok d ∧ Read exInt exFiles exArgs row d ∧ d.obs.spec.counts = [3, 4] ∧ d.obs.back ≠ none ∧ d.name = "XRT" := by
  obtain ⟨s, hs, hsc, hsq⟩ := exLoadPha_read 3 4 (by norm_num) (by norm_num)
  obtain ⟨b, hb, hbc, hbq⟩ := exLoadPha_read 1 0 (by norm_num) (by norm_num)
  obtain ⟨r, hr, hre⟩ := exRmf_build
  have hp : Points exInt exArgs.spec "s.pha2".toList (some 2) := Points.numbered "s.pha2".toList ['2'] 2 (by decide) (by decide) (by decide) (by decide)
  have hpb : Points exInt "b.pha".toList "b.pha".toList none := .plain _ (by decide)
  have hpr : Points exInt "r.rsp{2}".toList "r.rsp".toList (some 2) :=
    Points.numbered "r.rsp".toList ['2'] 2 (by decide) (by decide) (by decide) (by decide)
  have hns : exFiles.spec "s.pha2".toList = some ⟨none, true, .inr [exRow [1, 1] none, exRow [3, 4] (some "b.pha".toList)]⟩ := by
    simp only [exFiles, if_true]
  have hnb : exFiles.spec "b.pha".toList = some ⟨some 2, false, .inl (exRow [1, 0] none)⟩ := by
    have hne : "b.pha".toList ≠ "s.pha2".toList := by decide
    simp only [exFiles, if_neg hne, if_true]
  have hl1 : loadSpectrum exInt exFiles exArgs.spec exArgs.specPoisson = .ok (s, exRow [3, 4] (some "b.pha".toList)) :=
    loadSpectrum_ok.2 ⟨_, _, _, C96_path _ _ _ _ hp, hns, ((C96_row _).1 _ rfl 1).1 _ rfl, hs⟩
  have hl2 : loadSpectrum exInt exFiles "b.pha".toList exArgs.backPoisson = .ok (b, exRow [1, 0] none) :=
    loadSpectrum_ok.2 ⟨_, _, _, C96_path _ _ _ _ hpb, hnb, ((C96_row _).2.2.1 _ rfl _).2 ⟨rfl, rfl, by simp [exRow, exLoadPha, Pha.countsArr]⟩, hb⟩
  have hn : dataName exArgs.name (exRow [3, 4] (some "b.pha".toList)).names = .ok "XRT" := by
    show dataName none ⟨some "none", some "XRT", none⟩ = .ok "XRT"
    decide +kernel
  have hresp : loadResp exInt exFiles exArgs (exRow [3, 4] (some "b.pha".toList)) = .ok r := by
    have e1 : fileOr exArgs.resp (fileField (exRow [3, 4] (some "b.pha".toList)).resp) = "r.rsp{2}".toList := by
      show fileOr none (fileField (some "r.rsp{2}".toList)) = _
      decide +kernel
    have e2 : fileOr exArgs.ancr (fileField (exRow [3, 4] (some "b.pha".toList)).ancr) = [] := by
      show fileOr none (fileField (some "NONE".toList)) = _
      decide +kernel
    have e3 : exFiles.resp "r.rsp".toList = some fun n => if n = 2 then some exRmf else none := by
      simp only [exFiles, if_true]
    have e4 : loadArf exFiles [] = .ok none := rfl
    rw [loadResp, e1, e2, if_neg (by decide), loadResponse, C96_path _ _ _ _ hpr]
    simp only [e3, Option.getD_some, if_true, e4, hr]
  have hback : loadBack exInt exFiles exArgs (exRow [3, 4] (some "b.pha".toList)) = .ok (some b) := by
    have e1 : fileOr exArgs.back (fileField (exRow [3, 4] (some "b.pha".toList)).back) = "b.pha".toList := by
      show fileOr none (fileField (some "b.pha".toList)) = _
      decide +kernel
    rw [loadBack, e1, if_neg (by decide)]
    simp only [hl2]
  have hlen : r.channelNumber = 2 := by rw [Response.channelNumber, hre]; rfl
  obtain ⟨d, hd⟩ := C96_accepted exInt exFiles exArgs s _ "XRT" r (some b) hl1 hn hresp hback (by rw [hsc, hlen]; rfl)
    (by rintro b' hb'; cases hb'; rw [hbc, hlen]; rfl)
    ⟨0, by rw [hsc]; simp, by rw [hsq]; simp [Excluded], by rintro b' hb'; cases hb'; rw [hbq]; simp [Excluded]⟩
    ⟨by simp [exArgs], by simp [exArgs], by simp [exArgs]⟩ rfl
  obtain ⟨t, row, ht, hsel, hread⟩ := C96_files exInt exFiles exArgs d _ _ hp (by rintro n hn; cases hn; norm_num) hd
  have hrow : row = exRow [3, 4] (some "b.pha".toList) := by
    rw [hns] at ht
    cases ht
    rcases hsel with ⟨h, -⟩ | ⟨k, rows, h1, h2, h3⟩
    · cases h
    · have hk : k = 1 := by have := Option.some.inj h1; omega
      subst hk
      cases h2
      exact (Option.some.inj h3).symm
  subst hrow
  refine ⟨d, _, hd, hread, ?_, ?_, ?_⟩
  · have h := hread.spec
    have h' : (exRow [3, 4] (some "b.pha".toList)).pha.read exArgs.specPoisson = .ok s := hs
    rw [h'] at h
    rw [← Except.ok.inj h, hsc]
  · exact C96_background_kept exInt exFiles exArgs d s _ hl1 (by simp [NoFile, exRow]) hd
  · have h := hread.name
    rw [hn] at h
    exact (Except.ok.inj h).symm

end Elisa.Data
