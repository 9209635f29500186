import Verif.Infer.SimObsProps
import Verif.Data.ObsExamples

/-!
# C86: what fails, and concrete cases
-/

namespace Elisa.Infer

open Elisa Elisa.Data Elisa.Grouping

/-- A generator whose Poisson variates are all 3 and whose normal variates are the means. -/
noncomputable def exRng : SimRng Nat where
  poisson := fun s l => (l.map fun _ => 3, s + 1)
  normal := fun s l _ => (l.map fun m => m.getD 0, s + 1)

theorem exRng_proper : exRng.Proper where
  poisson := by simp [exRng]
  normal := by simp [exRng]
  nonneg := by simp [exRng]

/-- The simulation from data of an observation with a background, merged channels and a bad channel succeeds: the hypotheses of
`C86_from_data`, `C86_from_data_total_partial`, `C86_simulate` are met. -/
theorem exSim : ∃ x r, ObsObj.new (exObs 7 none (some (exSpec 3 none))) [(1, 3)] = .ok x ∧
    x.Consistent (exObs 7 none (some (exSpec 3 none))) 3 ∧
    simulateFromData exRng 0 true [1, 1] [1, 2, 4] [1, 1, 1] (exObs 7 none (some (exSpec 3 none))) x none (some 2) true = .ok r := by
  have ho := exObs_legal 7 none (some (exSpec 3 none)) (Or.inr ⟨3, none, rfl⟩)
  have hgr : GoodRanges [((1 : ℝ), (3 : ℝ))] := ⟨by simp, by intro p hp; simp at hp; rw [hp]; norm_num, by simp⟩
  obtain ⟨x, hx⟩ := ((C15_history _ 3 ho [(1, 3)] []).1).2 hgr
  have hc : x.Consistent _ 3 := (C15_history _ 3 ho [(1, 3)] []).2 x hx
  obtain ⟨r, hr⟩ := C86_from_data_total_partial exRng exRng_proper 0 [1, 1] [1, 2, 4] [1, 1, 1] _ 3 ho x hc none (some 2) true
    ⟨rfl, by
      intro i hi
      simp only [List.length_cons, List.length_nil] at hi
      have : i = 0 ∨ i = 1 := by omega
      rcases this with rfl | rfl <;> norm_num [at0]⟩
    (by norm_num [exObs, exResp]) (by simp) (by norm_num) (by simp [exObs, exSpec]) (by simp [exObs, exSpec])
  exact ⟨x, r, hx, hc, hr⟩

/-- The hypotheses of `C86_from_data` hold in a case with a changed background exposure. -/
example : ∃ r : Obs × ObsObj, r.1.Legal 3 ∧ r.1.good = [true, true, false] ∧ r.2.erange = [(1, 3)] ∧
    ∃ b, r.1.back = some b ∧ b.exposure = 2 := by
  obtain ⟨x, r, h0, h1, h2⟩ := exSim
  have ho := exObs_legal 7 none (some (exSpec 3 none)) (Or.inr ⟨3, none, rfl⟩)
  obtain ⟨k1, _, _, _, k2, _, _, _, _, k3, k4, k5, _⟩ := C86_from_data exRng exRng_proper.toSized 0 true _ _ _ _ 3 ho x h1 _ _ _ r h2
  cases hb : r.1.back with
  | none => exact absurd (k3.1 hb) (by simp [exObs])
  | some b =>
    refine ⟨r, k1, k2, ?_, b, hb, (k4 (exSpec 3 none) b rfl hb).2.1⟩
    rw [k5]
    have hck := (checkErange_spec [((1 : ℝ), (3 : ℝ))]).2.2
    unfold ObsObj.new at h0
    obtain ⟨e, e1, e2⟩ := bind_ok.1 h0
    have hp := (hck e e1).1
    obtain ⟨st, _, e3⟩ := bind_ok.1 e2
    simp only [pure, Except.pure, Except.ok.injEq] at e3
    rw [← e3]
    exact List.perm_singleton.1 hp

set_option exponentiation.threshold 400 in
/-- `simulate` itself and the hypotheses of `C86_unbiased_partial`. -/
example : ∃ (i : SimInput) (r : Obs × ObsObj), simulate exRng 0 true [1, 1] i = .ok r ∧ (∀ row ∈ i.matrix, row.length = i.ncol) ∧
    (∀ k, k < i.matrix.length → 1e-300 ≤ nth [1, 1] k ∧ nth [1, 1] k ≤ 1e300) ∧ [1, 1, 1].length = i.emin.length := by
  obtain ⟨x, r, h0, h1, h2⟩ := exSim
  unfold simulateFromData at h2
  obtain ⟨q, q1, _⟩ := bind_ok.1 h2
  refine ⟨_, q, q1, ?_, ?_, rfl⟩
  · intro row hrow
    simp [fromDataInput, exObs, exResp] at hrow
    rcases hrow with rfl | rfl <;> rfl
  · intro k hk
    have : k < 2 := hk
    have : k = 0 ∨ k = 1 := by omega
    rcases this with rfl | rfl <;> refine ⟨?_, ?_⟩ <;> show (_ : ℝ) ≤ _ <;> simp only [nth] <;> norm_num

/-! ## Channels in descending order of energy -/

/-- Two channels in descending order of energy, as in grating spectra. -/
noncomputable def descObs : Obs where
  spec := { counts := [4, 5], errors := [2, 2], quality := [0, 0], grouping := [1, 1], poisson := true, exposure := 1, areaScale := [1, 1],
            backScale := [1, 1], netOpt := none }
  back := none
  resp := { emin := [2, 1], emax := [3, 2], matrix := [[1, 1]], fwhm := [1, 1] }
  good := [true, true]

theorem le1 {i : Nat} (h : i ≤ 1) : i = 0 ∨ i = 1 := by omega

theorem descObs_legal : descObs.Legal 2 := by
  refine ⟨?_, by simp [descObs], ?_, rfl, ?_, by simp [descObs], ⟨0, rfl⟩⟩
  · constructor <;> try (first | rfl | norm_num [descObs])
    · intro i h1 h2
      rcases le1 h2 with rfl | rfl <;> norm_num [descObs]
    · intro i h1 h2
      rcases le1 h2 with rfl | rfl <;> norm_num [descObs]
  · constructor <;> try (first | rfl | simp [descObs])
    intro i h2
    rcases le1 h2 with rfl | rfl <;> norm_num [descObs]
  · intro i h
    match i, h with
    | 0, _ => simp [descObs]
    | 1, _ => simp [descObs]
    | i + 2, h => simp [descObs] at h

/-- **C86 (descending energies, violated).**  An observation whose channels are listed in descending order of energy can be loaded, given
energy ranges and fitted, but no model can ever be simulated from its configuration: whatever the generator, the model and the exposures,
the call raises. -/
theorem C86_descending_refuted : ∃ (o : Obs) (x : ObsObj), o.Legal 2 ∧ ObsObj.new o [(1, 3)] = .ok x ∧ x.Consistent o 2 ∧
    ∀ (σ : Type) (g : SimRng σ) (_ : g.Sized) (s : σ) (isAdd : Bool) (v egrid fwhm : List ℝ) (te tb : Option ℝ) (ignoreBad : Bool),
      ∃ e, simulateFromData g s isAdd v egrid fwhm o x te tb ignoreBad = .error e := by
  have hgr : GoodRanges [((1 : ℝ), (3 : ℝ))] := ⟨by simp, by intro p hp; simp at hp; rw [hp]; norm_num, by simp⟩
  obtain ⟨x, hx⟩ := ((C15_history _ 2 descObs_legal [(1, 3)] []).1).2 hgr
  have hc : x.Consistent _ 2 := (C15_history _ 2 descObs_legal [(1, 3)] []).2 x hx
  refine ⟨descObs, x, descObs_legal, hx, hc, ?_⟩
  intro σ g hg s isAdd v egrid fwhm te tb ib
  cases h : simulateFromData g s isAdd v egrid fwhm descObs x te tb ib with
  | error e => exact ⟨e, rfl⟩
  | ok r =>
    exfalso
    unfold simulateFromData at h
    obtain ⟨q, h1, _⟩ := bind_ok.1 h
    have := C86_simulate g hg s isAdd v _ (by
      intro row hrow
      have : row = [1, 1] := by simpa [fromDataInput, descObs] using hrow
      rw [this]; rfl) q h1
    obtain ⟨_, _, l2, _, _, _, l3, _⟩ := this
    have hr := l2.ranges.2.1
    rw [l3] at hr
    have := hr _ (List.mem_singleton.2 rfl)
    norm_num [fromDataInput, descObs] at this

/-! ## Zero scales -/

/-- One channel, a model folding to one count per second, and an area scale of zero. -/
noncomputable def zeroArea : SimInput where
  egrid := [1, 2]
  emin := [1]
  emax := [2]
  matrix := [[1]]
  nchan := 1
  ncol := 1
  fwhm := [1]
  specExposure := 1
  specPoisson := true
  specErrors := none
  backCounts := none
  backErrors := none
  backExposure := none
  backPoisson := none
  specArea := .inl 0
  specBack := .inl 1
  backArea := .inl 1
  backBack := .inl 1
  quality := none
  grouping := none
  ignoreBad := true

/-- **C86 (unbiased, violated for zero scales).**  With an area scale of zero in a good channel, the counts are drawn with mean zero, but the
simulated observation records an area scale of one: a fit of the very model that was simulated expects one count. -/
theorem C86_zero_scale_refuted : (∃ r, simulate exRng 0 true [1] zeroArea = .ok r) ∧
    ∀ r, simulate exRng 0 true [1] zeroArea = .ok r →
      zeroArea.expected [1] 0 = 0 ∧
      foldAt [1] r.1.resp.matrix 0 * r.1.spec.exposure * at0 r.1.spec.areaScale 0 = 1 := by
  have hrect : ∀ row ∈ zeroArea.matrix, row.length = zeroArea.ncol := by simp [zeroArea]
  constructor
  · obtain ⟨resp, h1⟩ := ((C21_response zeroArea.egrid zeroArea.emin zeroArea.emax zeroArea.nchan zeroArea.ncol zeroArea.matrix
      zeroArea.fwhm hrect).1).2 (by
        refine ⟨rfl, rfl, rfl, rfl, ?_, ?_⟩
        · intro i hi
          have : i = 0 := by simp only [zeroArea] at hi; omega
          subst this; norm_num [zeroArea, at0]
        · intro i hi
          have : i = 0 := by simp only [zeroArea, List.length_cons, List.length_nil] at hi; omega
          subst this; norm_num [zeroArea, at0])
    obtain ⟨q1, q2, q3, q4⟩ := (C21_response zeroArea.egrid zeroArea.emin zeroArea.emax zeroArea.nchan zeroArea.ncol zeroArea.matrix
      zeroArea.fwhm hrect).2 resp h1
    obtain ⟨sp, h5⟩ := simSpectrum_total exRng_proper 0 zeroArea (n := 1) (by omega) true (zeroArea.mean none (foldAt [1] zeroArea.matrix)) []
      (exposure := 1) (by norm_num) zeroArea.specArea zeroArea.specBack
      (by
        intro _ c hc
        have : c = 0 := by omega
        subst this
        refine ⟨_, rfl, ?_⟩
        simp [zeroArea, expand, at0])
      (by simp) (by simp [zeroArea]) (by simp [zeroArea]) (by simp [zeroArea, expand]) (by simp [zeroArea, expand])
    have hspd := simSpectrum_drawn (ea := some []) (mean := zeroArea.expected [1]) (finite := fun _ => True) exRng_proper.poisson
      exRng_proper.normal (fun _ => rfl) (fun c hc => ⟨fun _ => by
        have : c = 0 := by omega
        subst this
        simp [zeroArea, SimInput.mean, SimInput.expected, SimInput.scaling, expand, at0, scalarOrAt], fun hf => absurd trivial hf⟩) h5
    obtain ⟨o, h6⟩ := ((C21_observation sp.1 none resp true 1 1 hspd.legal q1 (by simp)).1).2
      ⟨rfl, by simp, 0, by omega, by rw [hspd.quality]; simp [zeroArea], by simp⟩
    have hleg := ((C21_observation sp.1 none resp true 1 1 hspd.legal q1 (by simp)).2 o h6).1
    obtain ⟨x, h7⟩ := ((C15_history o 1 hleg [(zeroArea.emin.headD 0, zeroArea.emax.getLastD 0)] []).1).2
      ⟨by simp, by intro p hp; rw [List.mem_singleton] at hp; rw [hp]; norm_num [zeroArea], by simp⟩
    refine ⟨(o, x), ?_⟩
    unfold simulate
    simp only [Bool.not_true, Bool.false_eq_true, if_false]
    rw [h1]
    simp only [bind, Except.bind]
    have h2 : zeroArea.checkSpecErrors zeroArea.emin.length = .ok [] := by simp [SimInput.checkSpecErrors, zeroArea]
    have h3 : zeroArea.checkBack zeroArea.emin.length = .ok none := by simp [SimInput.checkBack, zeroArea]
    have h4 : zeroArea.scalesOk zeroArea.emin.length = true := rfl
    rw [h2, h3, h4]
    simp only [Bool.not_true, Bool.false_eq_true, if_false, simBack]
    have h5' : simSpectrum exRng 0 zeroArea zeroArea.specPoisson ((List.range zeroArea.emin.length).map
        (zeroArea.mean none (foldAt [1] zeroArea.matrix))) [] zeroArea.specExposure zeroArea.specArea zeroArea.specBack = .ok sp := h5
    rw [h5']
    have h6' : Obs.make sp.1 none resp zeroArea.ignoreBad = .ok o := h6
    simp only
    rw [h6']
    simp only
    rw [h7]
    rfl
  · intro r h
    obtain ⟨_, _, _, _, _, m1, _, _, s₁, s₂, _, _, d3⟩ := C86_simulate exRng exRng_proper.toSized 0 true [1] zeroArea hrect r h
    have hsc := (d3.scales 0 (by simp [zeroArea])).1
    refine ⟨by simp [SimInput.expected, zeroArea, scalarOrAt, SimInput.backMean], ?_⟩
    rw [hsc, m1, d3.exposure_eq, d3.quality]
    simp [zeroArea, foldAt, at0, givenScale, scalarOrAt]

/-- A one-channel Poisson spectrum with exposure `t` and background scale `k`. -/
noncomputable def oneSpec (t : ℝ) (q : Int) (k : ℝ) : Spectrum where
  counts := [4, 4]
  errors := [2, 2]
  quality := [0, q]
  grouping := [1, 1]
  poisson := true
  exposure := t
  areaScale := [1, 1]
  backScale := [1, k]
  netOpt := none

/-- Two channels with a background; the second is flagged bad and its background scale is zero. -/
noncomputable def zeroBack : Obs where
  spec := oneSpec 1 1 1
  back := some (oneSpec 1 1 0)
  resp := { emin := [1, 2], emax := [2, 3], matrix := [[1, 1]], fwhm := [1, 1] }
  good := [true, false]

theorem zeroBack_legal : zeroBack.Legal 2 := by
  have h : ∀ k : ℝ, 0 ≤ k → (oneSpec 1 1 k).Legal 2 := by
    intro k hk
    refine ⟨by omega, rfl, rfl, rfl, rfl, rfl, rfl, by simp [oneSpec], by simp [oneSpec], by simp [oneSpec], by norm_num [oneSpec], ?_, ?_,
      by simp [oneSpec], by simp [oneSpec, hk], ⟨1, rfl, by decide⟩⟩
    · intro i h1 h2
      rcases le1 (Nat.le_of_lt_succ h2) with rfl | rfl <;> simp [oneSpec]
    · intro i h1 h2
      rcases le1 (Nat.le_of_lt_succ h2) with rfl | rfl
      · simp [oneSpec]
      · simp [oneSpec] at h1
  refine ⟨h 1 (by norm_num), ?_, ⟨rfl, rfl, by simp [zeroBack], ?_⟩, rfl, ?_, ?_, ⟨0, rfl⟩⟩
  · intro b hb
    simp only [zeroBack, Option.some.injEq] at hb
    rw [← hb]; exact h 0 le_rfl
  · intro i h2
    rcases le1 (Nat.le_of_lt_succ h2) with rfl | rfl <;> norm_num [zeroBack]
  · intro i h
    match i, h with
    | 0, _ => simp [zeroBack, oneSpec]
    | 1, h => simp [zeroBack] at h
    | i + 2, h => simp [zeroBack] at h
  · intro b hb i h
    simp only [zeroBack, Option.some.injEq] at hb
    rw [← hb]
    match i, h with
    | 0, _ => simp [oneSpec]
    | 1, h => simp [zeroBack] at h
    | i + 2, h => simp [zeroBack] at h

/-- **C86 (zero background scale in a bad channel, violated).**  An observation with Poisson counts whose background scale is zero in a channel
flagged bad is legal, but no model can be simulated from its configuration: the mean of that channel is not finite and the call raises. -/
theorem C86_zero_background_scale_refuted : ∃ (o : Obs) (x : ObsObj), o.Legal 2 ∧ ObsObj.new o [(1, 3)] = .ok x ∧ x.Consistent o 2 ∧
    ∀ (σ : Type) (g : SimRng σ) (_ : g.Sized) (s : σ) (isAdd : Bool) (v egrid fwhm : List ℝ) (te tb : Option ℝ) (ignoreBad : Bool),
      ∃ e, simulateFromData g s isAdd v egrid fwhm o x te tb ignoreBad = .error e := by
  have hgr : GoodRanges [((1 : ℝ), (3 : ℝ))] := ⟨by simp, by intro p hp; simp at hp; rw [hp]; norm_num, by simp⟩
  obtain ⟨x, hx⟩ := ((C15_history _ 2 zeroBack_legal [(1, 3)] []).1).2 hgr
  have hc : x.Consistent _ 2 := (C15_history _ 2 zeroBack_legal [(1, 3)] []).2 x hx
  refine ⟨zeroBack, x, zeroBack_legal, hx, hc, ?_⟩
  intro σ g hg s isAdd v egrid fwhm te tb ib
  cases h : simulateFromData g s isAdd v egrid fwhm zeroBack x te tb ib with
  | error e => exact ⟨e, rfl⟩
  | ok r =>
    exfalso
    unfold simulateFromData at h
    obtain ⟨q, h1, _⟩ := bind_ok.1 h
    have := C86_simulate g hg s isAdd v _ (by
      intro row hrow
      have : row = [1, 1] := by simpa [fromDataInput, zeroBack] using hrow
      rw [this]; rfl) q h1
    obtain ⟨_, _, _, _, _, _, _, _, s₁, s₂, _, _, d3⟩ := this
    have hf := (d3.poissonCounts rfl).1 1 (by simp [fromDataInput, zeroBack])
    exact hf.1 (tb.getD 1) rfl (by simp [fromDataInput, zeroBack, oneSpec, scalarOrAt, at0])

/-- **C86 (background rate, violated).**  With another background exposure, the simulated background has the expected counts of the data,
not their rate: the expected background counts do not depend on the exposure asked for, while the exposure recorded does, so doubling it
halves the background rate of the simulation and of the source region. -/
theorem C86_background_rate_refuted : ∃ (egrid fwhm : List ℝ) (o : Obs) (x : ObsObj),
    (fromDataInput egrid fwhm o x none none true).backMean 0 / 1 = 4 ∧ (fromDataInput egrid fwhm o x none none true).backExposure = some 1 ∧
    (fromDataInput egrid fwhm o x none (some 2) true).backMean 0 / 2 = 2 ∧
    (fromDataInput egrid fwhm o x none (some 2) true).backExposure = some 2 := by
  have hgr : GoodRanges [((1 : ℝ), (3 : ℝ))] := ⟨by simp, by intro p hp; simp at hp; rw [hp]; norm_num, by simp⟩
  obtain ⟨x, hx⟩ := ((C15_history _ 2 zeroBack_legal [(1, 3)] []).1).2 hgr
  refine ⟨[], [], zeroBack, x, ?_, ?_, ?_, ?_⟩ <;>
    norm_num [fromDataInput, zeroBack, oneSpec, SimInput.backMean, at0]

end Elisa.Infer
