import Verif.Infer.Sim
import Verif.Infer.FitProps

/-!
# C52 (simulation uses the distribution of the likelihood) and C56 (net spectrum of simulated data)
-/

namespace Elisa.Infer

open Elisa

/-- Density of the sampling distribution in channel `j` at the value `x` for mean `μ`, up to a factor that
does not depend on `μ`. -/
noncomputable def SimDist.density (D : SimDist) (j : Nat) (x μ : ℝ) : ℝ :=
  match D with
  | .norm sd => gaussLik x μ (nth sd j)
  | .poisson => poisLik x μ

theorem gaussLik_self (x σ : ℝ) : gaussLik x x σ = 1 := by
  unfold gaussLik; simp

/-- **C52** (partial).  For data a statistic can be used on — and, for `chi2`, when the error of the net counts is
the error of the spectrum, i.e. without background — the sampling distribution of every channel is the one in
the likelihood: the recorded log-likelihood of the data equals the logarithm of the density of the
sampling distribution at the data with mean the model value, normalised to a perfect model.  This holds
for the "on" data and for the "off" data, which are simulated exactly when the statistic models them.
Missing: `chi2` with background, see `C52_chi2_refuted`. -/
theorem C52_sampling_partial (stat : Stat) (d : FitData) (unfold : List ℝ) (hu : Usable stat d)
    (hchi : stat = .chi2 → ∀ j < d.size, nth d.netErrors j = nth d.specErrors j) :
    ∃ sites, likelihood stat d unfold = .ok sites ∧
      (∀ j < d.size, Real.exp (nth sites.onLoglike j) =
        (samplingDist stat d).1.density j (nth sites.onData j) (nth sites.onModel j) /
          (samplingDist stat d).1.density j (nth sites.onData j) (nth sites.onData j)) ∧
      (sites.onData = (obsCounts stat d).1) ∧
      (sites.off.map (·.1) = (obsCounts stat d).2) ∧
      (sites.off.isSome ↔ (samplingDist stat d).2.isSome) ∧
      (∀ D data model ll, (samplingDist stat d).2 = some D → sites.off = some (data, model, ll) → ∀ j < d.size,
        Real.exp (nth ll j) = D.density j (nth data j) (nth model j) / D.density j (nth data j) (nth data j)) := by
  have hp : ∀ j, 0 < d.sourceCounts unfold j := fun j => clip_pos _
  unfold Usable at hu
  cases stat with
  | chi2 =>
    refine ⟨_, rfl, fun j hj => ?_, rfl, rfl, by simp [samplingDist, Stat.withBack], ?_⟩
    · simp only [nth_map hj, normal_exp, samplingDist, Stat.specNormal]
      change _ = gaussLik _ _ _ / gaussLik _ _ _
      rw [gaussLik_self, div_one, hchi rfl j hj]
    · intro D data model ll h; simp [samplingDist, Stat.withBack] at h
  | cstat =>
    refine ⟨_, rfl, fun j hj => ?_, rfl, rfl, by simp [samplingDist, Stat.withBack], ?_⟩
    · simp only [nth_map hj, samplingDist, Stat.specNormal]
      exact (C24_poisson _ _ (hu j hj) (hp j).le (.inl (hp j))).1
    · intro D data model ll h; simp [samplingDist, Stat.withBack] at h
  | pstat =>
    cases hb : d.back with
    | none => rw [hb] at hu; exact hu.elim
    | some b =>
      rw [hb] at hu
      unfold likelihood
      rw [hb]
      refine ⟨_, rfl, fun j hj => ?_, rfl, rfl, by simp [samplingDist, Stat.withBack], ?_⟩
      · simp only [nth_map hj, samplingDist, Stat.specNormal]
        have hq := clip_pos (d.sourceRate unfold j * d.exposure + nth b.ratio j * nth b.counts j)
        exact (C24_poisson _ _ (hu j hj) hq.le (.inl hq)).1
      · intro D data model ll h; simp [samplingDist, Stat.withBack] at h
  | pgstat =>
    cases hb : d.back with
    | none => rw [hb] at hu; exact hu.elim
    | some b =>
      rw [hb] at hu
      unfold likelihood
      rw [hb]
      refine ⟨_, rfl, fun j hj => ?_, rfl, ?_, by simp [samplingDist, Stat.withBack], ?_⟩
      · obtain ⟨u1, u2, u3⟩ := hu j hj
        obtain ⟨g0, _⟩ := C23_pgstat_background (d.sourceCounts unfold j) _ (nth b.counts j) _ _ (hp j) u1 u2 u3
        simp only [nth_map hj, samplingDist, Stat.specNormal]
        have hq : 0 < d.sourceCounts unfold j + nth b.ratio j * pgstatBackground (d.sourceCounts unfold j)
            (nth d.specCounts j) (nth b.counts j) (nth b.errors j) (nth b.ratio j) := by
          have := mul_nonneg u3.le g0
          linarith [hp j]
        exact (C24_poisson _ _ u1 hq.le (.inl hq)).1
      · simp [obsCounts, Stat.withBack, hb]
      · intro D data model ll h h' j hj
        simp only [Option.some.injEq, Prod.mk.injEq] at h'
        obtain ⟨rfl, rfl, rfl⟩ := h'
        simp only [samplingDist, Stat.withBack, Stat.backNormal, hb] at h
        simp at h
        subst h
        simp only [nth_map hj, normal_exp, SimDist.density, gaussLik_self, div_one]
  | wstat =>
    cases hb : d.back with
    | none => rw [hb] at hu; exact hu.elim
    | some b =>
      rw [hb] at hu
      unfold likelihood
      rw [hb]
      refine ⟨_, rfl, fun j hj => ?_, rfl, ?_, by simp [samplingDist, Stat.withBack], ?_⟩
      · obtain ⟨u1, u2, u3⟩ := hu j hj
        obtain ⟨g2, _⟩ := C22_wstat_domain (d.sourceCounts unfold j) _ _ _ (hp j) u1 u2 u3
        simp only [nth_map hj, samplingDist, Stat.specNormal]
        exact (C24_poisson _ _ u1 g2.le (.inl g2)).1
      · simp [obsCounts, Stat.withBack, hb]
      · intro D data model ll h h' j hj
        simp only [Option.some.injEq, Prod.mk.injEq] at h'
        obtain ⟨rfl, rfl, rfl⟩ := h'
        simp only [samplingDist, Stat.withBack, Stat.backNormal] at h
        simp at h
        subst h
        obtain ⟨u1, u2, u3⟩ := hu j hj
        obtain ⟨g0, _⟩ := C22_wstat_background (d.sourceCounts unfold j) _ _ _ (hp j).le u1 u2 u3
        obtain ⟨_, g3⟩ := C22_wstat_domain (d.sourceCounts unfold j) _ _ _ (hp j) u1 u2 u3
        simp only [nth_map hj, SimDist.density]
        exact (C24_poisson _ _ u2 g0 (u2.eq_or_lt.elim (fun h => .inr h.symm) fun h => .inl (g3 h))).1

/-- The hypotheses hold for a dataset with background and each statistic but `chi2`. -/
example (stat : Stat) (h : stat ≠ .chi2) : Usable stat exFit ∧
    (stat = .chi2 → ∀ j < exFit.size, nth exFit.netErrors j = nth exFit.specErrors j) :=
  ⟨exFit_usable stat, fun h' => absurd h' h⟩

/-- Without background the condition of `C52_sampling_partial` for `chi2` holds for every observation, every energy
selection and every grouping: the net errors are the errors of the spectrum. -/
theorem C52_chi2_no_background (o : Data.Obs) (n : Nat) (ho : o.Legal n) (hb : o.back = none)
    (erange : List (ℝ × ℝ)) (flags : List Int) (hf : flags.length = n) :
    ∃ st, o.setGrouping erange (some flags) = .ok st ∧
      (FitData.ofObs o st).netErrors = (FitData.ofObs o st).specErrors := by
  obtain ⟨st, L, h1, _, h3⟩ := Data.C16_net_spectrum o n ho erange flags hf
  exact ⟨st, h1, (h3.noBack hb).2.2⟩

/-- **C52** is violated by `chi2` with background: whenever the net error of a channel exceeds the error of the
spectrum (any background with a positive error and ratio), the data are simulated from a narrower
distribution than the one in the likelihood; the two densities differ for every data value other than
the model value. -/
theorem C52_chi2_refuted (d : FitData) (unfold : List ℝ) (j : Nat) (hj : j < d.size)
    (h0 : 0 < nth d.specErrors j) (h1 : nth d.specErrors j < nth d.netErrors j)
    (hne : nth d.netCounts j ≠ d.sourceCounts unfold j) :
    ∃ sites, likelihood .chi2 d unfold = .ok sites ∧
      (samplingDist .chi2 d).1.density j (nth sites.onData j) (nth sites.onModel j) /
          (samplingDist .chi2 d).1.density j (nth sites.onData j) (nth sites.onData j) <
        Real.exp (nth sites.onLoglike j) := by
  refine ⟨_, rfl, ?_⟩
  simp only [nth_map hj, normal_exp, samplingDist, Stat.specNormal]
  change gaussLik _ _ _ / gaussLik _ _ _ < _
  rw [gaussLik_self, div_one]
  unfold gaussLik
  apply Real.exp_lt_exp.2
  apply neg_lt_neg
  have hd : 0 < (nth d.netCounts j - d.sourceCounts unfold j) ^ 2 := by
    have : nth d.netCounts j - d.sourceCounts unfold j ≠ 0 := sub_ne_zero.2 hne
    positivity
  apply div_lt_div_of_pos_left hd (by positivity)
  nlinarith

/-- one channel with 5 ± 2 on counts, 3 ± 2 off counts, ratio 1/2: the net error is larger. -/
example : (0 : Nat) < exFit.size ∧ 0 < nth exFit.specErrors 0 ∧ nth exFit.specErrors 0 < nth exFit.netErrors 0 ∧
    nth exFit.netCounts 0 ≠ exFit.sourceCounts [2] 0 := by
  have : exFit.sourceCounts [2] 0 = 2 := by
    unfold FitData.sourceCounts; rw [((exFit_inRange .cstat).rate 0 (by simp [exFit, FitData.size])).1]; exact clip_id (by norm_num) (by norm_num)
  rw [this]
  norm_num [exFit, FitData.size, nth]

/-! ## C56: net spectrum of observed and simulated data -/

/-- **C56** (partial: all statistics but `pstat`).  For every dataset, model and statistic, the net spectrum
computed from the expected counts of the "on" and "off" data is the folded model spectrum: simulated
net spectra are centred on the model. -/
theorem C56_net_centred_partial (stat : Stat) (hstat : stat ≠ .pstat) (d : FitData) (width unfold : List ℝ)
    (s : Nat → ℝ) (hu : Usable stat d) (hr : InRange stat d unfold s) (hexp : 0 < d.exposure)
    (hw : ∀ j < d.size, 0 < nth width j) :
    ∃ sites, likelihood stat d unfold = .ok sites ∧ ∀ j < d.size,
      netSpectrum stat d width sites.onModel (sites.off.map (·.2.1)) j = modelSpectrum d width unfold j ∧
      modelSpectrum d width unfold j = s j / (d.exposure * nth width j) := by
  suffices hmain : ∃ sites, likelihood stat d unfold = .ok sites ∧ ∀ j < d.size,
      netSpectrum stat d width sites.onModel (sites.off.map (·.2.1)) j = modelSpectrum d width unfold j by
    obtain ⟨sites, h1, h2⟩ := hmain
    refine ⟨sites, h1, fun j hj => ⟨h2 j hj, ?_⟩⟩
    have := (hw j hj).ne'
    rw [← (hr.rate j hj).1]
    unfold modelSpectrum
    field_simp
  have hsc : ∀ j < d.size, d.sourceCounts unfold j = d.sourceRate unfold j * d.exposure := by
    intro j hj
    obtain ⟨h1, h2, h3⟩ := hr.rate j hj
    have he : expected stat d j (s j) = s j := by
      cases stat <;> first | rfl | exact absurd rfl hstat
    rw [he] at h2 h3
    unfold FitData.sourceCounts
    rw [h1, clip_id h2 h3]
  have hfin : ∀ j < d.size, d.sourceRate unfold j * d.exposure * (1 / (d.exposure * nth width j)) =
      modelSpectrum d width unfold j := by
    intro j hj
    have := (hw j hj).ne'
    unfold modelSpectrum
    field_simp
  unfold Usable at hu
  cases stat with
  | pstat => exact absurd rfl hstat
  | chi2 =>
    refine ⟨_, rfl, fun j hj => ?_⟩
    simp only [netSpectrum, Stat.withBack, nth_map hj, hsc j hj, ← hfin j hj]
    simp
  | cstat =>
    refine ⟨_, rfl, fun j hj => ?_⟩
    simp only [netSpectrum, Stat.withBack, nth_map hj, hsc j hj, ← hfin j hj]
    simp
  | pgstat =>
    cases hb : d.back with
    | none => rw [hb] at hu; exact hu.elim
    | some b =>
      unfold likelihood
      rw [hb]
      refine ⟨_, rfl, fun j hj => ?_⟩
      simp only [netSpectrum, Stat.withBack, nth_map hj, hsc j hj, ← hfin j hj, hb, Option.map_some,
        Option.getD_some]
      simp
  | wstat =>
    cases hb : d.back with
    | none => rw [hb] at hu; exact hu.elim
    | some b =>
      unfold likelihood
      rw [hb]
      refine ⟨_, rfl, fun j hj => ?_⟩
      simp only [netSpectrum, Stat.withBack, nth_map hj, hsc j hj, ← hfin j hj, hb, Option.map_some,
        Option.getD_some]
      simp

/-- **C56** is violated by `pstat`: its known background is never subtracted, so the "net" spectrum exceeds the
model by the background rate. -/
theorem C56_pstat_refuted (d : FitData) (b : FitBack) (hb : d.back = some b) (width unfold : List ℝ)
    (s : Nat → ℝ) (hr : InRange .pstat d unfold s) (hexp : 0 < d.exposure) (hw : ∀ j < d.size, 0 < nth width j) :
    ∃ sites, likelihood .pstat d unfold = .ok sites ∧ ∀ j < d.size,
      netSpectrum .pstat d width sites.onModel (sites.off.map (·.2.1)) j =
        modelSpectrum d width unfold j + nth b.ratio j * nth b.counts j / (d.exposure * nth width j) := by
  unfold likelihood
  rw [hb]
  refine ⟨_, rfl, fun j hj => ?_⟩
  obtain ⟨h1, h2, h3⟩ := hr.rate j hj
  have he : expected .pstat d j (s j) = s j + nth b.ratio j * nth b.counts j := by
    unfold expected; rw [hb]
  rw [he, ← h1] at h2 h3
  have := (hw j hj).ne'
  simp only [netSpectrum, Stat.withBack, nth_map hj, clip_id h2 h3, modelSpectrum]
  simp
  field_simp

/-- The hypotheses of both theorems hold for the example channel, and the surplus is not zero. -/
example (stat : Stat) : Usable stat exFit ∧ InRange stat exFit [2] (fun _ => 2) ∧ 0 < exFit.exposure ∧
    (∀ j < exFit.size, 0 < nth [(1 : ℝ)] j) ∧ exFit.back = some ⟨[3], [2], [1 / 2]⟩ ∧
    (0 : ℝ) < nth [(1 / 2 : ℝ)] 0 * nth [(3 : ℝ)] 0 := by
  refine ⟨exFit_usable stat, exFit_inRange stat, by simp [exFit], ?_, rfl, by norm_num [nth]⟩
  intro j hj
  have hj0 : j = 0 := by simp [exFit, FitData.size] at hj; exact hj
  subst hj0; simp [nth]

end Elisa.Infer
