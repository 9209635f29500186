import Verif.Infer.Likelihood

/-!
# What the fit statistics are supposed to be

Likelihoods as ordinary functions: a Poisson count `n` (allowed to be a non-negative real) with mean
`μ` has likelihood proportional to `μ^n e^{-μ}`; a Gaussian datum has `e^{-(x-μ)²/2σ²}`.
-/

namespace Elisa.Infer

/-- Poisson likelihood up to the factor `1/n!`. -/
noncomputable def poisLik (n μ : ℝ) : ℝ := μ ^ n * Real.exp (-μ)

/-- Gaussian likelihood up to the factor `1/(σ √(2π))`. -/
noncomputable def gaussLik (x μ σ : ℝ) : ℝ := Real.exp (-((x - μ) ^ 2 / (2 * σ ^ 2)))

/-- Joint likelihood of `n` on-source and `m` off-source counts for source `s`, background `b`. -/
noncomputable def onOffLik (n m s a b : ℝ) : ℝ := poisLik n (s + a * b) * poisLik m b

/-- Joint likelihood of `n` on-source counts and a Gaussian background estimate `B ± σ`. -/
noncomputable def onGaussLik (n B σ s a b : ℝ) : ℝ := poisLik n (s + a * b) * gaussLik B b σ

/-- `D` is the deviance of one channel of dataset `d` for the expected source counts `s`: `e^{-D/2}` is
the likelihood divided by that of a perfect model, maximised over the background where the
background is profiled. -/
def IsDeviance (stat : Stat) (d : FitData) (j : Nat) (s D : ℝ) : Prop :=
  match stat, d.back with
  | .chi2, _ => Real.exp (-D / 2) = gaussLik (nth d.netCounts j) s (nth d.netErrors j)
  | .cstat, _ =>
    Real.exp (-D / 2) = poisLik (nth d.specCounts j) s / poisLik (nth d.specCounts j) (nth d.specCounts j)
  | .pstat, some b =>
    Real.exp (-D / 2) = poisLik (nth d.specCounts j) (s + nth b.ratio j * nth b.counts j) /
      poisLik (nth d.specCounts j) (nth d.specCounts j)
  | .pgstat, some b =>
    IsGreatest {l | ∃ x, 0 ≤ x ∧ l = onGaussLik (nth d.specCounts j) (nth b.counts j) (nth b.errors j) s
      (nth b.ratio j) x / poisLik (nth d.specCounts j) (nth d.specCounts j)} (Real.exp (-D / 2))
  | .wstat, some b =>
    IsGreatest {l | ∃ x, 0 ≤ x ∧ l = onOffLik (nth d.specCounts j) (nth b.counts j) s (nth b.ratio j) x /
      (poisLik (nth d.specCounts j) (nth d.specCounts j) * poisLik (nth b.counts j) (nth b.counts j))}
      (Real.exp (-D / 2))
  | _, none => False

/-- Data a statistic can be used on: counts are non-negative where a Poisson likelihood is used, errors
and ratios are positive where they are used (the conditions the package checks or constructs). -/
def Usable (stat : Stat) (d : FitData) : Prop :=
  match stat, d.back with
  | .chi2, _ => ∀ j < d.size, 0 < nth d.netErrors j
  | .cstat, _ => ∀ j < d.size, 0 ≤ nth d.specCounts j
  | .pstat, some _ => ∀ j < d.size, 0 ≤ nth d.specCounts j
  | .pgstat, some b => ∀ j < d.size, 0 ≤ nth d.specCounts j ∧ 0 < nth b.errors j ∧ 0 < nth b.ratio j
  | .wstat, some b => ∀ j < d.size, 0 ≤ nth d.specCounts j ∧ 0 ≤ nth b.counts j ∧ 0 < nth b.ratio j
  | _, none => False

/-- Expected counts: the source, plus the known background for `pstat`. -/
def expected (stat : Stat) (d : FitData) (j : Nat) (s : ℝ) : ℝ :=
  match stat, d.back with
  | .pstat, some b => s + nth b.ratio j * nth b.counts j
  | _, _ => s

/-- Expected source counts of channel `j` for the incident fluxes `u` of the energy bins: exposure times effective area
scale times the flux folded with the response. -/
noncomputable def FitData.folded (d : FitData) (u : List ℝ) (j : Nat) : ℝ :=
  d.exposure * nth d.areaScale j * ∑ r ∈ Finset.range d.matrix.length, nth (d.matrix.getD r []) j * nth u r

/-- `s` are the source counts of the model and no clipping happened: the fluxes lie in the numerical range
`[1e-300, 1e300]` and the expected counts in `[1e-30, 1e15]`. -/
def InRange (stat : Stat) (d : FitData) (unfold : List ℝ) (s : Nat → ℝ) : Prop :=
  (∀ r < d.matrix.length, 1e-300 ≤ nth unfold r ∧ nth unfold r ≤ 1e300) ∧
  ∀ j < d.size, d.folded unfold j = s j ∧
    1e-30 ≤ expected stat d j (s j) ∧ expected stat d j (s j) ≤ 1e15

/-- the model computes the folded counts -/
theorem InRange.rate {stat : Stat} {d : FitData} {unfold : List ℝ} {s : Nat → ℝ} (h : InRange stat d unfold s) :
    ∀ j < d.size, d.sourceRate unfold j * d.exposure = s j ∧
      1e-30 ≤ expected stat d j (s j) ∧ expected stat d j (s j) ≤ 1e15 := by
  intro j hj
  obtain ⟨h1, h2⟩ := h.2 j hj
  refine ⟨?_, h2⟩
  rw [← h1]
  unfold FitData.sourceRate FitData.folded
  have : ((List.range d.matrix.length).map fun r =>
      nth (d.matrix.getD r []) j * clip (1e-300) (1e300) (nth unfold r)).sum =
      ∑ r ∈ Finset.range d.matrix.length, nth (d.matrix.getD r []) j * nth unfold r := by
    rw [← List.sum_toFinset _ (List.nodup_range), List.toFinset_range]
    apply Finset.sum_congr rfl
    intro r hr
    obtain ⟨a, b⟩ := h.1 r (Finset.mem_range.1 hr)
    unfold clip
    rw [max_eq_left a, min_eq_left b]
  rw [this]; ring

end Elisa.Infer
