import Verif.Infer.Sim
import Verif.Infer.Level
import Mathlib.Data.Real.Sign

/-!
# Model of `src/elisa/plot/residuals.py` and of the residuals of `MLEPlotData` in `src/elisa/plot/data.py`

Arrays are modelled entry by entry (all operations are elementwise); reals replace float64.  A random number
generator is a parameter: the list of simulated values, or the uniform draw.
-/

namespace Elisa.Plot

open Elisa Elisa.Infer Elisa.Grouping

/-- `np.where(c, 1.0, -1.0)` (plot/data.py:399-407). -/
noncomputable def signOf (c : Prop) [Decidable c] : ℝ := if c then 1 else -1

/-- `2.0 * (xlogy(k, k / lam) - (k - lam))` (residuals.py:426, 461-462, 519). -/
noncomputable def poissonDeviance (k lam : ℝ) : ℝ := 2 * (xlogy k (k / lam) - (k - lam))

/-- `deviance_residuals_poisson` (residuals.py:406-427). -/
noncomputable def devResPoisson (k lam : ℝ) : ℝ := signOf (k ≥ lam) * Real.sqrt (poissonDeviance k lam)

/-- `sign * np.abs(r)` when a sign is given (residuals.py:475-476, 534-535). -/
noncomputable def withSign (sign : Option ℝ) (r : ℝ) : ℝ :=
  match sign with
  | none => r
  | some ε => ε * |r|

/-- `deviance_residuals_poisson_poisson` (residuals.py:430-478) with `dof = 1`. -/
noncomputable def devResPoissonPoisson (k1 k2 lam1 lam2 : ℝ) (sign : Option ℝ) : ℝ :=
  withSign sign (Real.sqrt (poissonDeviance k1 lam1 + poissonDeviance k2 lam2))

/-- `deviance_residuals_poisson_normal` (residuals.py:481-537) with `dof = 1`. -/
noncomputable def devResPoissonNormal (k lam v mu sigma : ℝ) (sign : Option ℝ) : ℝ :=
  withSign sign (Real.sqrt (poissonDeviance k lam + ((v - mu) / sigma) * ((v - mu) / sigma)))

/-- `norm.ppf` of scipy: `-inf` at `0`, `inf` at `1`, the quantile function of the standard normal in between (residuals.py:99-181). -/
noncomputable def normPpf (p : ℝ) : EReal := sInf ((fun x : ℝ => (x : EReal)) '' {x | p ≤ 1 - normSf x})

/-- `deviance_residuals_poisson_poisson` (residuals.py:430-478) for any other `dof` (default `2`), channels with
`d <= dof`; `cdf` is `chi2.cdf(·, dof)`.  Without and with sign. -/
noncomputable def devResPairDof (cdf : ℝ → ℝ) (d : ℝ) (sign : Option ℝ) : EReal :=
  let r := normPpf (cdf d)
  match sign with
  | none => r
  | some ε => ε * (max r (-r))

/-- `pearson_residuals` (residuals.py:43-67); `none` is the result of a float division by zero (`nan` or an
infinity). -/
noncomputable def pearson (observed expected : ℝ) (std : Option ℝ) : Option ℝ :=
  let σ := std.getD (Real.sqrt expected)
  if σ = 0 then none else some ((observed - expected) / σ)

/-! ## Residuals of a fit -/

/-- `ce_data` of a dataset (data.py:198-199; base.py:353-369 `net_counts * unit`), channel `j`. -/
noncomputable def ceData (d : FitData) (width : List ℝ) (j : Nat) : ℝ :=
  nth d.netCounts j * (1 / (nth width j * d.exposure))

/-- `_sign_mle` (data.py:398-400) -/
noncomputable def signMle (d : FitData) (width unfold : List ℝ) (j : Nat) : ℝ :=
  signOf (ceData d width j ≥ modelSpectrum d width unfold j)

/-- `_deviance_residuals('mle')` (data.py:550-558): `sign * sqrt(deviance)` of one dataset, where the deviance is
`-2 * loglike` of the likelihood sites (helper.py:579-589). -/
noncomputable def devResiduals (stat : Stat) (d : FitData) (width unfold : List ℝ) : Except PyErr (List ℝ) := do
  let sites ← likelihood stat d unfold
  return (List.range d.size).map fun j =>
    signMle d width unfold j * Real.sqrt (-2 * nth sites.loglike j)

/-- `np.sqrt(r * r + r_b * r_b)` with a sign (data.py:606); anything undefined stays undefined. -/
noncomputable def pearsonPair (sign : ℝ) (r rb : Option ℝ) : Option ℝ :=
  r.bind fun x => rb.map fun y => sign * Real.sqrt (x * x + y * y)

/-- `_pearson_residuals('mle')` (data.py:568-608). -/
noncomputable def pearsonResiduals (stat : Stat) (d : FitData) (width unfold : List ℝ) :
    Except PyErr (List (Option ℝ)) := do
  let sites ← likelihood stat d unfold
  let onData := if stat.specNormal then d.netCounts else d.specCounts
  return (List.range d.size).map fun j =>
    let r := pearson (nth onData j) (nth sites.onModel j)
      (if stat.specNormal then some (nth d.netErrors j) else none)
    if stat.withBack then
      let rb := pearson (nth ((d.back.map (·.counts)).getD []) j)
        (nth ((sites.off.map (·.2.1)).getD []) j)
        (if stat.backNormal then some (nth ((d.back.map (·.errors)).getD []) j) else none)
      pearsonPair (signMle d width unfold j) r rb
    else r

/-! ## Probability integral transform -/

/-- `np.count_nonzero(sim <= obs) / nsim` (residuals.py:228, 343) for the simulated values of one channel. -/
noncomputable def fracBelow (sim : List ℝ) (obs : ℝ) : ℝ :=
  ((sim.filter (fun x => decide (x ≤ obs))).length : ℝ) / ((sim.length : Nat) : ℝ)

/-- `poisson.cdf(k, lam)` of scipy: the sum of the probabilities up to `floor(k)`, `0` for negative `k` (residuals.py:70-96). -/
noncomputable def poissonCdf (k lam : ℝ) : ℝ :=
  if k < 0 then 0
  else ∑ i ∈ Finset.range (⌊k⌋₊ + 1), Real.exp (-lam) * lam ^ i / (Nat.factorial i : ℝ)

/-- `pit_poisson(k, lam, minus=True)` (residuals.py:70-96): lower and upper value. -/
noncomputable def pitPoisson (k lam : ℝ) : ℝ × ℝ := (poissonCdf (k - 1) lam, poissonCdf k lam)

/-- `pit_poisson_poisson(..., minus=True)` (residuals.py:184-234) for one channel; `sim` are the simulated values
of `Poisson(lam1) - ratio * Poisson(lam2)`. -/
noncomputable def pitPoissonPoisson (sim : List ℝ) (k1 k2 ratio : ℝ) : ℝ × ℝ :=
  (fracBelow sim (max (k1 - 1 - ratio * k2) (k1 - ratio * (k2 + 1))), fracBelow sim (k1 - ratio * k2))

/-- `pit` (data.py:440-484) of one channel: lower and upper value of the probability integral transform. -/
noncomputable def pit (stat : Stat) (sim : List ℝ) (k v lam err ratio : ℝ) : ℝ × ℝ :=
  match stat with
  | .chi2 => (1 - normSf ((k - lam) / err), 1 - normSf ((k - lam) / err))
  | .cstat | .pstat => pitPoisson k lam
  | .pgstat => (fracBelow sim (k - ratio * v), fracBelow sim (k - ratio * v))
  | .wstat => pitPoissonPoisson sim k v ratio

/-- Outcome of one channel of `quantile_residuals_mle` for `pgstat`, `wstat` (data.py:613-620, 644-655): the value,
and whether it is flagged as lower or upper limit.  `p` is the (possibly randomised) PIT value. -/
noncomputable def limitedResidual (nsim : Nat) (p : ℝ) : EReal × Bool × Bool :=
  let n : ℝ := (nsim : ℝ)
  let r := normPpf p
  let r := if p = 0 then normPpf (1 / n) else r
  let r := if p = 1 then normPpf (1 - 1 / n) else r
  (r, decide (p = 1), decide (p = 0))

/-- The last lines of `quantile_residuals_poisson_poisson` (residuals.py:285-293) and
`quantile_residuals_poisson_normal` (residuals.py:395-403): value, `lower`, `upper`. -/
noncomputable def limitedResidualFn (nsim : Nat) (p : ℝ) : EReal × Bool × Bool :=
  let n : ℝ := (nsim : ℝ)
  let r := normPpf p
  let r := if p = 0 then normPpf (1 / n) else r
  let r := if p = 1 then normPpf (1 - 1 / n) else r
  (r, decide (p = 0), decide (p = 1))

end Elisa.Plot
