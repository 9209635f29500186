import Verif.Plot.Residual

/-!
# Model of `quantile_residuals_poisson` (`src/elisa/plot/residuals.py`) and of the quantile residuals of Poisson data (`src/elisa/plot/data.py`)

Entry by entry; reals replace float64, except that the distribution functions may be replaced by any computed values (`QuantTail`).  A uniform variate
`u` in `[0, 1]` stands for the random number generator: `rng.uniform(a, b)` is `a + (b - a) * u`.
-/

namespace Elisa.Plot

open Elisa Elisa.Infer

/-- `poisson.sf(k, lam)` of scipy (residuals.py:99-181). -/
noncomputable def poissonSf (k lam : ℝ) : ℝ := 1 - poissonCdf k lam

/-- `norm.isf(q)` of scipy, which is computed as `-ndtri(q)` (residuals.py:99-181). -/
noncomputable def normIsf (q : ℝ) : EReal := -normPpf q

/-- `rng.uniform(low, high)` (residuals.py:99-181). -/
noncomputable def uniform (low high u : ℝ) : ℝ := low + (high - low) * u

/-- The value before `keep_sign` (residuals.py:165-175): `cdf`, `sf` are the numbers computed for `k < lam` and `k >= lam`. -/
noncomputable def quantTail (k lam cdf sf : ℝ) : EReal :=
  if k < lam then (if cdf ≠ 0 then normPpf cdf else ((k - lam) / Real.sqrt lam : ℝ))
  else (if sf ≠ 0 then normIsf sf else ((k - lam) / Real.sqrt lam : ℝ))

/-- `np.where(k >= lam, 1.0, -1.0) * np.abs(r)` (residuals.py:177-178). -/
noncomputable def keepSign (k lam : ℝ) (r : EReal) : EReal := if k ≥ lam then max r (-r) else -(max r (-r))

/-- `quantile_residuals_poisson` (residuals.py:99-181); `u` is the uniform variate. -/
noncomputable def quantPoisson (k lam : ℝ) (sign random : Bool) (u : ℝ) : EReal :=
  let cdf := if random then uniform (poissonCdf (k - 1) lam) (poissonCdf k lam) u else poissonCdf k lam
  let sf := if random then uniform (poissonSf k lam) (poissonSf (k - 1) lam) u else poissonSf k lam
  let r := quantTail k lam cdf sf
  if sign then keepSign k lam r else r

/-- `quantile_residuals_mle` (data.py:610-656), one channel, from the computed probability `p` on: a `p` of 0 or 1, which rounding can give, leads to
`quantile_residuals_poisson`. -/
noncomputable def quantFrom (p k lam : ℝ) (random : Bool) (u' : ℝ) : EReal :=
  if p = 0 ∨ p = 1 then quantPoisson k lam (!random) random u' else normPpf p

/-- `quantile_residuals_mle` for `cstat` and `pstat` (data.py:610-656), one channel: `u` is the variate of this function's generator, `u'` the one of
the generator of `quantile_residuals_poisson`. -/
noncomputable def quantMle (k lam : ℝ) (random : Bool) (u u' : ℝ) : EReal :=
  let p := if random then uniform (pitPoisson k lam).1 (pitPoisson k lam).2 u else (pitPoisson k lam).2
  quantFrom p k lam random u'

end Elisa.Plot
