import Verif.Np
import Mathlib.Probability.Distributions.Gaussian.Real
import Mathlib.Data.List.Sort

/-!
# Model of confidence levels and equal-tailed intervals (src/elisa/infer/results.py)
-/

namespace Elisa.Infer

open Elisa MeasureTheory ProbabilityTheory

/-- `scipy.stats.norm.sf(c)`: probability that a standard normal variable exceeds `c` (results.py:229-236). -/
noncomputable def normSf (c : ℝ) : ℝ := (gaussianReal 0 1).real (Set.Ioi c)

/-- `_to_unit_cl` (results.py:229-236).  `rnd` is the rounding of the floating-point result: the identity for
exact arithmetic. -/
noncomputable def toUnitCl (rnd : ℝ → ℝ) (cl : ℝ) : Except PyErr ℝ :=
  if cl ≤ 0 then .error .valueError
  else if cl < 1 then .ok cl
  else .ok (rnd (1 - 2 * normSf cl))

/-- `np.quantile(xs, q)` with the default linear interpolation between the sorted values; raises for an empty
array (IndexError) and for `q` outside `[0, 1]` (results.py:839-908). -/
noncomputable def quantile (xs : List ℝ) (q : ℝ) : Except PyErr ℝ :=
  if q < 0 ∨ 1 < q then .error .valueError
  else if xs.length = 0 then .error .indexError
  else
    let sorted := xs.insertionSort (· ≤ ·)
    let n := xs.length
    let h := q * ((n : ℝ) - 1)
    let i := ⌊h⌋₊
    let lo := sorted.getD i 0
    let hi := sorted.getD (min (i + 1) (n - 1)) 0
    .ok (lo + (hi - lo) * (h - i))

/-- The interval of `_ci_boot` (results.py:858-866), which receives a level already converted by `ci`
(results.py:636) and converts it again. -/
noncomputable def bootInterval (rnd : ℝ → ℝ) (cl : ℝ) (samples : List ℝ) : Except PyErr (ℝ × ℝ) := do
  let cl ← toUnitCl rnd cl
  let cl ← toUnitCl rnd cl
  let lo ← quantile samples (0.5 - 0.5 * cl)
  let hi ← quantile samples (0.5 + 0.5 * cl)
  return (lo, hi)

/-- The equal-tailed credible interval and the median of `PosteriorResult.ci`
(results.py:1602, 1617-1625). -/
noncomputable def etiInterval (rnd : ℝ → ℝ) (cl : ℝ) (samples : List ℝ) : Except PyErr (ℝ × ℝ × ℝ) := do
  let cl ← toUnitCl rnd cl
  let m ← quantile samples 0.5
  let lo ← quantile samples (0.5 - cl / 2)
  let hi ← quantile samples (0.5 + cl / 2)
  return (m, lo, hi)

end Elisa.Infer
