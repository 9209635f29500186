import Verif.Infer.FloatPoisson
import Verif.Infer.FloatStat

/-!
# The W-statistic in floating point

Simplification: the operations of the profile background are not fused (as in `FloatStat`).
-/

namespace Elisa.Infer.Fl

open Elisa Elisa.Infer Elisa.Grouping.Fl

/-- The log likelihood `loglike_on + loglike_off` of one channel fitted with `wstat` (likelihood.py:419-448), every result rounded: `s` computed source counts, `n` and `m` counts
in the source and in the background region, `a` their ratio. -/
noncomputable def wLoglikeF (rnd lg : ℝ → ℝ) (sparse : Bool) (s n m a : ℝ) : ℝ :=
  rnd (poissonF rnd lg sparse n (onRate rnd s a (wback rnd s n m a)) + poissonF rnd lg sparse m (wback rnd s n m a))

/-- The total deviance of one data set with background `b` fitted with `wstat` (likelihood.py:390-450; helper.py:502-505, 571-580). -/
noncomputable def wDevianceF (F : Impl) (lg : ℝ → ℝ) (sparse : Bool) (d : FitData) (b : FitBack) (progs : ℕ → Prog) : ℝ :=
  F.rnd (-2 * F.sum 0 ((List.range d.size).map fun j : ℕ =>
    wLoglikeF F.rnd lg sparse (counts F.rnd (progs j) (nth d.areaScale j) d.exposure) (nth d.specCounts j) (nth b.counts j) (nth b.ratio j)))

end Elisa.Infer.Fl
