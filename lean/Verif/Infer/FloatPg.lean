import Verif.Infer.FloatPoisson
import Verif.Infer.FloatChi
import Verif.Infer.FloatStat

/-!
# The PG-statistic in floating point

Simplification: the operations of the profile background are not fused (as in `FloatStat`).
-/

namespace Elisa.Infer.Fl

open Elisa Elisa.Infer Elisa.Grouping.Fl

/-- The log likelihood `loglike_on + loglike_off` of one channel fitted with `pgstat` (likelihood.py:354-387), every result rounded: `s` computed source counts, `n` counts,
`bEst` and `bErr` background counts and their uncertainty, `a` the ratio of the regions. -/
noncomputable def pgLoglikeF (rnd lg : ℝ → ℝ) (sparse : Bool) (s n bEst bErr a : ℝ) : ℝ :=
  rnd (poissonF rnd lg sparse n (onRate rnd s a (pgback rnd s n bEst bErr a)) + normalF rnd bEst (pgback rnd s n bEst bErr a) bErr)

/-- The total deviance of one data set with background `b` fitted with `pgstat` (likelihood.py:324-387; helper.py:502-505, 571-580). -/
noncomputable def pgDevianceF (F : Impl) (lg : ℝ → ℝ) (sparse : Bool) (d : FitData) (b : FitBack) (progs : ℕ → Prog) : ℝ :=
  F.rnd (-2 * F.sum 0 ((List.range d.size).map fun j : ℕ =>
    pgLoglikeF F.rnd lg sparse (counts F.rnd (progs j) (nth d.areaScale j) d.exposure) (nth d.specCounts j) (nth b.counts j) (nth b.errors j) (nth b.ratio j)))

end Elisa.Infer.Fl
