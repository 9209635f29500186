import Verif.Grouping.Float
import Verif.Infer.FloatFold

/-!
# The Poisson likelihood in floating point

`BetterPoisson.log_prob` and the fit statistic of a data set with every result rounded.  `lg` is the library's logarithm.
-/

namespace Elisa.Infer.Fl

open Elisa Elisa.Infer Elisa.Grouping.Fl

/-- `xlogy(v, x)` (likelihood.py:160, 161, 171, 172), zero for `v = 0`, else the rounded product with the computed logarithm. -/
noncomputable def xlogyF (rnd lg : ℝ → ℝ) (v x : ℝ) : ℝ := if v = 0 then 0 else rnd (v * lg x)

/-- `gof = xlogy(value, value) - value` (likelihood.py:161, 172). -/
noncomputable def gofF (rnd lg : ℝ → ℝ) (v : ℝ) : ℝ := rnd (xlogyF rnd lg v v - v)

/-- `BetterPoisson.log_prob` (likelihood.py:143-174) for one channel with rounded operations: the branch for a sparse distribution (148-168) and the other
(170-174). -/
noncomputable def poissonF (rnd lg : ℝ → ℝ) (sparse : Bool) (v rate : ℝ) : ℝ :=
  if sparse then min (if 0 < v then rnd (-rate + rnd (xlogyF rnd lg v rate - gofF rnd lg v)) else -rate) 0
  else min (rnd (rnd (xlogyF rnd lg v rate - rate) - gofF rnd lg v)) 0

/-- The log likelihood of the channels of a data set fitted with `cstat` (likelihood.py:231-276); `progs j` computes the entry of channel `j` of the product of the
response with the model. -/
noncomputable def loglikeF (rnd lg : ℝ → ℝ) (sparse : Bool) (d : FitData) (progs : ℕ → Prog) : List ℝ :=
  (List.range d.size).map fun j : ℕ => poissonF rnd lg sparse (nth d.specCounts j) (counts rnd (progs j) (nth d.areaScale j) d.exposure)

/-- The total deviance of a fit of one such data set (helper.py:502-505, 571-580): `-2` times the sum of the channels, in the order `F` takes. -/
noncomputable def devianceF (F : Impl) (lg : ℝ → ℝ) (sparse : Bool) (d : FitData) (progs : ℕ → Prog) : ℝ :=
  F.rnd (-2 * F.sum 0 (loglikeF F.rnd lg sparse d progs))

end Elisa.Infer.Fl
