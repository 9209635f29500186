import Verif.Infer.FloatPoisson

/-!
# The chi-square statistic and the P-statistic in floating point

Simplification: the sum of the source and background counts of the P-statistic is not fused with a product.
-/

namespace Elisa.Infer.Fl

open Elisa Elisa.Infer Elisa.Grouping.Fl

/-- `BetterNormal.log_prob` (likelihood.py:136-140) for one channel, every result rounded. -/
noncomputable def normalF (rnd : ℝ → ℝ) (v loc scale : ℝ) : ℝ :=
  rnd (rnd (-1 / 2 * rnd (rnd (v - loc) / scale)) * rnd (rnd (v - loc) / scale))

/-- The total deviance of one data set fitted with `chi2` (likelihood.py:184-228; helper.py:502-505, 571-580). -/
noncomputable def chiDevianceF (F : Impl) (d : FitData) (progs : ℕ → Prog) : ℝ :=
  F.rnd (-2 * F.sum 0 ((List.range d.size).map fun j : ℕ => normalF F.rnd (nth d.netCounts j) (counts F.rnd (progs j) (nth d.areaScale j) d.exposure) (nth d.netErrors j)))

/-- `jnp.clip(source_rate * exposure + back_ratio * back, min=1e-30, max=1e15)` (likelihood.py:301-305) for one channel. -/
noncomputable def knownCounts (rnd : ℝ → ℝ) (p : Prog) (area exposure ratio back : ℝ) : ℝ :=
  min (max (rnd (rnd (rnd (p.value rnd * area) * exposure) + rnd (ratio * back))) (rnd 1e-30)) 1e15

/-- The total deviance of one data set with background `b` fitted with `pstat` (likelihood.py:279-325; helper.py:502-505, 571-580). -/
noncomputable def pDevianceF (F : Impl) (lg : ℝ → ℝ) (sparse : Bool) (d : FitData) (b : FitBack) (progs : ℕ → Prog) : ℝ :=
  F.rnd (-2 * F.sum 0 ((List.range d.size).map fun j : ℕ =>
    poissonF F.rnd lg sparse (nth d.specCounts j) (knownCounts F.rnd (progs j) (nth d.areaScale j) d.exposure (nth b.ratio j) (nth b.counts j))))

end Elisa.Infer.Fl
