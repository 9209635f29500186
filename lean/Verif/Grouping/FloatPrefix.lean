import Verif.Grouping.Float
import Verif.Grouping.Signif

/-!
# Sums over intervals of channels from rounded prefix sums

`_prefix_sum`, `_interval_sum`, `_scale_from_interval` and `_interval_back_ratio` in float64.  Simplification: no overflow.
-/

namespace Elisa.Grouping.Fl

open Elisa Elisa.Grouping

/-- `_prefix_sum` (grouping.py:260-263), see `prefixSum`. -/
def Impl.prefixSum (F : Impl) (values : List ℝ) : List ℝ := 0 :: F.cumsum values

/-- `_interval_sum` (grouping.py:266-268), and the differences of grouping.py:292-309. -/
def Impl.intervalSum (F : Impl) (prefixes : List ℝ) (start stop : ℕ) : ℝ := F.rnd (prefixes.getD stop 0 - prefixes.getD start 0)

/-- `_scale_from_interval` of `_build_scale_prefix` (grouping.py:271-311) with `net=False`, as in all groupings by significance, see `scaleFromInterval`. -/
noncomputable def Impl.scaleOf (F : Impl) (d : ScaleGroupData ℝ) (start stop : ℕ) : ℝ :=
  let counts := F.intervalSum (F.prefixSum d.counts) start stop
  let nChan := F.intervalSum (F.prefixSum d.nChan) start stop
  if nChan = 0 then 1
  else
    let weightedInv := F.intervalSum (F.prefixSum d.weightedInv) start stop
    if weightedInv ≠ 0 then F.rnd (counts / weightedInv)
    else
      let reciprocal := F.intervalSum (F.prefixSum d.reciprocal) start stop
      if reciprocal = 0 then 1 else F.rnd (nChan / reciprocal)

/-- `_interval_back_ratio` (grouping.py:464-480), see `intervalBackRatio`. -/
noncomputable def Impl.ratio (F : Impl) (d : RatioData) (start stop : ℕ) : ℝ :=
  F.rnd (F.rnd (F.rnd (F.rnd (F.rnd (d.specExp / d.backExp) * F.scaleOf d.specArea start stop) * F.scaleOf d.specBack start stop)
    / F.scaleOf d.backArea start stop) / F.scaleOf d.backBack start stop)

/-- The counts, background and error of an interval of channels (grouping.py:792-794). -/
noncomputable def Impl.gvSums (F : Impl) (n b s : List ℝ) (start stop : ℕ) : ℝ × ℝ × ℝ :=
  (F.intervalSum (F.prefixSum n) start stop, F.intervalSum (F.prefixSum b) start stop,
    F.rnd (Real.sqrt (F.intervalSum (F.prefixSum (s.map fun x => F.rnd (x * x))) start stop)))

end Elisa.Grouping.Fl
