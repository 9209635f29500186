import Verif.Infer.StatProps

/-!
# Model of the data simulator and of the count-data calculator in `src/elisa/infer/helper.py`
-/

namespace Elisa.Infer

open Elisa

/-- A sampling distribution of all channels (helper.py:245-265): Gaussian with standard deviations, or Poisson.
The mean is the model value. -/
inductive SimDist where
  | norm (sd : List ℝ)
  | poisson

/-- `sampling_dist` / `simulators` of one dataset (helper.py:244-265): distribution of the "on" data, and of the
"off" data when the statistic models the background.  (`d.back_errors` of a dataset without background
is `None`; statistics with background are refused for such data before this point.) -/
def samplingDist (stat : Stat) (d : FitData) : SimDist × Option SimDist :=
  let on := if stat.specNormal then SimDist.norm d.specErrors else .poisson
  let off := if stat.withBack then
      some (if stat.backNormal then SimDist.norm ((d.back.map (·.errors)).getD []) else .poisson)
    else none
  (on, off)

/-- `obs_counts` of one dataset (helper.py:205-217). -/
def obsCounts (stat : Stat) (d : FitData) : List ℝ × Option (List ℝ) :=
  (if stat.specNormal then d.netCounts else d.specCounts,
    if stat.withBack then some ((d.back.map (·.counts)).getD []) else none)

/-- Net spectrum of one dataset computed by `get_counts_data` (helper.py:167-201), channel `j`:
`(Non - back_ratio * Noff) / (exposure * channel_width)`, where the ratio is that of the data for
statistics with background and `0` otherwise. -/
noncomputable def netSpectrum (stat : Stat) (d : FitData) (width : List ℝ) (on : List ℝ)
    (off : Option (List ℝ)) (j : Nat) : ℝ :=
  let ratio := if stat.withBack then nth ((d.back.map (·.ratio)).getD []) j else 0
  (nth on j - ratio * nth (off.getD []) j) * (1 / (d.exposure * nth width j))

/-- The folded model stored by every statistic, `source_rate / channel_width`
(likelihood.py:209, 262, 321, 375, 427), channel `j`. -/
noncomputable def modelSpectrum (d : FitData) (width unfold : List ℝ) (j : Nat) : ℝ :=
  d.sourceRate unfold j / nth width j

end Elisa.Infer
