import Verif.Infer.Params
import Mathlib.Analysis.SpecialFunctions.Log.Basic
import Mathlib.Data.Real.Sign

/-!
# Model of the leave-one-out probability integral transform (`src/elisa/infer/results.py:2373-2457`)

Exact reals.  The importance weights (`az.psislw`) are arbitrary non-negative numbers summing to one in every channel;
`az.loo_pit` is third-party and is modelled by its documented formula.
-/

namespace Elisa.Infer

open Elisa

/-- The statistics of a data set (likelihood.py:33). -/
inductive PitStat where
  | chi2 | cstat | pstat | wstat | pgstat
deriving DecidableEq, Repr

/-- One channel: observed counts, background counts, their ratio, and the unit factor `1 / (width * exposure)`
(results.py:2425, helper.py:160-162). -/
structure PitChannel where
  spec : ℝ
  back : ℝ
  ratio : ℝ
  unit : ℝ

/-- The net spectrum in a channel (helper.py:165-201, results.py:2407): what is observed, or simulated, as compared by the transform.  For `chi2`
the "on" counts are already net counts. -/
def netValue (stat : PitStat) (c : PitChannel) (on off : ℝ) : ℝ :=
  match stat with
  | .wstat => (on - c.ratio * off) * c.unit
  | .pgstat => (on - c.ratio * off) * c.unit
  | .chi2 => on * c.unit
  | .cstat => on * c.unit
  | .pstat => on * c.unit

/-- The observed value (helper.py:205-220, results.py:2407); `FixedData.ce` for `chi2` and `pgstat` (results.py:2437-2438). -/
def observed (stat : PitStat) (c : PitChannel) : ℝ :=
  match stat with
  | .chi2 => netValue .chi2 c (c.spec - c.ratio * c.back) 0
  | .cstat => netValue .cstat c c.spec 0
  | .pstat => netValue .pstat c c.spec 0
  | .wstat => netValue .wstat c c.spec c.back
  | .pgstat => netValue .pgstat c c.spec c.back

/-- `data_minus` (results.py:2423-2438): the value taken for "the next smaller possible observation". -/
noncomputable def observedMinus (stat : PitStat) (c : PitChannel) : ℝ :=
  match stat with
  | .cstat => (c.spec - 1) * c.unit
  | .pstat => (c.spec - 1) * c.unit
  | .wstat => max ((c.spec - 1) - c.ratio * c.back) (c.spec - c.ratio * (c.back + 1)) * c.unit
  | .chi2 => observed .chi2 c
  | .pgstat => observed .pgstat c

/-- `az.loo_pit` in one channel: the weight of the simulated values not above `y`, clipped to one; `sims` are pairs (weight, value) (results.py:2397-2458). -/
noncomputable def looPit (sims : List (ℝ × ℝ)) (y : ℝ) : ℝ :=
  min 1 ((sims.filter fun s => decide (s.2 ≤ y)).map (·.1)).sum

/-- The pair stored for a channel (results.py:2404-2457). -/
noncomputable def pitPair (stat : PitStat) (c : PitChannel) (sims : List (ℝ × ℝ)) : ℝ × ℝ :=
  (looPit sims (observedMinus stat c), looPit sims (observed stat c))

/-- `_loo_expectation` in one channel (results.py:2391-2396): `draws` are pairs (log weight, value); `np.log(0) = -inf` contributes
nothing, as does `sign(0) = 0` here. -/
noncomputable def looExpectation (draws : List (ℝ × ℝ)) : ℝ :=
  (draws.map fun d => Real.sign d.2 * Real.exp (d.1 + Real.log |d.2|)).sum

/-- `array.sel(channel=labels)` (results.py:2392, 2412-2413): the entries of the stacked array of all channels that carry the given labels, in the
order of the labels. -/
def selChannels {A : Type} (stacked : List (String × A)) (labels : List String) : Except PyErr (List A) :=
  labels.mapM (dictGet stacked)

end Elisa.Infer
