import Verif.Infer.FloatPoisson
import Verif.Grouping.Signif

/-!
# The significance of Li and Ma in floating point

`significance_lima` and `group_sig_lima` with every result of the significance rounded; `none` is a NaN, which is neither below nor above anything.  Simplification: the
counts are whole numbers below `2 ^ 53`, so that their sums are exact, and the ratio of an interval is given.
-/

namespace Elisa.Grouping.Fl

open Elisa Elisa.Grouping Elisa.Infer.Fl

/-- The first argument of `xlogy`, `(1.0 + a) / a * n_on / (n_on + n_off)` (grouping.py:526), from left to right. -/
noncomputable def onRatioF (rnd : ℝ → ℝ) (nOn nOff a : ℝ) : ℝ := rnd (rnd (rnd (rnd (1 + a) / a) * nOn) / rnd (nOn + nOff))

/-- The second, `(1.0 + a) * n_off / (n_on + n_off)` (grouping.py:535). -/
noncomputable def offRatioF (rnd : ℝ → ℝ) (nOn nOff a : ℝ) : ℝ := rnd (rnd (rnd (1 + a) * nOff) / rnd (nOn + nOff))

/-- `2.0 * (term1 + term2)` (grouping.py:520-538). -/
noncomputable def limaTermsF (rnd lg : ℝ → ℝ) (nOn nOff a : ℝ) : ℝ :=
  rnd (2 * rnd ((if 0 < nOn then xlogyF rnd lg nOn (onRatioF rnd nOn nOff a) else 0) + (if 0 < nOff then xlogyF rnd lg nOff (offRatioF rnd nOn nOff a) else 0)))

/-- `significance_lima` (grouping.py:510-538) for one entry; the square root of a negative number is NaN. -/
noncomputable def limaF (rnd lg : ℝ → ℝ) (nOn nOff a : ℝ) : Option ℝ :=
  if limaTermsF rnd lg nOn nOff a < 0 then none
  else some ((if rnd (a * nOff) ≤ nOn then 1 else -1) * rnd (Real.sqrt (limaTermsF rnd lg nOn nOff a)))

/-- `group_sig >= sig` (grouping.py:725, 744). -/
noncomputable def reaches (sig : ℝ) : Option ℝ → Bool
  | none => false
  | some s => decide (sig ≤ s)

/-- `group_sig < sig` (grouping.py:721). -/
noncomputable def falls (sig : ℝ) : Option ℝ → Bool
  | none => false
  | some s => decide (s < sig)

/-- The loop of `group_sig_lima` (grouping.py:705-728), see `greedyLoop`; `s a b` is the significance of the interval `[a, b)`. -/
noncomputable def greedyLoopF (s : ℕ → ℕ → Option ℝ) (sig : ℝ) : ℕ → ℕ → ℕ → List ℕ → List ℕ
  | 0, _, _, idx => idx
  | 1, i, start, idx => if falls sig (s start (i + 1)) ∧ 1 < idx.length then idx.tail else idx
  | left + 2, i, start, idx =>
    if reaches sig (s start (i + 1)) then greedyLoopF s sig (left + 1) (i + 1) (i + 1) ((i + 1) :: idx)
    else greedyLoopF s sig (left + 1) (i + 1) start idx

/-- `group_sig_lima` (grouping.py:668-749), with the computed ratio of an interval given. -/
noncomputable def groupSigLimaF (rnd lg : ℝ → ℝ) (on off : List ℝ) (ratio : ℕ → ℕ → ℝ) (sig : ℝ) : Except PyErr (List Int × Bool) :=
  if on.length ≠ off.length then .error .assertionError
  else if sig ≤ 0 then .error .assertionError
  else if on = [] then .error .indexError
  else
    let s := fun a b : ℕ => limaF rnd lg (intervalSum (prefixSum on) a b) (intervalSum (prefixSum off) a b) (ratio a b)
    let idx := (greedyLoopF s sig on.length 0 0 [0]).reverse
    .ok (setFlags on.length idx, (List.zip (Elisa.reduceat on idx) (List.zip (Elisa.reduceat off idx) ((edges idx on.length).map fun e => ratio e.1 e.2))).all
      fun p => reaches sig (limaF rnd lg p.1 p.2.1 p.2.2))

end Elisa.Grouping.Fl
