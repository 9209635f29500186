import Verif.Infer.Likelihood
import Verif.Plot.QuantRes
import Mathlib.Analysis.SpecialFunctions.Log.Basic

/-!
# Error bars of on/off counts: `elisa.plot.errorbars`
-/

namespace Elisa.Plot.ErrBar

open Elisa Elisa.Infer Elisa.Grouping

/-- `wstat` (plot/errorbars.py:20-25): twice the negative logarithm of the profile likelihood, without the saturated term. -/
noncomputable def wstatCurve (s nOn nOff a : ℝ) : ℝ :=
  let b := wstatBackground s nOn nOff a
  let mOn := s + a * b
  let mOff := b
  2 * (mOn - xlogy nOn mOn + mOff - xlogy nOff mOff)

/-- `get_sigma` (plot/errorbars.py:37-38). -/
noncomputable def getSigma (cl : ℝ) : EReal := normIsf (1 / 2 - 1 / 2 * cl)

/-- `get_delta` (plot/errorbars.py:41-42).  `chi2.ppf(cl, 1)` is the least `x` with probability at least `cl` for `Z ^ 2 ≤ x`,
`Z` standard normal (which is what a chi-square variable with one degree of freedom is). -/
noncomputable def getDelta (cl : ℝ) : ℝ :=
  sInf {x : ℝ | 0 ≤ x ∧ cl ≤ (ProbabilityTheory.gaussianReal 0 1).real {z | z ^ 2 ≤ x}}

/-- `optx.root_find` as it is used here: a function, and a starting value, `none` when that is not a finite number.
The code solves all channels in one call; their equations are independent of each other, so the model solves them one by one (plot/errorbars.py:83-129). -/
abbrev Solver := (ℝ → ℝ) → Option ℝ → ℝ

/-- `np.log` (numpy): not finite for zero (plot/errorbars.py:66-129). -/
noncomputable def logGuess (x : ℝ) : Option ℝ := if 0 < x then some (Real.log x) else none

/-- `_sigmoid` (plot/errorbars.py:45-48) with real arithmetic: the clip keeps `expit` strictly between 0 and 1, which it is. -/
noncomputable def sigmoid (x s : ℝ) : ℝ := 1 / (1 + Real.exp (-x)) * s

/-- `_inv_sigmoid` (plot/errorbars.py:51-53): `logit(y / s)`, finite strictly between 0 and 1. -/
noncomputable def invSigmoid (y s : ℝ) : Option ℝ :=
  if 0 < y / s ∧ y / s < 1 then some (Real.log (y / s / (1 - y / s))) else none

/-- What `wstat_errors` returns for one channel (plot/errorbars.py:66-129). -/
structure Bar where
  lower : ℝ
  upper : ℝ
  uplim : Bool

/-- `wstat_errors` (plot/errorbars.py:65-129) for one channel. -/
noncomputable def wstatErrors (solve : Solver) (nOn nOff a uplim : ℝ) : Bar :=
  let sigmaUp := (getSigma uplim).toReal
  let s := max (nOn - a * nOff) 0
  let error := Real.sqrt (nOn + a * a * nOff)
  let nonPos : Prop := s = 0
  let wstat0 := wstatCurve s nOn nOff a
  let wstatAtZero := wstatCurve 0 nOn nOff a
  let zeroLower : Prop := wstatAtZero - wstat0 ≤ 1
  let upGuess := @ite _ nonPos (Classical.propDecidable _) (logGuess (sigmaUp * error)) (logGuess error)
  let delta := @ite _ nonPos (Classical.propDecidable _) (getDelta uplim) 1
  let up := solve (fun x => wstatCurve (s + Real.exp x) nOn nOff a - (wstat0 + delta)) upGuess
  let loGuess := invSigmoid (max (s - error) 1e-3) s
  let lo := solve (fun x => wstatCurve (sigmoid x s) nOn nOff a - (wstat0 + 1)) loGuess
  { lower := @ite _ zeroLower (Classical.propDecidable _) 0 (sigmoid lo s)
    upper := s + Real.exp up
    uplim := @decide nonPos (Classical.propDecidable _) }

end Elisa.Plot.ErrBar
