import Verif.Infer.Credible

/-!
# Model of the summaries of a posterior (`src/elisa/infer/results.py:2125-2202, 2226-2248`) and of the mean and standard deviation of functions of parameters (`results.py:1719-1720`)

Draws are an array `(chain, draw)` of exact reals without NaN.
-/

namespace Elisa.Infer.Summary

open Elisa Elisa.Infer

/-- `mean()` over all chains and draws (results.py:2190-2192, 1719); NaN (`none`) for no draws. -/
noncomputable def mean (chains : List (List ℝ)) : Option ℝ :=
  if chains.flatten.length = 0 then none else some (chains.flatten.sum / (chains.flatten.length : ℝ))

/-- `std(ddof=ddof)` over all chains and draws; NaN if there are not more draws than `ddof` (numpy, as called in results.py:2195-2197 and 1720). -/
noncomputable def sdev (ddof : Nat) (chains : List (List ℝ)) : Option ℝ :=
  (mean chains).bind fun m =>
    if chains.flatten.length ≤ ddof then none
    else some (Real.sqrt ((chains.flatten.map fun x => (x - m) * (x - m)).sum / ((chains.flatten.length - ddof : Nat) : ℝ)))

/-- `PosteriorResult.std` (results.py:2195-2197). -/
noncomputable def std (chains : List (List ℝ)) : Option ℝ := sdev 1 chains

/-- The standard deviation that `flux`, `lumin` and `eiso` report (results.py:1720, `np.std`). -/
noncomputable def fnStd (chains : List (List ℝ)) : Option ℝ := sdev 0 chains

/-- `PosteriorResult.median` (results.py:2200-2202). -/
noncomputable def median (chains : List (List ℝ)) : Except PyErr ℝ := quantile chains.flatten 0.5

/-- Mean and median of the deviance of one entry of `log_likelihood` (results.py:2226-2248). -/
noncomputable def deviance (chains : List (List ℝ)) : Option ℝ × Except PyErr ℝ :=
  (mean (chains.map fun c => c.map fun l => -2 * l), median (chains.map fun c => c.map fun l => -2 * l))

/-- `argmax(...)` of the array of log-likelihoods (results.py:2134): the first of the largest entries, chain by chain. -/
noncomputable def bestDraw {A : Type} (loglike : A → ℝ) (chains : List (List A)) : Option A := chains.flatten.argmax loglike

/-- `_mle` (results.py:2126-2161): the search for the best fit starts from the draw of the largest likelihood and the deviance where it ends is reported.  `toUnconstr` is
`constr_dic_to_unconstr_arr`, `search` is `_ml_optimize(..., throw=False)[0]`, `loglike` the log-likelihood of an unconstrained array. -/
noncomputable def bestFit {A U : Type} (toUnconstr : A → U) (search : U → U) (loglike : U → ℝ) (stored : A → ℝ) (chains : List (List A)) : Except PyErr (U × ℝ) :=
  match bestDraw stored chains with
  | none => .error .valueError
  | some a => .ok (search (toUnconstr a), -2 * loglike (search (toUnconstr a)))

/-- `divergence` (results.py:2289-2300): the number of divergent draws; 0 if the sampler left no `sample_stats`, `KeyError` if these have no entry `diverging`. -/
def divergence (stats : Option (List (String × List Bool))) : Except PyErr Nat :=
  match stats with
  | none => .ok 0
  | some l => match l.lookup "diverging" with
    | some b => .ok (b.count true)
    | none => .error .keyError

end Elisa.Infer.Summary
