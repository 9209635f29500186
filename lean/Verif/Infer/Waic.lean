import Verif.Infer.IData
import Mathlib.Analysis.SpecialFunctions.Log.Basic
import Mathlib.Analysis.SpecialFunctions.Pow.Real

/-!
# Model of `PosteriorResult.waic` (results.py:2303-2325)

`az.waic(self.idata, var_name='channels', scale='deviance')`, with ArviZ's default `pointwise=False`.  ArviZ 0.22's `waic` is modelled as documented there: it stacks
chains and draws, takes for every point the logarithm of the mean likelihood and the variance of the log-likelihood (`ddof=0`), and adds up.  Numbers are real numbers.
-/

namespace Elisa.Infer.Crit

open Elisa Elisa.Infer

/-- The log-likelihoods of the channels in a draw: `idata['log_likelihood']['channels']` (fit.py:587-595, results.py:2319). -/
def channelsOf (sites : List LogLikeSites) : List ℝ :=
  match (logLikeGroup (getLogLike sites)).lookup "channels" with
  | some (.points v) => v
  | _ => []

/-- `log_likelihood.stack(__sample__=('chain', 'draw'))`: one row for every draw (az.waic, called in results.py:2318-2320). -/
def stack (post : List (List (List LogLikeSites))) : List (List ℝ) := post.flatten.map channelsOf

/-- The values of point `i` (results.py:2318-2320). -/
def column (rows : List (List ℝ)) (i : Nat) : List ℝ := rows.map fun r => r.getD i 0

/-- `logsumexp(x, b_inv=n)`: logarithm of the mean of the exponentials (results.py:2318-2320). -/
noncomputable def logMeanExp (xs : List ℝ) : ℝ := Real.log ((xs.map Real.exp).sum / xs.length)

/-- `x.mean()` (results.py:2318-2320). -/
noncomputable def avg (xs : List ℝ) : ℝ := xs.sum / xs.length

/-- `x.var()`, with `ddof=0` (results.py:2318-2320). -/
noncomputable def variance (xs : List ℝ) : ℝ := avg (xs.map fun x => (x - avg xs) ^ 2)

/-- What `az.waic` returns (results.py:2318-2320): criterion, effective number of parameters, standard error, number of draws and of points, warning. -/
structure Elpd where
  value : ℝ
  p : ℝ
  se : ℝ
  samples : Nat
  points : Nat
  warning : Bool

/-- `az.waic(…, scale='deviance')` of the stacked log-likelihoods (results.py:2318-2320). -/
noncomputable def waicRows (rows : List (List ℝ)) : Elpd :=
  let n := (rows.headD []).length
  let terms := (List.range n).map fun i => -2 * (logMeanExp (column rows i) - variance (column rows i))
  { value := terms.sum
    p := ((List.range n).map fun i => variance (column rows i)).sum
    se := Real.sqrt (n * variance terms)
    samples := rows.length
    points := n
    warning := (List.range n).any fun i => decide (0.4 < variance (column rows i)) }

/-- `PosteriorResult.waic` (results.py:2302-2320). -/
noncomputable def waic (post : List (List (List LogLikeSites))) : Elpd := waicRows (stack post)

end Elisa.Infer.Crit
