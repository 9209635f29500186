import Verif.Np
import Mathlib.Analysis.SpecialFunctions.Pow.Real
import Mathlib.Analysis.SpecialFunctions.Sqrt

/-!
# Model of the profile-likelihood intervals of `MLEResult.ci` (results.py:586-837)

The space of parameter vectors is an arbitrary type `Θ`, the fit statistic and the user's function are arbitrary
functions on it.  Not modelled: the search of Minuit/Minos itself (the theorems speak about the set whose ends
Minos is asked for), JAX, floating point rounding.
-/

namespace Elisa.Infer

/-- `_loss_factory(fn, rtol)` (results.py:809-837): `x0` is the coordinate of the function value.  A division by zero
gives no number. -/
noncomputable def jointLoss {Θ : Type} (D g : Θ → ℝ) (rtol x0 : ℝ) (θ : Θ) : Option ℝ :=
  if x0 = 0 ∨ rtol = 0 then none
  else some (D θ + ((g θ / x0 - 1) * (g θ / x0 - 1)) / rtol)

/-- The start point of the search (results.py:764-770): the function value at the best fit, and the best fit. -/
def ciStart {Θ : Type} (g : Θ → ℝ) (mle : Θ) : ℝ × Θ := (g mle, mle)

/-- `rtol_max` (results.py:786): `relErr` is the relative standard error of the function. -/
noncomputable def rtolMax (relErr rtol : ℝ) : ℝ := min 0.01 (min (0.01 * relErr) (100 * rtol))

/-- `np.geomspace(a, b, num=15)[1:]` (results.py:788) -/
noncomputable def geomGrid (a b : ℝ) : List ℝ :=
  (List.range 14).map fun k => a * (b / a) ^ (((k + 1 : Nat) : ℝ) / 14)

/-- `get_minuit_iter_rtol` (results.py:775-791), as the tolerance of the minimiser that is used; `accurate r` says
whether the minimisation with tolerance `r` is accurate. -/
noncomputable def rtolSearch (accurate : ℝ → Bool) (relErr rtol : ℝ) : ℝ :=
  if !accurate rtol then
    if rtol < rtolMax relErr rtol then
      ((geomGrid rtol (rtolMax relErr rtol)).find? accurate).getD rtol
    else rtol
  else rtol

/-- The argument `rtol` of `ci`: a Python float, a mapping, or anything else (results.py:587-708). -/
inductive RtolArg where
  | float (r : ℝ)
  | mapping (kv : List (String × ℝ))
  | other

/-- The treatment of `rtol` (results.py:643-651).  The result maps names to tolerances (first match). -/
noncomputable def checkRtol (keys : List String) : RtolArg → Except PyErr (List (String × ℝ))
  | .float r => 
    let d := keys.map fun k => (k, r)
    if d.any (fun e => decide (0.01 < e.2)) then .error .valueError else .ok d
  | .mapping kv =>
    let d := kv ++ (keys.filter fun k => !(kv.map Prod.fst).contains k).map fun k => (k, 1e-6)
    if d.any (fun e => decide (0.01 < e.2)) then .error .valueError else .ok d
  | .other => .error .typeError

/-- Ends of a Minos interval relative to the best fit (results.py:724-754). -/
structure MinosErr where
  lower : ℝ
  upper : ℝ

/-- `{k: mle[k] + e[k] for k in names} | others` (results.py:733-745) -/
def shifted (names : List String) (u e : String → ℝ) (k : String) : ℝ :=
  if k ∈ names then u k + e k else u k

/-- `_ci_free` (results.py:724-754): `T k` maps the unconstrained coordinate of the parameter `k` to its value
(`unconstr_dic_to_params_dic`, which acts on each free parameter separately), `u` is the best fit. -/
def ciFree (T : String → ℝ → ℝ) (u : String → ℝ) (err : String → MinosErr) (names : List String) (k : String) : ℝ × ℝ :=
  (T k (shifted names u (fun k => (err k).lower) k), T k (shifted names u (fun k => (err k).upper) k))

/-- `errors` of `ci` (results.py:694-697) -/
def ciErrors (interval : ℝ × ℝ) (mle : ℝ) : ℝ × ℝ := (interval.1 - mle, interval.2 - mle)

end Elisa.Infer
