import Verif.Infer.Level
import Mathlib.Data.List.MinMax

/-!
# Model of the credible intervals of `PosteriorResult` (`src/elisa/infer/results.py:1565-1722`)

Posterior samples are an array `(chain, draw)` of exact reals without NaN.  `az.hdi` and `np.quantile` are third-party; they are modelled by their
documented algorithms because the meaning of the reported interval depends on them.
-/

namespace Elisa.Infer

open Elisa

/-- The sorted samples (results.py:1566-1660). -/
noncomputable def sorted (xs : List ℝ) : List ℝ := xs.insertionSort (· ≤ ·)

/-- `az.hdi(xs, cl)` as called in results.py:1611 and 1706: among the windows of `⌊cl * n⌋ + 1` consecutive sorted samples, the first of the
shortest ones; raises for a level outside `(0, 1)` and for an empty sample. -/
noncomputable def hdi (cl : ℝ) (xs : List ℝ) : Except PyErr (ℝ × ℝ) :=
  if ¬ (0 < cl ∧ cl < 1) then .error .valueError
  else
    let s := sorted xs
    let inc := ⌊cl * (xs.length : ℝ)⌋₊
    match (List.range (xs.length - inc)).argmin (fun i => s.getD (i + inc) 0 - s.getD i 0) with
    | none => .error .valueError
    | some i => .ok (s.getD i 0, s.getD (i + inc) 0)

/-- What `ci` reports about one parameter: median, interval, errors (results.py:1606-1650). -/
structure Credible where
  median : ℝ
  interval : ℝ × ℝ
  errors : ℝ × ℝ

/-- results.py:1646-1650 -/
noncomputable def Credible.mk' (m : ℝ) (i : ℝ × ℝ) : Credible := ⟨m, i, (i.1 - m, i.2 - m)⟩

/-- `PosteriorResult.ci` for one parameter (results.py:1600-1626, 1646-1650); the samples of all chains are pooled. -/
noncomputable def ciParam (cl : ℝ) (useHdi : Bool) (chains : List (List ℝ)) : Except PyErr Credible :=
  match useHdi with
  | true => do
    let p ← toUnitCl id cl
    let m ← quantile chains.flatten 0.5
    let i ← hdi p chains.flatten
    return .mk' m i
  | false => do
    let r ← etiInterval id cl chains.flatten
    return .mk' r.1 r.2

/-- `_params_dist` (results.py:2204-2223): the pooled draws, or `n` random ones when there are more than ten thousand; `pick` are the random
(chain, draw) positions. -/
def paramsDist {A : Type} (devices : Nat) (pick : Nat → Nat × Nat) (chains : List (List A)) : List A :=
  if 10000 < chains.flatten.length then
    (List.range (10000 - 10000 % devices)).filterMap fun t => chains[(pick t).1]?.bind fun c => c[(pick t).2]?
  else chains.flatten

/-- `_ci_fn` for one user function (results.py:1661-1722).  With `hdi=True` the result of `az.hdi(dist, cl)` is an xarray dataset whose
`data_vars` is not a JAX pytree: `jax.tree.map` treats the whole mapping as one leaf and indexes it with `0`, which raises `KeyError`.  The level
arrives converted and is converted again. -/
noncomputable def ciFn {A : Type} (cl : ℝ) (useHdi : Bool) (f : A → ℝ) (draws : List A) : Except PyErr Credible := do
  let p ← toUnitCl id cl
  match useHdi with
  | true =>
    let _ ← quantile (draws.map f) 0.5
    let _ ← hdi p (draws.map f)
    throw .keyError
  | false => do
    let r ← etiInterval id p (draws.map f)
    return .mk' r.1 r.2

end Elisa.Infer
