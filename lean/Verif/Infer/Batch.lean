import Verif.Util.Config
import Mathlib.Data.Real.Basic
import Mathlib.Data.Finset.Card
import Mathlib.Tactic.Ring
import Mathlib.Tactic.Positivity
import Mathlib.Tactic.FieldSimp

/-!
# Model of the batch fits of `infer/helper.py` and of `boot` / `ppc` in `infer/results.py`

One fit of one simulated dataset is an arbitrary function `fit data init` (the Levenberg–Marquardt solver
is not modelled).  The tree of result arrays, all with the same leading dimension, is modelled as one
array of results.
-/

namespace Elisa.Infer

open Elisa Elisa.Util

variable {D I R : Type}

/-- `fit_once(i, (result, init))` (helper.py:601-666): read row `i` of the data and of the initial values,
store the results of the fit at row `i`. -/
def fitOnce (fit : D → I → R) (data : List D) (init : List I) (i : Nat) (out : List R) : List R :=
  match data[i]?, init[i]? with
  | some d, some x => out.set i (fit d x)
  | _, _ => out

/-- `lax.fori_loop(0, n, body, s)` (helper.py:686, 711). -/
def foriLoop {S : Type} (n : Nat) (body : Nat → S → S) (s : S) : S :=
  (List.range n).foldl (fun s i => body i s) s

/-- `fit_in_sequence` (helper.py:668-688); `empty` are the uninitialised result arrays (helper.py:780-794). -/
def fitInSequence (fit : D → I → R) (data : List D) (init : List I) (empty : List R) : List R :=
  foriLoop empty.length (fitOnce fit data init) empty

/-- `x.reshape((p, -1) + x.shape[1:])` (helper.py:712): row-major blocks; JAX raises a `TypeError` when the
length is not a multiple of `p`. -/
def reshape {A : Type} (p : Nat) (xs : List A) : Except PyErr (List (List A)) :=
  if p = 0 ∨ xs.length % p ≠ 0 then .error .typeError
  else .ok ((List.range p).map fun b => (xs.drop (b * (xs.length / p))).take (xs.length / p))

/-- `fit_in_parallel` (helper.py:690-718).  The progress bar refuses a number of evaluations that is not a
multiple of the number of devices (misc.py:559-560).  `jax.pmap` runs the loop on every block. -/
def fitInParallel (fit : D → I → R) (data : List D) (init : List I) (empty : List R) (progress : Bool)
    (p : Nat) : Except PyErr (List R) := do
  let batch := empty.length / p
  if progress ∧ empty.length % p ≠ 0 then throw .valueError
  let dataB ← reshape p data
  let initB ← reshape p init
  let emptyB ← reshape p empty
  let blocks := (List.range p).map fun b =>
    foriLoop batch (fitOnce fit (dataB.getD b []) (initB.getD b [])) (emptyB.getD b [])
  return blocks.flatten

/-- `batch_fit` (helper.py:755-806): the requested number of devices is checked first. -/
def batchFit (fit : D → I → R) (data : List D) (init : List I) (empty : List R) (parallel progress : Bool)
    (nDev : Nat) (nParallel : Option Int) : Except PyErr (List R) := do
  let p ← getParallelNumber nDev nParallel
  if parallel then fitInParallel fit data init empty progress p
  else return fitInSequence fit data init empty

/-- Size of a bootstrap or predictive run (results.py:433-435, 2056-2058). -/
def runSize (parallel : Bool) (p n : Nat) : Nat :=
  if parallel ∧ n % p ≠ 0 then n + (p - n % p) else n

/-- `np.sum(sim >= obs, axis=0) / len(sim)` (results.py:466-470, 2105-2109) for one statistic; `none` is the
`nan` of `0 / 0`. -/
noncomputable def pValue (obs : ℝ) (sim : List ℝ) : Option ℝ :=
  if sim.length = 0 then none
  else some (((sim.countP fun x => decide (obs ≤ x) : Nat) : ℝ) / (sim.length : ℝ))

/-- What `boot` keeps (results.py:459-475). -/
structure BootOut (R : Type) where
  /-- valid fits -/
  fits : List R
  /-- p-value of one of the deviances -/
  pValue : Option ℝ
  n : Nat
  nValid : Nat

/-- `MLEResult.boot` (results.py:404-475).  `simulate n` are the `n` simulated datasets for the best-fit
model; for `n = 1` the simulator returns an unbatched array (helper.py:230-233) and `batch_fit` fails an
assertion (helper.py:765).  `dev` is one of the deviances of a fit and `obs` its observed value. -/
noncomputable def boot (simulate : Nat → List D) (fit : D → I → R) (mle : I) (junk : R) (valid : R → Bool)
    (dev : R → ℝ) (obs : ℝ) (nDev : Nat) (n : Nat) (parallel progress : Bool) (nParallel : Option Int) :
    Except PyErr (BootOut R) := do
  let p ← getParallelNumber nDev nParallel
  let n := runSize parallel p n
  if n = 1 then throw .assertionError
  let data := simulate n
  let out ← batchFit fit data (List.replicate n mle) (List.replicate n junk) parallel progress nDev
    (some (p : Int))
  let good := out.filter valid
  return ⟨good, Infer.pValue obs (good.map dev), n, good.length⟩

/-- `PosteriorResult.ppc` (results.py:2028-2113): `draw n` are `n` posterior draws of the parameters and
`simulate` one dataset for each. -/
noncomputable def ppc (draw : Nat → List I) (simulate : List I → List D) (fit : D → I → R) (junk : R)
    (valid : R → Bool) (dev : R → ℝ) (obs : ℝ) (nDev : Nat) (n : Nat) (parallel progress : Bool)
    (nParallel : Option Int) : Except PyErr (BootOut R) := do
  let p ← getParallelNumber nDev nParallel
  let n := runSize parallel p n
  let params := draw n
  let data := simulate params
  let out ← batchFit fit data params (List.replicate n junk) parallel progress nDev (some (p : Int))
  let good := out.filter valid
  return ⟨good, Infer.pValue obs (good.map dev), n, good.length⟩

end Elisa.Infer
