import Verif.Infer.Params
import Verif.Grouping.Scale
import Mathlib.LinearAlgebra.Matrix.NonsingularInverse
import Mathlib.LinearAlgebra.Matrix.PosDef
import Mathlib.Data.Matrix.ColumnRowPartitioned
import Mathlib.Data.Real.Basic

/-!
# Model of the covariance matrices (helper.py:520-552, results.py:285-310, 485-585, 1499-1564, 2204-2225)

Matrices of derivatives are given; not modelled: automatic differentiation, rounding, the tolerance of
`np.allclose`, the parallel evaluation itself (only its requirement on the number of samples).
-/

namespace Elisa.Infer

open Elisa Elisa.Grouping Matrix

/-! ## Values -/

/-- `unconstr_covar` (helper.py:532-539): `H` is the Hessian of the deviance. -/
noncomputable def hessCovar {n : Type} [Fintype n] [DecidableEq n] (H : Matrix n n ℝ) : Matrix n n ℝ := (2 : ℝ) • H⁻¹

/-- `params_covar` (helper.py:529-540) and `jac @ old_covar @ jac.T` (results.py:546-548) -/
def propagate {m n : Type} [Fintype n] (J : Matrix m n ℝ) (C : Matrix n n ℝ) : Matrix m m ℝ := J * C * Jᵀ

/-- The Jacobian of `hstack([params, fn(params)])` (results.py:536-546), `F` being that of the functions. -/
def withFns {p f : Type} [DecidableEq p] (F : Matrix f p ℝ) : Matrix (p ⊕ f) p ℝ := Matrix.fromRows 1 F

open Classical in
/-- `MLEResult.__init__` (results.py:288-302): the covariance of all parameters from the Hessian, or from Minuit when
the former is not positive definite. -/
noncomputable def mleCovar {m n : Type} [Fintype m] [Fintype n] [DecidableEq n] (J : Matrix m n ℝ)
    (H : Matrix n n ℝ) (minuit : Option (Matrix n n ℝ)) : Matrix m m ℝ :=
  if (propagate J (hessCovar H)).PosDef then propagate J (hessCovar H)
  else match minuit with
    | some C => propagate J C
    | none => propagate J (hessCovar H)

/-! ## Selection by names -/

/-- A result of `np.cov`: `squeeze()` turns a 1x1 matrix into a number (results.py:485-585). -/
inductive NdArr where
  | scalar (x : ℝ)
  | matrix (rows : List (List ℝ))

/-- the mean of a column (numpy, results.py:485-585). -/
noncomputable def mean (xs : List ℝ) : ℝ := xs.sum / xs.length

/-- sample covariance of two columns (`ddof=1`) (numpy, results.py:485-585). -/
noncomputable def sampleCov (xs ys : List ℝ) : ℝ :=
  (List.zipWith (fun x y => (x - mean xs) * (y - mean ys)) xs ys).sum / (xs.length - 1)

/-- `np.cov(samples, rowvar=False)` (results.py:572, 1554); `cols` are the columns of `samples`. -/
noncomputable def npCov (cols : List (List ℝ)) : NdArr :=
  match cols with
  | [c] => .scalar (sampleCov c c)
  | cs => .matrix (cs.map fun a => cs.map fun b => sampleCov a b)

/-- `np.array(covar)[:, mask][mask]` (results.py:584, 1563): a number has no axes to index. -/
def selectMask (mask : List Bool) : NdArr → Except PyErr (List (List ℝ))
  | .scalar _ => .error .indexError
  | .matrix m =>
    if mask.length ≠ m.length then .error .indexError
    else .ok (applyMask mask (m.map fun row => applyMask mask row))

/-- `matrix[:] = src` for a `k x k` matrix and a square source (results.py:584, 1563), with NumPy's broadcasting. -/
def assignAll (k : Nat) (src : List (List ℝ)) : Except PyErr (List (List ℝ)) :=
  if src.length = k then .ok src
  else match src with
    | [[x]] => .ok (List.replicate k (List.replicate k x))
    | _ => .error .valueError

/-- The labelled result (results.py:577-585, 1556-1564): `table` are the names of the rows of `c` that are parameters. -/
def labelled (table params fns : List String) (c : NdArr) : Except PyErr (List String × List (List ℝ)) := do
  let names := params ++ fns
  let mask := table.map (fun p => decide (p ∈ params)) ++ fns.map fun _ => true
  let sel ← selectMask mask c
  let m ← assignAll names.length sel
  return (names, m)

/-- `ParamsCovar.matrix[a, b]` (results.py:2462-2469). -/
def entry (r : List String × List (List ℝ)) (a b : String) : Option ℝ :=
  match r.2[r.1.idxOf a]? with
  | some row => row[r.1.idxOf b]?
  | none => none

/-- `MLEResult.covar` (results.py:485-585): `full` is the covariance of all parameters followed by the functions. -/
def mleCovarSelect (h : ParamTable) (arg : ParamArg) (fns : List String) (full : NdArr) :
    Except PyErr (List String × List (List ℝ)) := do
  let params ← checkParams h arg
  labelled h.all params fns full

/-- `PosteriorResult.covar` (results.py:1499-1564): the samples are those of the free parameters only
(`_params_dist`, results.py:2204-2225). -/
noncomputable def posteriorCovar (h : ParamTable) (free : List String) (arg : ParamArg) (fns : List String)
    (cols : List (List ℝ)) : Except PyErr (List String × List (List ℝ)) := do
  let params ← checkParams h arg
  labelled free params fns (npCov cols)

/-! ## Samples -/

/-- Number of posterior samples used for functions of parameters (results.py:2211-2222); `dev` devices. -/
def posteriorCount (dev n : Nat) : Nat := if 10000 < n then 10000 - 10000 % dev else n

/-- Number of bootstrap samples used (results.py:476-483). -/
def bootCount (dev nValid : Nat) : Nat := nValid - nValid % dev

/-- `jax.shard_map` over `dev` devices needs a multiple of `dev` samples (results.py:485-585). -/
def evalParallel (dev n : Nat) : Except PyErr Nat := if n % dev = 0 then .ok n else .error .valueError

/-- `_check_fn` (results.py:238-274) for a function that reads the names `reads` of the mapping it is given:
it is tried on the defaults of all parameters. -/
def checkFn (all reads : List String) : Except PyErr Unit :=
  if ∀ r ∈ reads, r ∈ all then .ok () else .error .valueError

/-- evaluation of that function on a mapping with the given keys (results.py:238-274). -/
def evalFn (keys reads : List String) : Except PyErr Unit :=
  if ∀ r ∈ reads, r ∈ keys then .ok () else .error .keyError

end Elisa.Infer
