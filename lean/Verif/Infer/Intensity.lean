import Verif.Infer.Params
import Verif.Infer.Profile
import Mathlib.Analysis.SpecialFunctions.Log.Basic

/-!
# Model of the intensities of a fit: `MLEResult.flux`, `lumin`, `eiso` (results.py:91-101, 839-1056)

`P` is the type of parameter dictionaries.  The covariance of a function (`covar`, C75), the profile-likelihood search
(`_ci_fn`, C73) and the quantiles of a list (C48) are parameters of the model; the conversion of units is a
multiplication by a constant.  Not modelled: JAX, rounding, units.
-/

namespace Elisa.Infer

open Elisa

/-- One step of the loop of results.py:93-97: `mapping[model]` is created or extended. -/
def addToGroup (g : List (Nat × List String)) (d : String × Nat) : List (Nat × List String) :=
  match g with
  | [] => [(d.2, [d.1])]
  | (m, v) :: g => if m = d.2 then (m, v ++ [d.1]) :: g else (m, v) :: addToGroup g d

/-- The datasets of each distinct model (results.py:91-97); datasets come with the identity of their model. -/
def modelGroups (ds : List (String × Nat)) : List (Nat × List String) := ds.foldl addToGroup []

/-- `_model_mapping` (results.py:98): every dataset is mapped to the first one with the same model. -/
def modelMapping (ds : List (String × Nat)) : List (String × String) :=
  (modelGroups ds).flatMap fun g => g.2.map fun d => (d, g.2.headD "")

/-- The parts of the fit result that the intensities are computed from (results.py:921-1056). -/
structure IntensityEngine (P : Type) where
  /-- `{k: v[0] for k, v in self._mle.items()}` (results.py:957) -/
  mle : P
  /-- `mle_params |= params` (results.py:958-959); `none` when `params` is not given -/
  override : Option (P → P)
  /-- `np.sqrt(self.covar(params=(), fn=..., method='hess').matrix[k, k])` (results.py:989-990) -/
  se : (P → ℝ) → ℝ
  /-- `self._ci_fn(fn, cl, rtol)` for one function (results.py:1002) -/
  profile : (P → ℝ) → ℝ × ℝ
  /-- the bootstrap parameters (results.py:856) -/
  samples : List P
  /-- `np.quantile(v, q)` (results.py:906) -/
  quantile : List ℝ → ℝ × ℝ
  /-- `converter` and the unit (results.py:1033-1037): a constant factor -/
  factor : ℝ

variable {P : Type}

/-- the override, or nothing (results.py:921-1056). -/
def IntensityEngine.over (E : IntensityEngine P) (p : P) : P := (E.override.getD id) p

/-- The method of `_intensity_ci` (results.py:921-1056). -/
inductive CiMethod where
  | profile | boot
deriving DecidableEq

/-- The interval of one function (results.py:992-1006). -/
noncomputable def IntensityEngine.interval (E : IntensityEngine P) (method : CiMethod) (f : P → ℝ) : ℝ × ℝ :=
  match method with
  | .profile =>
    let i := E.profile fun p => Real.log (f p)
    (Real.exp i.1, Real.exp i.2)
  | .boot => E.quantile (E.samples.map fun p => f (E.over p))

/-- What is reported for one dataset or component (results.py:1039-1056). -/
structure Intensity where
  mle : ℝ
  se : ℝ
  interval : ℝ × ℝ
  errors : ℝ × ℝ

/-- results.py:1039-1056 for one flux at the best fit, standard error and interval. -/
def IntensityEngine.report (E : IntensityEngine P) (x se : ℝ) (y : ℝ × ℝ) : Intensity :=
  ⟨x * E.factor, se * E.factor, (y.1 * E.factor, y.2 * E.factor), ((y.1 - x) * E.factor, (y.2 - x) * E.factor)⟩

/-- One entry of the result: the interval and the standard error are looked up under `key` (results.py:1012-1021,
1039-1040). -/
def IntensityEngine.entry (E : IntensityEngine P) (intervals : List (String × ℝ × ℝ)) (se : List (String × ℝ))
    (key label : String) (x : ℝ) : Except PyErr (String × Intensity) := do
  let s ← dictGet se key
  let i ← dictGet intervals key
  return (label, E.report x s i)

/-- `_intensity_ci(..., comps=False)` (results.py:921-1056): `flux d` is the flux of the model of dataset `d`. -/
noncomputable def intensity (E : IntensityEngine P) (method : CiMethod) (ds : List (String × Nat))
    (flux : String → P → ℝ) : Except PyErr (List (String × Intensity)) :=
  let fnDic := dictOf ((modelMapping ds).map fun kv => (kv.2, flux kv.2))
  let se := fnDic.map fun kf => (kf.1, E.se kf.2)
  let intervals := fnDic.map fun kf => (kf.1, E.interval method kf.2)
  (modelMapping ds).mapM fun kv => E.entry intervals se kv.2 kv.1 (flux kv.1 (E.over E.mle))

/-- `f'{d}_{c}'` (results.py:972, 1013, 1017) -/
def compKey (d c : String) : String := d ++ "_" ++ c

/-- `_intensity_ci(..., comps=True)` (results.py:921-1056): `flux d c` is the flux of component `c` of the model of dataset
`d`, whose components are `comps d`. -/
noncomputable def intensityComps (E : IntensityEngine P) (method : CiMethod) (ds : List (String × Nat))
    (comps : String → List String) (flux : String → String → P → ℝ) :
    Except PyErr (List (String × List (String × Intensity))) :=
  let fnDic := dictOf ((modelMapping ds).flatMap fun kv => (comps kv.2).map fun c => (compKey kv.2 c, flux kv.2 c))
  let se := fnDic.map fun kf => (kf.1, E.se kf.2)
  let intervals := fnDic.map fun kf => (kf.1, E.interval method kf.2)
  (modelMapping ds).mapM fun kv => do
    let cs ← (comps kv.2).mapM fun c =>
      E.entry intervals se (compKey kv.2 c) c (flux kv.1 c (E.over E.mle))
    return (kv.1, cs)

/-- The names in `status['dist']` for `comps=False` and the bootstrap (results.py:868-904): the parameters, and the
datasets that were evaluated; all values are converted to the unit of the intensity (results.py:1046). -/
def distNames (params : List String) (ds : List (String × Nat)) : List String :=
  (dictOf ((params ++ (modelMapping ds).map (·.2)).map fun k => (k, ()))).map (·.1)

end Elisa.Infer
