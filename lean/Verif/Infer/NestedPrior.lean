import Verif.Np
import Mathlib.Analysis.SpecialFunctions.Log.Basic
import Mathlib.Data.List.Sort

/-!
# Model of the unit-cube reparametrisation used by the nested samplers (`infer/samplers/util.py:119-350`)

Real arithmetic stands for floating point.  The distributions are the ones the function dispatches on, for scalar
sites; `MultivariateNormal` and `Dirichlet` (which raises) are not modelled.
-/

namespace Elisa.Infer

/-- The prior of one scalar parameter, as far as `uniform_reparam_transform` distinguishes them
(`infer/samplers/util.py:154-215`).  `other` is any distribution with an `icdf` method of its own. -/
inductive Prior where
  /-- `dist.Uniform(low, high)`, whose `icdf` is `low + q * (high - low)`. -/
  | uniform (lo hi : ℝ)
  | other (icdf : ℝ → ℝ)
  /-- `dist.TransformedDistribution(base, transforms)`. -/
  | transformed (base : Prior) (fs : List (ℝ → ℝ))
  /-- `Independent`, `ExpandedDistribution` or `MaskedDistribution` around a base. -/
  | wrapped (base : Prior)
  | bernoulli (p : ℝ)
  | categorical (ps : List ℝ)

/-- `dist.LogUniform(low, high)`: numpyro's transformed distribution `exp` of `Uniform(log low, log high)` (parameter.py:555-562, samplers/util.py:200-208). -/
noncomputable def Prior.logUniform (lo hi : ℝ) : Prior :=
  .transformed (.uniform (Real.log lo) (Real.log hi)) [Real.exp]

/-- The default prior of a `UniformParameter` (`models/parameter.py:555-562`, `652-659`). -/
noncomputable def defaultPrior (log : Bool) (lo hi : ℝ) : Prior :=
  if log then Prior.logUniform lo hi else .uniform lo hi

/-- `uniform_reparam_transform` (`infer/samplers/util.py:163-185`) applied to a cube coordinate `q`;
`ComposeTransform` applies the parts in order. -/
noncomputable def Prior.fromCube : Prior → ℝ → ℝ
  | .uniform lo hi, q => lo + q * (hi - lo)
  | .other icdf, q => icdf q
  | .transformed base fs, q => fs.foldl (fun x f => f x) (base.fromCube q)
  | .wrapped base, q => base.fromCube q
  | .bernoulli p, q => if q < p then 1 else 0
  | .categorical ps, q => (((cumsum ps).filter (fun c => c < q)).length : ℝ)

/-- Numerical type of a parameter's samples (samplers/util.py:31-66). -/
inductive SampleType where
  | float
  | int
  deriving DecidableEq

/-- The sample type numpyro gives a prior (samplers/util.py:68-120). -/
def Prior.sampleType : Prior → SampleType
  | .bernoulli _ => .int
  | .categorical _ => .int
  | .wrapped base => base.sampleType
  | _ => .float

/-- The cube built by `uniform_reparam_model` (`infer/samplers/util.py:277-281`) has each parameter's *own* sample type,
so `unravel` converts the sampler's coordinate to that type: integers lose their fraction. -/
noncomputable def unravelCoord (d : Prior) (q : ℝ) : ℝ :=
  match d.sampleType with
  | .float => q
  | .int => (⌊q⌋ : ℝ)

/-- A nested sampler's parameter vector for a cube point when every parameter is float-valued
(`infer/samplers/util.py:294-310`): each site is mapped through its own transform. -/
noncomputable def paramsFromCube {n : ℕ} (ds : Fin n → Prior) (q : Fin n → ℝ) : Fin n → ℝ :=
  fun i => (ds i).fromCube (unravelCoord (ds i) (q i))

/-- `log_prob_fn` of the reparametrised model (`infer/samplers/util.py:294-299`): the cube sites are masked, so only the
observed sites count: the log-likelihood at the mapped parameters. -/
noncomputable def nestedLogLike {n : ℕ} (ds : Fin n → Prior) (logL : (Fin n → ℝ) → ℝ) (q : Fin n → ℝ) : ℝ :=
  logL (paramsFromCube ds q)

/-- `ravel_pytree` of the cube dictionary orders the entries by key, while UltraNest is given the names in trace order
(`infer/samplers/util.py:277-279`, `infer/samplers/ns/ultranest.py:75-79`): the pairs (label, coordinate). -/
def ultranestLabels (names : List String) : List (String × String) :=
  (names.map (fun n => "u_" ++ n)).zip ((names.map (fun n => "u_" ++ n)).insertionSort (fun a b => a.toList ≤ b.toList))

end Elisa.Infer
