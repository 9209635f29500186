import Verif.Infer.Summary

/-!
# Model of the intensities of a posterior: `PosteriorResult.flux`, `lumin`, `eiso` (`src/elisa/infer/results.py:67-90, 1660-1790, 1850-1863, 1920-1940, 2008-2030`)

A draw is the values of all parameters by name; the flux of a model is a function of a draw.  Not modelled: JAX, rounding, units (a conversion is a multiplication by a constant).
-/

namespace Elisa.Infer.PostIntensity

open Elisa Elisa.Infer Elisa.Infer.Summary

/-- The values of the parameters (results.py:1724-1789). -/
abbrev Values := String → ℝ

/-- `params | params_setting` (results.py:1693-1699): a value given by the user replaces the value in every draw. -/
def override (setting : List (String × ℝ)) (v : Values) : Values := fun k => (setting.lookup k).getD (v k)

/-- What is reported about one dataset or component (results.py:1781-1790). -/
structure Report where
  mean : ℝ
  std : ℝ
  median : ℝ
  interval : ℝ × ℝ
  errors : ℝ × ℝ
  dist : List ℝ

/-- NaN (no draws) does not occur: the median of no draws raises before (results.py:1711). -/
noncomputable def orRaise : Option ℝ → Except PyErr ℝ
  | some x => .ok x
  | none => .error .indexError

/-- `_intensity_ci` for one leaf of the tree of fluxes (results.py:1755-1790): the statistics of `_ci_fn` (results.py:1701-1722), errors relative to the median, everything converted. -/
noncomputable def leaf (cl : ℝ) (useHdi : Bool) (factor : ℝ) (setting : List (String × ℝ)) (draws : List Values) (f : Values → ℝ) : Except PyErr Report := do
  let c ← ciFn cl useHdi (fun v => f (override setting v)) draws
  let m ← orRaise (Summary.mean [draws.map fun v => f (override setting v)])
  let s ← orRaise (fnStd [draws.map fun v => f (override setting v)])
  return ⟨m * factor, s * factor, c.median * factor, (c.interval.1 * factor, c.interval.2 * factor), (c.errors.1 * factor, c.errors.2 * factor),
    (draws.map fun v => f (override setting v)).map (· * factor)⟩

/-- All datasets, `comps=False` (results.py:80-88, 1760-1764). -/
noncomputable def totals (cl : ℝ) (useHdi : Bool) (factor : ℝ) (setting : List (String × ℝ)) (draws : List Values) (models : List (String × (Values → ℝ))) :
    Except PyErr (List (String × Report)) :=
  models.mapM fun m => do
    let r ← leaf cl useHdi factor setting draws m.2
    return (m.1, r)

/-- All components of a model, `comps=True` (results.py:82-86, model.py:464-473): `RuntimeError` for a model with fewer than two additive components. -/
noncomputable def modelComps (cl : ℝ) (useHdi : Bool) (factor : ℝ) (setting : List (String × ℝ)) (draws : List Values) (cs : List (String × (Values → ℝ))) :
    Except PyErr (List (String × Report)) :=
  if cs.length ≤ 1 then .error .runtimeError else totals cl useHdi factor setting draws cs

/-- All datasets, `comps=True` (results.py:1724-1789). -/
noncomputable def components (cl : ℝ) (useHdi : Bool) (factor : ℝ) (setting : List (String × ℝ)) (draws : List Values)
    (models : List (String × List (String × (Values → ℝ)))) : Except PyErr (List (String × List (String × Report))) :=
  models.mapM fun m => do
    let r ← modelComps cl useHdi factor setting draws m.2
    return (m.1, r)

end Elisa.Infer.PostIntensity
