import Mathlib.Analysis.SpecialFunctions.Integrals.Basic
import Mathlib.Tactic

/-!
# Interval parameters

Model of `make_integral_factory` (`/repo/src/elisa/util/integrate.py:35-109`), of the fold over
`model_info.integrate` in `Model._compile_model_fn` (`/repo/src/elisa/models/model.py:210-219`) and of
`ConstantInterval.default` (`/repo/src/elisa/models/parameter.py:793-803`).

Simplifications: exact real numbers; the value of the model in one energy bin (the grid is fixed, and
quadrature of an array is taken element by element); the adaptive quadrature of the `quadax` library
is the argument `quad`, and the theorems say which facts about it they need.
-/

namespace Elisa.Models.Interval

/-- `ParamIDValMapping` (util/typing.py:58). -/
abbrev Env := ℕ → ℝ

/-- A compiled model function on one bin (util/typing.py:65). -/
abbrev CompiledFn := Env → ℝ

/-- `quad(integrand, interval, args)[0]` (util/integrate.py:34-105). -/
abbrev Quad := (ℝ → ℝ) → ℝ → ℝ → ℝ

/-- `params[param_id] = value`, integrate.py:95. -/
def setParam (params : Env) (pid : ℕ) (value : ℝ) : Env := Function.update params pid value

/-- `integral_factory(model_fn)`, integrate.py:83-103. -/
noncomputable def integralFactory (quad : Quad) (pid : ℕ) (a b : ℝ) (modelFn : CompiledFn) : CompiledFn := fun params =>
  quad (fun value => modelFn (setParam params pid value)) a b / (b - a)

/-- An entry of `model_info.integrate`: parameter id and interval (model.py:2376-2425). -/
structure Entry where
  pid : ℕ
  a : ℝ
  b : ℝ

/-- `for integrate in model_info.integrate.values(): fn = jax.jit(integrate(fn))`, model.py:216-217. -/
noncomputable def compileFn (quad : Quad) (integrate : List Entry) (fn : CompiledFn) : CompiledFn :=
  integrate.foldl (fun fn e => integralFactory quad e.pid e.a e.b fn) fn

/-- `ConstantInterval.default` setter, parameter.py:798-803: the shape check. -/
def checkInterval (default : List ℝ) : Except String (ℝ × ℝ) :=
  match default with
  | [a, b] => .ok (a, b)
  | _ => .error "interval must be a 2-element sequence"

end Elisa.Models.Interval
