import Mathlib.Analysis.SpecialFunctions.Pow.Real
import Mathlib.Algebra.BigOperators.Fin

/-!
# Model of the numerical gradient of Python components (`util/misc.py:237-305`, `models/model.py:2003-2110`)

One output bin of a component on a fixed energy grid is a function of the `n` scalar parameters.  Real arithmetic
stands for floating point; `eps` is the machine epsilon of the grid's type, any positive number here.
-/

namespace Elisa.Util

/-- The two supported differentiation methods (`util/misc.py:239`). -/
inductive FdMethod where
  | central
  | forward
  deriving DecidableEq

/-- The check of `define_fdjvp` and of the `grad_method` setters (`util/misc.py:242-246`,
`models/model.py:2023-2033`): `None` means central, unknown names raise. -/
def parseMethod (s : Option String) : Except String FdMethod :=
  match s with
  | none => .ok .central
  | some "central" => .ok .central
  | some "forward" => .ok .forward
  | some _ => .error "supported methods are 'central' and 'forward'"

/-- `free_params_abs` (`util/misc.py:274-278`): the magnitude of the parameter, or one at zero. -/
noncomputable def fdMagnitude (p : ℝ) : ℝ := if p = 0 then 1 else |p|

/-- `perturb` (`util/misc.py:290`, `298`). -/
noncomputable def fdStep (m : FdMethod) (eps p : ℝ) : ℝ :=
  match m with
  | .central => fdMagnitude p * eps ^ ((1 : ℝ) / 3)
  | .forward => fdMagnitude p * Real.sqrt eps

/-- `d_out[i]` (`util/misc.py:289-301`): the difference quotient in parameter `i`; `params_batch ± perturb_idx *
perturb` changes parameter `i` only. -/
noncomputable def fdDeriv {n : ℕ} (m : FdMethod) (eps : ℝ) (f : (Fin n → ℝ) → ℝ) (p : Fin n → ℝ) (i : Fin n) : ℝ :=
  let h := fdStep m eps (p i)
  match m with
  | .central => (f (Function.update p i (p i + h)) - f (Function.update p i (p i - h))) / (2 * h)
  | .forward => (f (Function.update p i (p i + h)) - f p) / h

/-- `fdjvp` (`util/misc.py:248-300`) on one output bin: the value and its directional derivative.  A tangent `none` is
JAX's symbolic zero; such parameters are not perturbed at all.  Energy-grid tangents (rejected by the code) and
non-scalar parameters (rejected) are not represented. -/
noncomputable def fdjvp {n : ℕ} (m : FdMethod) (eps : ℝ) (f : (Fin n → ℝ) → ℝ) (p : Fin n → ℝ)
    (t : Fin n → Option ℝ) : ℝ × ℝ :=
  (f p, ∑ i : Fin n, match t i with
    | none => 0
    | some ti => ti * fdDeriv m eps f p i)

/-- The gradient state of a `PyAnaInt` / `PyNumInt` component (`models/model.py:2003-2033`, `2036-2065`, `2068-2108`): the
method attribute and the method baked into the compiled function, if `eval` was ever accessed. -/
structure PyComp where
  method : FdMethod
  compiled : Option FdMethod

/-- What a user does with the component (model.py:2003-2108). -/
inductive PyOp where
  | setMethod (m : FdMethod)
  | eval

/-- One step: the setter stores the method; `eval` compiles on first access only and returns the cached function
afterwards (`models/model.py:2041`, `2063`, `2087`, `2105`). -/
def PyComp.step (c : PyComp) : PyOp → PyComp
  | .setMethod m => { c with method := m }
  | .eval => match c.compiled with
      | some _ => c
      | none => { c with compiled := some c.method }

/-- The state after construction with a method and a list of operations (model.py:2003-2108). -/
def PyComp.run (m : FdMethod) (ops : List PyOp) : PyComp := ops.foldl PyComp.step ⟨m, none⟩

/-- The differentiation method of the function `eval` would return now (model.py:2040-2065, 2084-2108). -/
def PyComp.used (c : PyComp) : FdMethod := c.compiled.getD c.method

end Elisa.Util
