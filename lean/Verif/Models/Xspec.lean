import Verif.Np
import Verif.Models.Spectra

/-!
# Components of the XSPEC library

Model of `/repo/src/elisa/models/xs.py`: the generated parameter configuration (394-501), the evaluation of additive and multiplicative
components (132-176), the cached evaluation function, and convolution on an extended energy grid (179-250).

The XSPEC functions themselves are parameters.  Numbers printed into the generated source are read back unchanged (`repr` of floats).
-/

namespace Elisa.Models.Xspec

open Elisa Elisa.Models.Spectra

/-- What XSPEC says about a parameter (`XspecParamInfo`) (xs.py:439-467). -/
structure XParam where
  name : String
  default : ℝ
  unit : Option String
  min : Option ℝ
  max : Option ℝ
  fixed : Bool

/-- `ParamConfig` of the generated class (xs.py:331-408). -/
structure Config where
  name : String
  unit : String
  default : ℝ
  min : ℝ
  max : ℝ
  fixed : Bool

/-- `keyword.kwlist` of Python 3 (xs.py:439-467). -/
def keywords : List String :=
  ["False", "None", "True", "and", "as", "assert", "async", "await", "break", "class", "continue", "def", "del", "elif", "else", "except",
   "finally", "for", "from", "global", "if", "import", "in", "is", "lambda", "nonlocal", "not", "or", "pass", "raise", "return", "try",
   "while", "with", "yield"]

/-- `name.replace('.', '_')`, then an underscore after a keyword (xs.py:448-453). -/
def slotName (s : String) : String :=
  let n := String.ofList (s.toList.map fun c => if c = '.' then '_' else c)
  if n ∈ keywords then n ++ "_" else n

/-- `gen_param_config` (xs.py:439-467). -/
noncomputable def genConfig (p : XParam) : Config :=
  ⟨slotName p.name, p.unit.getD "", p.default, p.min.getD (-1), p.max.getD 1e10, p.fixed⟩

/-- `norm_config` (xs.py:429-437). -/
noncomputable def normConfig : Config := ⟨"norm", "", 1, 1e-10, 1e10, false⟩

/-- Kinds of models (xs.py:478-488). -/
inductive Kind where
  | add | mul | con | other
deriving DecidableEq

/-- The `_config` of the generated class (xs.py:477-491); `none` is the `ValueError` for other kinds of models. -/
noncomputable def classConfig (kind : Kind) (ps : List XParam) : Option (List Config) :=
  match kind with
  | .add => some (ps.map genConfig ++ [normConfig])
  | .mul => some (ps.map genConfig)
  | .con => some (ps.map genConfig)
  | .other => none

/-- `_supported` of a convolution (xs.py:382, 485). -/
def supports (name : String) (add : Bool) : Bool :=
  if name ∈ ["partcov", "vmshift", "zmshift"] then !add else add

/-- `_integral` of an additive component (xs.py:331-352): the function of XSPEC at the values of the slots not called `norm`. -/
def addIntegral {E S : Type} (cfg : List Config) (f : List ℝ → E → S) (egrid : E) (slot : String → ℝ) : S :=
  f (((cfg.map Config.name).filter fun n => n ≠ "norm").map slot) egrid

/-- `eval` of an additive component (xs.py:145-157). -/
def addEval (cfg : List Config) (f : List ℝ → List ℝ → List ℝ) (egrid : List ℝ) (slot : String → ℝ) : List ℝ :=
  (addIntegral cfg f egrid slot).map fun v => slot "norm" * v

/-- `eval` of a multiplicative component (xs.py:170-177, 355-376). -/
def mulEval {E S : Type} (cfg : List Config) (f : List ℝ → E → S) (egrid : E) (slot : String → ℝ) : S :=
  f ((cfg.map Config.name).map slot) egrid

/-! ## The derivative method -/

/-- `_grad_method` and the cached `_eval` (which has the method built in) (xs.py:102-133). -/
structure Grad where
  method : String
  cached : Option String

/-- `grad_method.setter` (xs.py:122-132). -/
def Grad.set (g : Grad) (v : Option String) : Except PyErr Grad :=
  let m := v.getD "central"
  if m ∈ ["central", "forward"] then .ok { g with method := m } else .error .valueError

/-- `eval` (xs.py:145-157, 170-177): the derivative method of the function returned, and the new state. -/
def Grad.eval (g : Grad) : String × Grad :=
  match g.cached with
  | some m => (m, g)
  | none => (g.method, { g with cached := some g.method })

/-! ## Convolutions -/

/-- Settings of the extension (xs.py:266-312). -/
structure Extension where
  low : ℝ
  nlow : ℕ
  lowLog : Bool
  high : ℝ
  nhigh : ℕ
  highLog : Bool

/-- `np.geomspace` or `np.linspace` (xs.py:211-235). -/
noncomputable def grid (lg : Bool) (a b : ℝ) (n : ℕ) : List ℝ := bandGrid a b n lg

/-- `extend_low` (xs.py:211-222) on a grid `e :: es`. -/
noncomputable def extendLow (x : Extension) (e : ℝ) (es : List ℝ) : Except PyErr (List ℝ) :=
  if e < x.low then .error .runtimeError else .ok ((grid x.lowLog x.low e (x.nlow + 1)).dropLast ++ e :: es)

/-- `extend_high` (xs.py:224-235). -/
noncomputable def extendHigh (x : Extension) (g : List ℝ) : Except PyErr (List ℝ) :=
  let last := g.getLastD 0
  if last > x.high then .error .runtimeError else .ok (g ++ (grid x.highLog last x.high (x.nhigh + 1)).tail)

/-- `xs[i:-k]` for non-negative `i`, `k`: with `k = 0` the stop is 0 (xs.py:200-249). -/
def sliceNeg {A : Type} (xs : List A) (i k : ℕ) : List A := (xs.take (if k = 0 then 0 else xs.length - k)).drop i

/-- `XspecConvolvedModel.eval` (xs.py:199-249): `model` the spectrum convolved, `conv` the convolution. -/
noncomputable def convolved (x : Extension) (conv : List ℝ → List ℝ → List ℝ) (model : ModelFn) : List ℝ → Except PyErr (List ℝ)
  | [] => .error .indexError
  | e :: es => do
    let g ← extendLow x e es
    let g ← extendHigh x g
    .ok (sliceNeg (conv g (model g)) x.nlow x.nhigh)

/-- The settings left out (xs.py:282-310). -/
noncomputable def defaults : Extension := ⟨0.01, 100, true, 100, 100, true⟩

end Elisa.Models.Xspec
