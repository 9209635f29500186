import Mathlib.Data.Rat.Floor
import Mathlib.Tactic

/-!
# Bounded parameters (`UniformParameter`, `DistParameter`)

Model of the attribute state machine of `/repo/src/elisa/models/parameter.py:326-658`.

Values are IEEE-like: NaN, the two infinities and finite rationals (every finite double is a
rational).  Every arithmetic result goes through a rounding function `rnd : ℚ → ℚ`; `rnd = id` is
exact arithmetic, and the theorems say which of their conclusions depend on the rounding.
Overflow of a finite result to an infinity is not modelled.  Warnings are not modelled.
-/

namespace Elisa.Models

/-- A floating point scalar as stored by `jnp.asarray(x, float)` (parameter.py:587-602). -/
inductive Val where
  | nan
  | ninf
  | fin (r : ℚ)
  | pinf
deriving DecidableEq, Repr

namespace Val

/-- `a < b`; every comparison with NaN is false (float arithmetic, parameter.py:579-659). -/
def lt : Val → Val → Bool
  | fin a, fin b => decide (a < b)
  | ninf, fin _ => true
  | ninf, pinf => true
  | fin _, pinf => true
  | _, _ => false

/-- `a == b` on floats (NaN is not equal to itself) (float arithmetic, parameter.py:579-659). -/
def eq : Val → Val → Bool
  | fin a, fin b => decide (a = b)
  | ninf, ninf => true
  | pinf, pinf => true
  | _, _ => false

/-- `a <= b` (float arithmetic, parameter.py:579-659). -/
def le (a b : Val) : Bool := lt a b || eq a b

/-- `a + b` (float arithmetic, parameter.py:579-659). -/
def add (rnd : ℚ → ℚ) : Val → Val → Val
  | nan, _ => nan
  | _, nan => nan
  | fin a, fin b => fin (rnd (a + b))
  | fin _, pinf => pinf
  | fin _, ninf => ninf
  | pinf, fin _ => pinf
  | ninf, fin _ => ninf
  | pinf, pinf => pinf
  | ninf, ninf => ninf
  | pinf, ninf => nan
  | ninf, pinf => nan

/-- `-a` (float arithmetic, parameter.py:579-659). -/
def neg : Val → Val
  | nan => nan
  | ninf => pinf
  | pinf => ninf
  | fin a => fin (-a)

/-- `a - b` (float arithmetic, parameter.py:579-659). -/
def sub (rnd : ℚ → ℚ) (a b : Val) : Val := add rnd a (neg b)

/-- `c * a` for a positive finite constant `c` (float arithmetic, parameter.py:579-659). -/
def smulPos (rnd : ℚ → ℚ) (c : ℚ) : Val → Val
  | nan => nan
  | ninf => ninf
  | pinf => pinf
  | fin a => fin (rnd (c * a))

/-- The value is an ordinary finite number (specification, models no code). -/
def IsFin (v : Val) : Prop := ∃ r, v = fin r

end Val

/-- The constant `1e-10` of parameter.py:626, 636. -/
def eps : ℚ := 1 / 10000000000

/-- The numpyro distribution attached to a parameter: `LogUniform(min, max)` or
`Uniform(min, max)` (parameter.py:654-658). -/
structure Prior where
  log : Bool
  lo : Val
  hi : Val
deriving DecidableEq, Repr

/-- Observable state of a `UniformParameter` (parameter.py:475-500): `default`, `min`, `max`, `log`,
`fixed` and the prior distribution. Name and LaTeX are not modelled. -/
structure UParam where
  default : Val
  min : Val
  max : Val
  log : Bool
  fixed : Bool
  prior : Prior
deriving DecidableEq, Repr

/-- The `ValueError`s of `_check_and_set_values` (parameter.py:609-623) and of the constructor. -/
inductive PErr where
  | logMin      -- 'min must be positive for log uniform'
  | minMax      -- 'min must be less than max'
  | below       -- 'default must be greater than min'
  | above       -- 'default must be less than max'
  | support     -- 'default should be within the prior support'
deriving DecidableEq, Repr

/-- The range checks, parameter.py:609-623, in program order. -/
def rangeError (log : Bool) (d lo hi : Val) : Option PErr :=
  if Val.le lo (.fin 0) && log then some .logMin
  else if Val.le hi lo then some .minMax
  else if Val.lt d lo then some .below
  else if Val.lt hi d then some .above
  else none

/-- The reset of a default equal to `min`, parameter.py:625-633. -/
def nudgeLo (rnd : ℚ → ℚ) (fixed : Bool) (d lo hi : Val) : Val :=
  if Val.eq d lo && !fixed then
    Val.add rnd lo (Val.smulPos rnd eps (Val.sub rnd hi lo))
  else d

/-- The reset of a default equal to `max`, parameter.py:635-643. -/
def nudgeHi (rnd : ℚ → ℚ) (fixed : Bool) (d lo hi : Val) : Val :=
  if Val.eq d hi && !fixed then
    Val.sub rnd hi (Val.smulPos rnd eps (Val.sub rnd hi lo))
  else d

/-- Both resets in program order, parameter.py:625-643. -/
def nudge (rnd : ℚ → ℚ) (fixed : Bool) (d lo hi : Val) : Val :=
  nudgeHi rnd fixed (nudgeLo rnd fixed d lo hi) lo hi

/-- `_check_and_set_values(default, min, max)` on an existing parameter, parameter.py:579-658.
`none` is the Python `None`; the `fixed` argument is only passed by the constructor, see
`UParam.create`. Shape checks are not modelled (values are scalars). -/
def UParam.checkAndSet (rnd : ℚ → ℚ) (p : UParam) (d? lo? hi? : Option Val) : UParam × Option PErr :=
  let d := d?.getD p.default
  let lo := lo?.getD p.min
  let hi := hi?.getD p.max
  match rangeError p.log d lo hi with
  | some e => (p, some e)
  | none =>
    let d' := nudge rnd p.fixed d lo hi
    let p₁ := if d?.isSome then { p with default := d' } else p
    let p₂ := if lo?.isSome then { p₁ with min := lo } else p₁
    let p₃ := if hi?.isSome then { p₂ with max := hi } else p₂
    let p₄ := if lo?.isSome || hi?.isSome then { p₃ with prior := ⟨p₃.log, p₃.min, p₃.max⟩ } else p₃
    (p₄, none)

/-- `dist._validate_sample(default)` for a uniform prior: closed interval membership
(parameter.py:370, numpyro `constraints.interval`). -/
def Prior.contains (q : Prior) (v : Val) : Bool := Val.le q.lo v && Val.le v q.hi

/-- `UniformParameter(name, default, min, max, log, fixed)`, parameter.py:475-500: the first
`_check_and_set_values` call with an explicit `fixed`, the support check of
`DistParameter.__init__` (parameter.py:367-371), the raw assignments (parameter.py:373-392) and the
final `self.default = default` of `ParameterHelper.__init__` (parameter.py:300-301). -/
def UParam.create (rnd : ℚ → ℚ) (d lo hi : Val) (log fixed : Bool) : Except PErr UParam :=
  match rangeError log d lo hi with
  | some e => .error e
  | none =>
    let q : Prior := ⟨log, lo, hi⟩
    if !q.contains d then .error .support
    else
      let p : UParam := ⟨d, lo, hi, log, fixed, q⟩
      match p.checkAndSet rnd (some d) none none with
      | (p', none) => .ok p'
      | (_, some e) => .error e

/-- Attribute assignments a user can make on a `UniformParameter` (parameter.py:526-570). -/
inductive Cmd where
  | setDefault (v : Val)
  | setMin (v : Val)
  | setMax (v : Val)
  | setLog (b : Bool)
  | setFixed (b : Bool)
deriving DecidableEq, Repr

/-- One attribute assignment: the new state and the error raised, if any.
* `default`, `min`, `max`: parameter.py:525-545;
* `log`: parameter.py:552-561 (changes the prior, performs no check);
* `fixed`: parameter.py:567-570 (stores the flag, then re-checks and re-stores all three values). -/
def UParam.step (rnd : ℚ → ℚ) (p : UParam) : Cmd → UParam × Option PErr
  | .setDefault v => p.checkAndSet rnd (some v) none none
  | .setMin v => p.checkAndSet rnd none (some v) none
  | .setMax v => p.checkAndSet rnd none none (some v)
  | .setLog b =>
    if p.log ≠ b then ({ p with log := b, prior := ⟨b, p.min, p.max⟩ }, none) else (p, none)
  | .setFixed b =>
    UParam.checkAndSet rnd { p with fixed := b } (some p.default) (some p.min) (some p.max)

/-- A history of assignments: every exception is caught by the caller and the session goes on (a sequence of assignments, parameter.py:526-570). -/
def UParam.run (rnd : ℚ → ℚ) (p : UParam) : List Cmd → UParam
  | [] => p
  | c :: cs => UParam.run rnd (p.step rnd c).1 cs

/-! ## Parameters defined by an arbitrary prior -/

/-- `DistParameter` (parameter.py:352-417): default value, the support of the prior as a membership
test, `log` and `fixed` (both read-only). -/
structure DParam where
  default : Val
  support : Val → Bool
  log : Bool
  fixed : Bool

/-- Constructor, parameter.py:352-393 (the second check through the setter is the same test). -/
def DParam.create (support : Val → Bool) (d : Val) (log fixed : Bool) : Except PErr DParam :=
  if support d then .ok ⟨d, support, log, fixed⟩ else .error .support

/-- The `default` setter, parameter.py:399-407. -/
def DParam.setDefault (p : DParam) (d : Val) : DParam × Option PErr :=
  if p.support d then ({ p with default := d }, none) else (p, some .support)

end Elisa.Models
