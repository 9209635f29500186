import Mathlib.Algebra.Field.Basic
import Mathlib.Tactic

/-!
# Composite parameters: expression trees, values and displayed names

Model of `CompositeParameter` (`/repo/src/elisa/models/parameter.py:847-1093`) and of the arithmetic
operators on parameters (`parameter.py:207-282`).

Simplifications: leaf names, operators and parentheses are tokens of the label (`render` gives the
text); custom operations (`op_symbol is None`) are unary with a template of the form `f({})`; values
live in an arbitrary field, `^` and the custom functions being arbitrary functions on it.
-/

namespace Elisa.Models.Label

/-- The five operator symbols, parameter.py:895-896. -/
inductive BinOp where
  | add | sub | mul | div | pow
deriving DecidableEq, Repr

/-- A parameter: a leaf (any non-composite parameter) or a composite, each with its object id
(`Parameter._id`, parameter.py:119). -/
inductive PExpr where
  | leaf (id : Nat)
  | bin (id : Nat) (op : BinOp) (lhs rhs : PExpr)
  | call (id : Nat) (f : String) (arg : PExpr)
deriving Repr, DecidableEq

/-- Tokens of a displayed name (parameter.py:940-1022). -/
inductive Tok where
  | name (s : String)
  | op (o : BinOp)
  | lp
  | rp
deriving DecidableEq, Repr

/-- `isinstance(p, CompositeParameter)` (parameter.py:940-1022). -/
def PExpr.isComposite : PExpr → Bool
  | .leaf _ => false
  | _ => true

/-- `isinstance(p, CompositeParameter) and p._op_symbol not in {'*', '/', '^'}`
(parameter.py:961-963 and the same test at 969-971, 976-978, 984-986). -/
def PExpr.needsParen : PExpr → Bool
  | .leaf _ => false
  | .call .. => true
  | .bin _ op _ _ => match op with
    | .add => true
    | .sub => true
    | .mul => false
    | .div => false
    | .pow => false

/-- `'({})'.format(s)` or `'{}'.format(s)` (parameter.py:940-1022). -/
def wrap (b : Bool) (ts : List Tok) : List Tok := if b then .lp :: ts ++ [.rp] else ts

/-- `CompositeParameter._id_to_label(mapping, 'name')`, parameter.py:940-1021, and
`Parameter._id_to_label`, parameter.py:123-132: a composite whose own id is in the mapping prints
as that name; otherwise the sub-labels are parenthesised according to the operator and joined.
`leafName` is the mapping on leaves (always present, a `KeyError` otherwise), `compName` the
mapping on composites. -/
def label (leafName : Nat → String) (compName : Nat → Option String) : PExpr → List Tok
  | .leaf id => [.name (leafName id)]
  | .call id f a =>
    match compName id with
    | some s => [.name s]
    | none => .name f :: .lp :: wrap a.isComposite (label leafName compName a) ++ [.rp]
  | .bin id op l r =>
    match compName id with
    | some s => [.name s]
    | none =>
      let ll := label leafName compName l
      let lr := label leafName compName r
      match op with
      | .add => ll ++ .op .add :: lr
      | .sub => ll ++ .op .sub :: wrap r.needsParen lr
      | .mul => wrap l.needsParen ll ++ .op .mul :: wrap r.needsParen lr
      | .div => wrap l.needsParen ll ++ .op .div :: wrap true lr
      | .pow => wrap l.isComposite ll ++ .op .pow :: wrap r.isComposite lr

/-- The text of a token; templates `'{} + {}'` … `'{}^{}'` of parameter.py:253-272. -/
def Tok.text : Tok → String
  | .name s => s
  | .op .add => " + "
  | .op .sub => " - "
  | .op .mul => " * "
  | .op .div => " / "
  | .op .pow => "^"
  | .lp => "("
  | .rp => ")"

/-- The displayed name (parameter.py:940-1022). -/
def render (ts : List Tok) : String := String.join (ts.map Tok.text)

section
variable {K : Type} [Add K] [Sub K] [Mul K] [Div K]

/-- The operations `jnp.add` … `jnp.power` of parameter.py:253-270; `pw` stands for `jnp.power`. -/
def applyOp (pw : K → K → K) : BinOp → K → K → K
  | .add, a, b => a + b
  | .sub, a, b => a - b
  | .mul, a, b => a * b
  | .div, a, b => a / b
  | .pow, a, b => pw a b

/-- Value of a parameter given the values of its leaves: `self._op(*[fn(mapping) for fn in fns])`,
parameter.py:1023-1031. `fn f` is the custom function shown as `f`. -/
def value (pw : K → K → K) (fn : String → K → K) (v : Nat → K) : PExpr → K
  | .leaf id => v id
  | .bin _ op l r => applyOp pw op (value pw fn v l) (value pw fn v r)
  | .call _ f a => fn f (value pw fn v a)

end

end Elisa.Models.Label
