import Verif.Np
import Mathlib.Algebra.Field.Basic
import Mathlib.Tactic

/-!
# Model expressions

Model of `CompositeModel`, `UniComponentModel`, `ConvolutionModel`, `ConvolvedModel`
(`/repo/src/elisa/models/model.py:1179-1331` and `1873-1959`) and of the evaluation functions built
by `Model._compile_model_fn` and `Model._compile_additive_fn` (`model.py:200-249`).

Simplifications: the parameter values of the components are part of the component functions; the
value of a model on an energy grid is a vector indexed by `ι` over a commutative ring.
-/

namespace Elisa.Models.Algebra

/-- Model types (model.py:170, 1200, 1330). -/
inductive MType where
  | add | mul | conv
deriving DecidableEq, Repr

/-- The two operators, model.py:1211-1250. -/
inductive Op where
  | plus | times
deriving DecidableEq, Repr

/-- A model object. Components are identified by their id; `convComp` is a convolution component
that is not applied yet, `convolved` is `component(model)` (model.py:57-84, 1179-1284, 1877-1924). -/
inductive Mod where
  | comp (id : Nat) (ty : MType)
  | bin (op : Op) (l r : Mod)
  | convolved (id : Nat) (m : Mod)
deriving DecidableEq, Repr

/-- `Model.type`: model.py:1199-1201 (component type; `ConvolutionModel` has type `'conv'`,
1894-1897), 1329-1331 with 1218 and 1236, 1956-1959. -/
def Mod.type : Mod → MType
  | .comp _ ty => ty
  | .bin .plus _ _ => .add
  | .bin .times l r => if l.type = .add ∨ r.type = .add then .add else .mul
  | .convolved _ m => m.type

/-- `CompositeModel.__init__`, type checks of model.py:1204-1240. -/
def mkBin (op : Op) (l r : Mod) : Except PyErr Mod :=
  match op with
  | .plus =>
    if l.type ≠ .add then .error .typeError
    else if r.type ≠ .add then .error .typeError
    else .ok (.bin .plus l r)
  | .times =>
    if l.type = .add ∧ r.type = .add then .error .typeError
    else if l.type = .conv ∨ r.type = .conv then .error .typeError
    else .ok (.bin .times l r)

/-- `ConvolutionModel.__call__`, model.py:1884-1892; `supported` is `component._supported`. -/
def mkConv (supported : MType → Bool) (id : Nat) (m : Mod) : Except PyErr Mod :=
  if supported m.type then .ok (.convolved id m) else .error .typeError

/-- What the user writes (model.py:293-303, 1884-1893). -/
inductive Expr where
  | comp (id : Nat) (ty : MType)
  | bin (op : Op) (l r : Expr)
  | call (id : Nat) (m : Expr)

/-- Evaluation of the user's expression by Python, operands first (model.py:293-303, 1213-1284, 1884-1924). -/
def build (sup : Nat → MType → Bool) : Expr → Except PyErr Mod
  | .comp id ty => .ok (.comp id ty)
  | .bin op l r =>
    match build sup l with
    | .error e => .error e
    | .ok a => match build sup r with
      | .error e => .error e
      | .ok b => mkBin op a b
  | .call id m =>
    match build sup m with
    | .error e => .error e
    | .ok a => mkConv (sup id) id a

/-- `for c in rhs._comps: if c not in comps: comps.append(c)`, model.py:1259-1262. -/
def appendNew (comps : List Nat) : List Nat → List Nat
  | [] => comps
  | c :: cs => appendNew (if c ∈ comps then comps else comps ++ [c]) cs

/-- `Model._comps` (ids): model.py:1184, 1259-1262, 1916-1918. -/
def Mod.comps : Mod → List Nat
  | .comp id _ => [id]
  | .bin _ l r => appendNew l.comps r.comps
  | .convolved id m => if id ∈ m.comps then m.comps else m.comps ++ [id]

section
variable {G ι K P : Type} [CommRing K]

/-- A component evaluation function: component value on a grid, given its own parameters; for a
convolution component, given the model function it acts on (`Component.eval`) (model.py:1599, 1974). -/
structure Lib (G ι K P : Type) where
  fn : Nat → G → P → ι → K
  conv : Nat → (G → ι → K) → G → P → ι → K

/-- `Model.eval`: model.py:1186-1197, 1270-1280, 1943-1954. `params` is the mapping from component
ids to their parameter values; a missing id is a `KeyError`. -/
def Mod.eval (lib : Lib G ι K P) (params : Nat → Option P) : Mod → G → Except PyErr (ι → K)
  | .comp id _, g => match params id with
    | none => .error .keyError
    | some p => .ok (lib.fn id g p)
  | .bin op l r, g => match l.eval lib params g with
    | .error e => .error e
    | .ok a => match r.eval lib params g with
      | .error e => .error e
      | .ok b => match op with
        | .plus => .ok (a + b)
        | .times => .ok (a * b)
  | .convolved id m, g => match params id with
    | none => .error .keyError
    | some p =>
      match m.eval lib params g with   -- raises if the model function raises
      | .error e => .error e
      | .ok _ => .ok (lib.conv id (fun e => match m.eval lib params e with | .ok v => v | .error _ => 0) g p)

/-- `_compile_model_fn`, model.py:202-219: only the parameters of the components in `_comps` are
handed to `eval`. (`integrate` is in `Verif.Models.Interval`.) -/
def Mod.compiled (lib : Lib G ι K P) (all : Nat → P) (m : Mod) (g : G) : Except PyErr (ι → K) :=
  m.eval lib (fun id => if id ∈ m.comps then some (all id) else none) g

/-- `_additive_comps`, model.py:172-177, 1282-1326 and 1922-1940. The products and convolutions are
built by the constructors `c * rhs`, `lhs * c`, `ConvolvedModel(op, m)`. -/
def Mod.additiveComps : Mod → List Mod
  | .comp id ty => if ty = .add then [.comp id ty] else []
  | .bin .plus l r => l.additiveComps ++ r.additiveComps
  | .bin .times l r =>
    if (Mod.bin .times l r).type ≠ .add then []
    else if l.type = .add then
      let cs := l.additiveComps
      if 2 ≤ cs.length then cs.map fun c => .bin .times c r else [.bin .times l r]
    else
      let cs := r.additiveComps
      if 2 ≤ cs.length then cs.map fun c => .bin .times l c else [.bin .times l r]
  | .convolved id m =>
    if m.type ≠ .add then []
    else
      let cs := m.additiveComps
      if 2 ≤ cs.length then cs.map fun c => .convolved id c else [.convolved id m]

/-- `isinstance(m, CompositeModel) and m._op_symbol == '+'`: parentheses around the label of a sum, model.py:1248-1256. -/
def parenSum (o c : String) (m : Mod) (s : String) : String := match m with
  | .bin .plus _ _ => o ++ s ++ c
  | .bin .times _ _ => s
  | .comp _ _ => s
  | .convolved _ _ => s

/-- Component label, model.py:1211-1257, 1913-1914 and 1184: braces around operands, parentheses
around sums in products. `name` is `cid_to_latex`. -/
def Mod.latex (name : Nat → String) : Mod → String
  | .comp id _ => name id
  | .bin .plus l r => "{" ++ l.latex name ++ "} + {" ++ r.latex name ++ "}"
  | .bin .times l r => "{" ++ parenSum "\\left(" "\\right)" l (l.latex name) ++ "} \\times {" ++ parenSum "\\left(" "\\right)" r (r.latex name) ++ "}"
  | .convolved id m => "{" ++ name id ++ "}\\left(" ++ m.latex name ++ "\\right)"

/-- `d[k] = v`: overwrite in place or append (Python dictionaries, model.py:221-245). -/
def dictSet {V : Type} (d : List (String × V)) (k : String) (v : V) : List (String × V) :=
  match d with
  | [] => [(k, v)]
  | (k', v') :: d => if k' = k then (k', v) :: d else (k', v') :: dictSet d k v

/-- `dict(zip(labels, values, strict=True))` (model.py:221-245). -/
def dictOfZip {V : Type} (ls : List String) (vs : List V) : List (String × V) :=
  (ls.zip vs).foldl (fun d q => dictSet d q.1 q.2) []

/-- Evaluate a list of models in order (model.py:221-245). -/
def evalAll (lib : Lib G ι K P) (all : Nat → P) (g : G) : List Mod → Except PyErr (List (ι → K))
  | [] => .ok []
  | m :: ms => match m.compiled lib all g with
    | .error e => .error e
    | .ok v => match evalAll lib all g ms with
      | .error e => .error e
      | .ok vs => .ok (v :: vs)

/-- `_compile_additive_fn` and its evaluation, model.py:221-249; `none` when there are fewer than two
additive components (then `comps=True` raises, e.g. model.py:447-448). -/
def Mod.compsEval (lib : Lib G ι K P) (name : Nat → String) (all : Nat → P) (m : Mod) (g : G) :
    Option (Except PyErr (List (String × (ι → K)))) :=
  if m.additiveComps.length ≤ 1 then none
  else some (match evalAll lib all g m.additiveComps with
    | .error e => .error e
    | .ok vs => .ok (dictOfZip (m.additiveComps.map (Mod.latex name)) vs))

end

end Elisa.Models.Algebra
