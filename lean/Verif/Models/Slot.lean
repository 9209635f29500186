import Verif.Models.Param
import Verif.Models.Tracker

/-!
# Assigning values to the parameter slots of a component

Model of `_param_setter` (`/repo/src/elisa/models/model.py:1427-1540`), of the configuration of a component (`model.py:1543-1569`) and of
`Component.__init__`, `__getitem__`, `__setitem__` (`model.py:1580-1597, 1641-1651`), on top of the parameters of `Models/Param.lean` and the
bookkeeping of `Models/Tracker.lean`.
-/

namespace Elisa.Models.Slot

open Elisa.Models Elisa.Models.Track

/-- `ParamConfig` (model.py:1542-1567); the unit is not modelled. -/
structure Config where
  name : PName
  latex : String
  default : Val
  min : Val
  max : Val
  log : Bool
  fixed : Bool

/-- An entry of a sequence or mapping: a number (or Boolean), `None`, or something that is no number; of the latter only the truth value
matters (model.py:1427-1539). -/
inductive Item where
  | num (v : Val)
  | none
  | junk (truth : Bool)
deriving DecidableEq

/-- What a program may assign to a slot (model.py:1431-1529): `array` is an array with at least one axis, `other` any other object. -/
inductive Given where
  | none
  | number (v : Val)
  | array
  | param (p : Pid)
  | mapping (m : List (String × Item))
  | seq (l : List Item)
  | other

/-- Exceptions: the range checks of the parameter, a wrong shape or length or missing keys (`ValueError`), a conversion that fails, `None`
in place of a number (`AttributeError`, parameter.py:587-598), an unsupported type (`TypeError`). -/
inductive SErr where
  | range (e : PErr)
  | shape
  | keys
  | length
  | conversion
  | missing
  | type
deriving DecidableEq

/-- `bool(x)` (parameter.py:483, 602). -/
def Item.truth : Item → Bool
  | .num v => !Val.eq v (.fin 0)
  | .none => false
  | .junk b => b

/-- The float conversion of an argument of `UniformParameter` (parameter.py:584-598). -/
def Item.float : Item → Except SErr Val
  | .num v => .ok v
  | .none => .error .missing
  | .junk _ => .error .conversion

/-- `UniformParameter(...)` with unconverted arguments (parameter.py:471-500, 578-602): the conversions are made in this order. -/
def create (rnd : ℚ → ℚ) (d lo hi : Item) (log fixed : Bool) : Except SErr UParam := do
  let d ← d.float
  let lo ← lo.float
  let hi ← hi.float
  match UParam.create rnd d lo hi log fixed with
  | .ok p => .ok p
  | .error e => .error (.range e)

/-- The mapping branch (model.py:1471-1492). -/
def fromMapping (rnd : ℚ → ℚ) (m : List (String × Item)) : Except SErr UParam :=
  match m.lookup "default", m.lookup "min", m.lookup "max" with
  | some d, some lo, some hi =>
    create rnd d lo hi ((m.lookup "log").elim false Item.truth) ((m.lookup "fixed").elim false Item.truth)
  | _, _, _ => .error .keys

/-- The sequence branch (model.py:1494-1529). -/
def fromSeq (rnd : ℚ → ℚ) (cfg : Config) (l : List Item) : Except SErr UParam :=
  match l with
  | [d] => create rnd d (.num cfg.min) (.num cfg.max) cfg.log cfg.fixed
  | [d, lo, hi] => create rnd d lo hi cfg.log cfg.fixed
  | [d, lo, hi, log] => create rnd d lo hi log.truth cfg.fixed
  | _ => .error .length

/-- The new parameter a value is converted to (model.py:1436-1529), where one is created. -/
def convert (rnd : ℚ → ℚ) (cfg : Config) : Given → Except SErr UParam
  | .none => create rnd (.num cfg.default) (.num cfg.min) (.num cfg.max) cfg.log cfg.fixed
  | .number v => create rnd (.num v) (.num cfg.min) (.num cfg.max) cfg.log true
  | .array => .error .shape
  | .mapping m => fromMapping rnd m
  | .seq l => fromSeq rnd cfg l
  | .param _ => .error .type
  | .other => .error .type

/-- A parameter object: uniform, or of another kind (composite, from a distribution), and its LaTeX (model.py:1427-1539, parameter.py:111-121). -/
structure Obj where
  uniform : Option UParam
  latex : String

/-- All components with their slots and trackers, and all parameter objects (model.py:1427-1539, parameter.py:33-59). -/
structure World where
  heap : Heap
  obj : Pid → Option Obj

/-- The result of an operation: the world and the exception, if any (model.py:1427-1539). -/
abbrev Out := World × Option SErr

/-- The end of the setter (model.py:1531-1538): the previous content forgets the slot, the slot is overwritten, the new content remembers it.
`ValueError` of `list.remove` is reported as `keys`. -/
def store (w : World) (c : Cid) (n : PName) (p : Pid) (o : Pid → Option Obj) : Out :=
  match Track.assign w.heap c n p with
  | none => (⟨w.heap, o⟩, some .keys)
  | some h => (⟨h, o⟩, none)

/-- The parameter branch (model.py:1466-1470): the LaTeX of the parameter is overwritten. -/
def relabel (o : Pid → Option Obj) (p : Pid) (latex : String) : Pid → Option Obj :=
  Function.update o p ((o p).map fun x => { x with latex := latex })

/-- The setter of a slot (model.py:1427-1540).  `fresh` is the identity of a newly created parameter object. -/
def setSlot (rnd : ℚ → ℚ) (w : World) (c : Cid) (cfg : Config) (fresh : Pid) (g : Given) : Out :=
  match g with
  | .param p => if w.heap.slot c cfg.name = some p then (w, none) else store w c cfg.name p (relabel w.obj p cfg.latex)
  | g =>
    match convert rnd cfg g with
    | .error e => (w, some e)
    | .ok u => store ⟨{ w.heap with hist := Function.update w.heap.hist fresh [] }, w.obj⟩ c cfg.name fresh
        (Function.update w.obj fresh (some ⟨some u, cfg.latex⟩))

/-- `component[name]` (model.py:1641-1645): only configured names. -/
def getItem (w : World) (cfgs : List Config) (c : Cid) (n : PName) : Option Pid :=
  if n ∈ cfgs.map (·.name) then w.heap.slot c n else none

end Elisa.Models.Slot
