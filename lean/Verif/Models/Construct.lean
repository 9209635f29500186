import Verif.Models.SlotProps

/-!
# Calling a component class

Model of the generated constructors (`/repo/src/elisa/models/model.py:1334-1416`: signature, call of the next `__init__`), of the binding of
arguments to a Python signature, and of the loop of `Component.__init__` over the declared parameters (`model.py:1580-1597`).  The checks of
the class body (`_config` a non-empty tuple of `ParamConfig`, static methods) happen when the module is loaded and are not modelled.
-/

namespace Elisa.Models.Slot

open Elisa.Models Elisa.Models.Track

/-- A concrete component class: extra positional arguments, declared parameters, extra keyword arguments (model.py:1574-1577). -/
structure Class where
  args : List String
  config : List Config
  kwargs : List String

/-- The `TypeError`s of a Python call (Python, for model.py:1409-1416). -/
inductive CallErr where
  | tooMany
  | unexpected
  | multiple
  | missing
deriving DecidableEq

/-- The signature of the generated constructor, with a mark for required arguments (model.py:1371-1386): extra arguments, declared
parameters, `latex`, extra keyword arguments. -/
def Class.signature (k : Class) : List (String × Bool) :=
  k.args.map (·, true) ++ k.config.map (fun c => (c.name, false)) ++ [("latex", false)] ++ k.kwargs.map (·, false)

/-- The value of the argument at index `i` once a call is known to fit: positional, by keyword, or the default `None` (Python, for model.py:1337-1396). -/
def argAt (pos : List Given) (kw : List (String × Given)) (n : String) (i : Nat) : Given :=
  if i < pos.length then pos.getD i .none else (kw.lookup n).getD .none

/-- Binding of the arguments of a Python call to a signature (language semantics; used by the call in model.py:1405-1407). -/
def bindArgs (sig : List (String × Bool)) (pos : List Given) (kw : List (String × Given)) : Except CallErr (List (String × Given)) :=
  if sig.length < pos.length then .error .tooMany
  else if kw.any fun x => !((sig.map (·.1)).contains x.1) then .error .unexpected
  else if kw.any fun x => ((sig.take pos.length).map (·.1)).contains x.1 then .error .multiple
  else if (sig.drop pos.length).any fun s => s.2 && (kw.lookup s.1).isNone then .error .missing
  else .ok (sig.zipIdx.map fun x => (x.1.1, argAt pos kw x.1.1 x.2))

/-- The loop of `Component.__init__` (model.py:1591-1592): the slots are set one after the other; `fresh` are the identities of parameter
objects that may be created. An exception ends the loop. -/
def fill (rnd : ℚ → ℚ) (w : World) (c : Cid) : List (Config × Pid × Given) → Out
  | [] => (w, none)
  | (cfg, fresh, g) :: rest =>
    match setSlot rnd w c cfg fresh g with
    | (w', some e) => (w', some e)
    | (w', none) => fill rnd w' c rest

/-- A component object comes into existence at address `c`, all slots empty (model.py:1581). -/
def newComponent (w : World) (c : Cid) : World :=
  ⟨{ w.heap with live := fun x => x = c ∨ w.heap.live x, slot := Function.update w.heap.slot c (fun _ => none) }, w.obj⟩

/-- What a call of a component class ends with (model.py:1409-1416). -/
inductive Called where
  | typeError (e : CallErr)
  | failed (w : World) (e : SErr)
  | built (w : World)

/-- `params[cfg.name]` for every declared parameter (model.py:1592), with the identity of a possibly created parameter. -/
def slots (k : Class) (fresh : Nat → Pid) (bound : List (String × Given)) : List (Config × Pid × Given) :=
  k.config.zipIdx.map fun x => (x.1, fresh x.2, (bound.lookup x.1.name).getD .none)

/-- Calling the class (model.py:1405-1407, 1580-1597). -/
def call (rnd : ℚ → ℚ) (w : World) (c : Cid) (k : Class) (fresh : Nat → Pid) (pos : List Given) (kw : List (String × Given)) : Called :=
  match bindArgs k.signature pos kw with
  | .error e => .typeError e
  | .ok bound =>
    match fill rnd (newComponent w c) c (slots k fresh bound) with
    | (w', some e) => .failed w' e
    | (w', none) => .built w'

/-! ## Constructors in a class hierarchy -/

/-- The `__init__` a class defines itself: generated, or written by hand to take `params` and `latex` (the base classes) (model.py:1337-1396, 1580-1597). -/
inductive Init where
  | generated
  | base
deriving DecidableEq

/-- The `__init__` found along a list of classes in method resolution order (Python, for model.py:1337-1416). -/
def findInit (mro : List (Option Init)) : Option Init := mro.findSome? id

/-- Whether creating an object of a class with this method resolution order gets as far as filling the slots.  A generated constructor calls
`super(type(self), self).__init__(params=..., latex=...)` (model.py:1390-1391), which is looked up after the class of the *object*, i.e. in
the tail of its method resolution order, whatever class the running constructor belongs to; a generated constructor has no argument
`params`, so that reaching one there is a `TypeError`. -/
def creates (mro : List (Option Init)) : Bool :=
  match findInit mro with
  | some .generated => findInit mro.tail == some .base
  | some .base => false
  | none => false

end Elisa.Models.Slot
