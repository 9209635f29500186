import Verif.Np
import Mathlib.Data.List.Basic

/-!
# Model of attribute access on models, compiled models and components, and of the definition of component classes

`src/elisa/models/model.py:78-83, 273-291` (`Model`), `1166-1176` (`CompiledModel`), `1653-1663` (`Component`), `1337-1366` (`ComponentMeta.__new__`).  Values are an arbitrary type.
-/

namespace Elisa.Models.Protect

open Elisa

/-- What the class of an object has under a name (Python, for model.py:273-285). -/
inductive ClassAttr (V : Type) where
  | plain (v : V)
  | readOnly (v : V)
  | settable

/-- An object: the attributes of its class, its own dictionary, the values behind properties with a setter, and the flag `__initialized` (Python, for model.py:273-285). -/
structure Obj (V : Type) where
  cls : String → Option (ClassAttr V)
  own : List (String × V)
  slots : List (String × V)
  initialized : Bool

/-- `getattr(self, key)`: a property wins over the own dictionary, which wins over other attributes of the class (Python data model) (Python, for model.py:273-285). -/
def Obj.get {V : Type} (o : Obj V) (k : String) : Option V :=
  match o.cls k with
  | some (.readOnly v) => some v
  | some .settable => o.slots.lookup k
  | some (.plain v) => some ((o.own.lookup k).getD v)
  | none => o.own.lookup k

/-- `hasattr(self, key)` (Python, for model.py:273-285). -/
def Obj.has {V : Type} (o : Obj V) (k : String) : Bool := (o.get k).isSome

/-- A dictionary with one value replaced or added (Python, for model.py:273-285). -/
def put {V : Type} (l : List (String × V)) (k : String) (v : V) : List (String × V) := (k, v) :: l.filter fun kv => kv.1 != k

/-- `object.__setattr__` (Python data model).  `check k v` is the setter of a property: it may refuse the value or store another one (called in model.py:279-285). -/
def Obj.rawSet {V : Type} (check : String → V → Except PyErr V) (o : Obj V) (k : String) (v : V) : Except PyErr (Obj V) :=
  match o.cls k with
  | some (.readOnly _) => .error .attributeError
  | some .settable => (check k v).map fun v' => { o with slots := put o.slots k v' }
  | some (.plain _) => .ok { o with own := put o.own k v }
  | none => .ok { o with own := put o.own k v }

/-- `object.__delattr__` (Python data model); the properties have no deleter (called in model.py:273-277). -/
def Obj.rawDel {V : Type} (o : Obj V) (k : String) : Except PyErr (Obj V) :=
  match o.cls k with
  | some (.readOnly _) => .error .attributeError
  | some .settable => .error .attributeError
  | some (.plain _) => if (o.own.lookup k).isSome then .ok { o with own := o.own.filter fun kv => kv.1 != k } else .error .attributeError
  | none => if (o.own.lookup k).isSome then .ok { o with own := o.own.filter fun kv => kv.1 != k } else .error .attributeError

/-- `__delattr__` of `Model`, `CompiledModel` and `Component` (model.py:273-277, 1166-1170, 1653-1657). -/
def Obj.del {V : Type} (o : Obj V) (k : String) : Except PyErr (Obj V) := if o.initialized && o.has k then .error .attributeError else o.rawDel k

/-- `Model.__setattr__` (model.py:279-285); `names` are the component names. -/
def setModel {V : Type} (names : List String) (check : String → V → Except PyErr V) (o : Obj V) (k : String) (v : V) : Except PyErr (Obj V) :=
  if o.initialized && (!o.has k || names.contains k) then .error .attributeError else o.rawSet check k v

/-- `CompiledModel.__setattr__` (model.py:1172-1176). -/
def setCompiled {V : Type} (check : String → V → Except PyErr V) (o : Obj V) (k : String) (v : V) : Except PyErr (Obj V) :=
  if o.initialized then .error .attributeError else o.rawSet check k v

/-- `Component.__setattr__` (model.py:1659-1663). -/
def setComponent {V : Type} (check : String → V → Except PyErr V) (o : Obj V) (k : String) (v : V) : Except PyErr (Obj V) :=
  if o.initialized && !o.has k then .error .attributeError else o.rawSet check k v

/-- `Model.__getitem__` (model.py:287-291): `getattr` after the check of the name. -/
def getItem {V : Type} (names : List String) (o : Obj V) (k : String) : Except PyErr V :=
  if !names.contains k then .error .keyError else match o.get k with | some v => .ok v | none => .error .attributeError

/-- The loop of `Model.__init__` over the components (model.py:80-83), before the flag is set. -/
def attach {V : Type} (check : String → V → Except PyErr V) (o : Obj V) : List (String × V) → Except PyErr (Obj V)
  | [] => .ok { o with initialized := true }
  | (n, c) :: l => match o.rawSet check n c with
    | .ok o' => attach check o' l
    | .error e => .error e

/-- What a user may do with attributes (model.py:273-285, 1166-1177, 1653-1664). -/
inductive Op (V : Type) where
  | set (k : String) (v : V)
  | del (k : String)

/-- One operation; an exception is caught by the caller and leaves the object as it was (model.py:273-285, 1166-1177, 1653-1664). -/
def stepWith {V : Type} (set : Obj V → String → V → Except PyErr (Obj V)) (o : Obj V) : Op V → Obj V
  | .set k v => match set o k v with | .ok o' => o' | .error _ => o
  | .del k => match o.del k with | .ok o' => o' | .error _ => o

/-! ## Class definitions -/

/-- The value of `_config` in a class body: absent, a tuple (an entry is a `ParamConfig` or something else), or another object (model.py:1337-1396). -/
inductive Body (C : Type) where
  | absent
  | tuple (entries : List (Option C))
  | other

/-- `ComponentMeta.__new__` up to the generated constructor (model.py:1341-1366): `static n` tells whether the method `n` found on the class is a static method; `methods` is
`cls._staticmethod`.  The configuration of the class is returned. -/
def define {C : Type} (static : String → Bool) (methods : List String) : Body C → Except PyErr (Option (List C))
  | .absent => .ok none
  | .tuple es =>
    if es.isEmpty then .error .valueError
    else if es.any Option.isNone then .error .valueError
    else if methods.any (fun m => !static m) then .error .typeError
    else .ok (some (es.filterMap id))
  | .other => if methods.any (fun m => !static m) then .error .typeError else .ok (some [])

end Elisa.Models.Protect
