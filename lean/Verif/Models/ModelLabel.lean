import Verif.Models.Algebra
import Verif.Models.Label

/-!
# The displayed name of a model (`Model._id_to_label`, `src/elisa/models/model.py:186-200`, 1211-1284, 1908-1920)

A model keeps a text in which every component appears under its internal id; the ids are replaced one after the other by the names (or LaTeX labels) of the components.
-/

namespace Elisa.Models.Algebra

open Elisa Elisa.Models.Label

/-- The text of the name of a model (model.py:1184, 1260-1284, 1915): `'{} + {}'`, `'{} * {}'` with parentheses around sums in products, `f'{op}({model})'`. -/
def Mod.nameText (name : Nat → String) : Mod → String
  | .comp id _ => name id
  | .bin .plus l r => l.nameText name ++ " + " ++ r.nameText name
  | .bin .times l r => parenSum "(" ")" l (l.nameText name) ++ " * " ++ parenSum "(" ")" r (r.nameText name)
  | .convolved id m => name id ++ "(" ++ m.nameText name ++ ")"

/-- `str.replace(k, v)` of Python for a non-empty `k`: occurrences are found from the left and do not overlap.  The number counts the characters of an occurrence still to be dropped (model.py:186-200). -/
def replaceAll (k v : List Char) : Nat → List Char → List Char
  | _, [] => []
  | 0, c :: cs => if k.isPrefixOf (c :: cs) then v ++ replaceAll k v (k.length - 1) cs else c :: replaceAll k v 0 cs
  | n + 1, _ :: cs => replaceAll k v n cs

/-- `_id_to_label` (model.py:186-200): the ids are replaced one after the other, each in the result of the replacement before. -/
def idToLabel (mapping : List (String × String)) (label : List Char) : List Char :=
  mapping.foldl (fun l kv => replaceAll kv.1.toList kv.2.toList 0 l) label

end Elisa.Models.Algebra
