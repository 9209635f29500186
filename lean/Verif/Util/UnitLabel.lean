import Verif.Models.ModelLabel
import Mathlib.Data.List.Sort

/-!
# Model of the labels of units (`src/elisa/util/misc.py:308-358`) and of the labels of parameters in plots (`src/elisa/plot/plotter.py:514-559`)

Texts are lists of characters.  A unit is what astropy parses: a scale, printed by astropy as `mantissa` or `mantissa \times 10^{exponent}` (a mantissa of one without exponent prints nothing), and bases with powers.
`found b` is the place where the regular expression finds the base `b` in the text of the unit.
-/

namespace Elisa.Util.Unit

open Elisa Elisa.Models.Algebra

/-- A base with the text of its power; `one` says whether the power is one (misc.py:339-341). -/
structure Base where
  name : List Char
  power : List Char
  one : Bool
deriving DecidableEq

/-- `b + (f'^{{{p}}}' if p != 1 else '')` (misc.py:340). -/
def Base.text (b : Base) : List Char := if b.one then b.name else b.name ++ "^{".toList ++ b.power ++ "}".toList

/-- `r'\ '.join(...)` (misc.py:339). -/
def joinBases : List Base → List Char
  | [] => []
  | [b] => b.text
  | b :: c :: bs => b.text ++ "\\ ".toList ++ joinBases (c :: bs)

/-- The bases in the order in which they are found in the text, ties in the order of astropy (misc.py:324-338). -/
def orderBases (found : Base → Nat) (bases : List Base) : List Base := bases.insertionSort fun a b => found a ≤ found b

/-- The scale as astropy prints it (misc.py:343). -/
structure Scale where
  mantissa : List Char
  exponent : Option (List Char)

/-- `Unit(unit.scale).to_string('latex_inline')[9:-2]` (misc.py:343). -/
def Scale.text (s : Scale) : List Char :=
  match s.exponent with
  | none => s.mantissa
  | some e => s.mantissa ++ " \\times ".toList ++ "10^{".toList ++ e ++ "}".toList

/-- `scale.replace(r'1 \times ', '')` (misc.py:345). -/
def Scale.shown (s : Scale) : List Char := replaceAll "1 \\times ".toList [] 0 s.text

/-- The scale of a label, with a blank after it unless there is none (misc.py:344-346). -/
def Scale.prefixText (s : Scale) : List Char := if s.text = [] then [] else s.shown ++ "\\ ".toList

/-- `get_unit_latex` (misc.py:320-358): `parse` is `astropy.units.Unit`, which fails with a `ValueError`. -/
def unitLatex (parse : List Char → Option (Scale × List Base)) (found : Base → Nat) (throw : Bool) (unit : List Char) : Except PyErr (List Char) :=
  match unit with
  | [] => .ok []
  | c :: cs => match parse (c :: cs) with
    | none => if throw then .error .valueError else .ok []
    | some (s, bases) => .ok ("$\\mathrm{".toList ++ s.prefixText ++ joinBases (orderBases found bases) ++ "}$".toList)

/-- `f'${v}$ ' if v else ''` (plotter.py:517-520). -/
def compPart : List Char → List Char
  | [] => []
  | c :: cs => '$' :: (c :: cs) ++ ['$', ' ']

/-- `f'\n[{v}]' if v else v` (plotter.py:550-552). -/
def unitPart : List Char → List Char
  | [] => []
  | c :: cs => '\n' :: '[' :: (c :: cs) ++ [']']

/-- `params_labels` (plotter.py:514-559): component, parameter and, on a new line in brackets, the unit if there is one. -/
def paramLabel (comp param unit : List Char) : List Char := compPart comp ++ ('$' :: param ++ ['$']) ++ unitPart unit

end Elisa.Util.Unit
