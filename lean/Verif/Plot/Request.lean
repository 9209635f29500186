import Verif.Np
import Mathlib.Data.Rat.Defs
import Mathlib.Tactic.NormNum

/-!
# Model of the calls `result.plot('data ne r')` (`src/elisa/plot/plotter.py:566-746, 1318-1400, 1475-1595`)

What is modelled is which figures and panels are made and what their axes are labelled; drawing is in `Verif.Plot.Draw` and
`Verif.Plot.Bands`.
-/

namespace Elisa.Plot

open Elisa

/-- `re.split(r'\s+', s)`: `cur` is the word being read, `sep` whether the last character was white space.  `ws` are the characters of `\s` (plotter.py:1314-1401). -/
def splitGo (ws : Char → Bool) (cur : List Char) (sep : Bool) : List Char → List (List Char)
  | [] => [cur]
  | c :: cs => if ws c then (if sep then splitGo ws cur true cs else cur :: splitGo ws [] true cs) else splitGo ws (cur ++ [c]) false cs

/-- `re.split(r'\s+', str(plots))` (plotter.py:1346, 1537) -/
def splitWs (ws : Char → Bool) (s : List Char) : List String := (splitGo ws [] false s).map String.ofList

/-- `MLEResultPlotter._supported` (plotter.py:1299-1315) -/
def mleSupported : List String := ["data", "r", "rd", "rp", "rq", "ne", "ene", "eene", "Fv", "FvJy", "vFv", "corner", "gof", "qq", "pit"]

/-- `PosteriorResultPlotter._supported` (plotter.py:1476-1494) -/
def postSupported : List String := mleSupported ++ ["trace", "khat"]

/-- `spec` (plotter.py:1355-1367, 1546-1558) -/
def specWords : List String := ["data", "ne", "ene", "eene", "Fv", "FvJy", "vFv", "r", "rd", "rp", "rq"]

/-- `residuals` before `plot_spec` resolves `True` (plotter.py:1369-1375, 1560-1566): the last word of residuals. -/
def residualWord (plots : List String) : Option String := (plots.filter fun i => i ∈ ["r", "rd", "rp", "rq"]).getLast?

/-- `residuals is True` is replaced by the default (plotter.py:668-672). -/
def residualType (default : String) (w : String) : String := if w = "r" then default else w

/-- The label of the panel of `E N(E)` (plotter.py:789-794). -/
def eneLabel (plots : List String) : String := if "FvJy" ∈ plots then "FvJy" else if "Fv" ∈ plots then "Fv" else "ene"

/-- The label of the panel of `E^2 N(E)` (plotter.py:795-796). -/
def eeneLabel (plots : List String) : String := if "vFv" ∈ plots then "vFv" else "eene"

/-- The panels of `plot_spec` from top to bottom (plotter.py:656-674, 1376-1385): key and label. -/
def specPanels (default : String) (plots : List String) : List (String × String) :=
  (if "data" ∈ plots then [("ce", "ce")] else []) ++ (if "ne" ∈ plots then [("ne", "ne")] else []) ++
  (if plots.any (fun p => p ∈ ["ene", "Fv", "FvJy"]) then [("ene", eneLabel plots)] else []) ++
  (if plots.any (fun p => p ∈ ["eene", "vFv"]) then [("eene", eeneLabel plots)] else []) ++
  (match residualWord plots with | some w => [("residuals", residualType default w)] | none => [])

/-- A figure of the dict returned: the spectral figure with its panels, or another one (plotter.py:1314-1401). -/
inductive Fig where
  | spec (panels : List (String × String))
  | other
deriving DecidableEq

/-- The figures besides the spectral one that need simulations: `plot_corner` of a maximum likelihood fit (plotter.py:1446-1447) raises `ValueError` and `plot_gof`
(plotter.py:1236-1240, 1248-1252) raises `RuntimeError` without them. -/
def needs (mle sims : Bool) (name : String) : Except PyErr Unit :=
  if sims then .ok ()
  else if name = "corner" ∧ mle then .error .valueError
  else if name = "gof" then .error .runtimeError
  else .ok ()

/-- The other figures, in the order they are made (plotter.py:1387-1398, 1578-1595). -/
def otherFigs (mle : Bool) : List String := if mle then ["corner", "gof", "qq", "pit"] else ["corner", "gof", "qq", "pit", "trace", "khat"]

/-- `__call__` after the words have been checked (plotter.py:1352-1399, 1543-1596). -/
def figures (mle sims : Bool) (default : String) (plots : List String) : Except PyErr (List (String × Fig)) := do
  let spec := if plots.any (fun p => p ∈ specWords) then [("spec", Fig.spec (specPanels default plots))] else []
  let others ← ((otherFigs mle).filter (fun n => n ∈ plots)).mapM fun n => do
    needs mle sims n
    return (n, Fig.other)
  return spec ++ others

/-- `MLEResultPlotter.__call__` and `PosteriorResultPlotter.__call__` (plotter.py:1318-1399, 1496-1596). -/
def callPlots (ws : Char → Bool) (mle sims : Bool) (default : String) (s : List Char) : Except PyErr (List (String × Fig)) :=
  let plots := splitWs ws s
  if plots.any (fun p => p ∉ (if mle then mleSupported else postSupported)) then .error .valueError
  else figures mle sims default plots

/-- `_FV_KEV_TO_JY` (plotter.py:105) -/
def fvKevToJy : ℚ := 413566.7696923858

end Elisa.Plot
