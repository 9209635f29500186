import Verif.Plot.Bands

/-!
# Model of the settings of plots (`src/elisa/plot/plotter.py:235-432`, `PlotConfig`), of the colours, markers and numbers of data of a plotter
(`plotter.py:435-513`) and of `get_colors`, `get_markers` (`src/elisa/plot/util.py:13-26`)

Colour palettes and colours are arbitrary types; seaborn is a parameter.
-/

namespace Elisa.Plot.Settings

open Elisa

/-- What `float(...)` makes of an argument: a number, NaN, an infinity, or an exception (plotter.py:282-360). -/
inductive Num where
  | fin (x : ℝ)
  | nan
  | inf (positive : Bool)
  | bad

/-- The settings (plotter.py:252-281).  Flags are kept by name: `random_quantile`, `mark_outlier_residuals`, `residuals_ci_with_sign`,
`fill_residuals_ci`, `plot_comps`. -/
structure Config (P : Type) where
  alpha : ℝ
  palette : P
  xscale : String
  yscale : String
  linFrac : ℝ
  cl : List ℝ
  residuals : String
  randomQuantile : Bool
  markOutlier : Bool
  ciWithSign : Bool
  fillCi : Bool
  plotComps : Bool
  seed : Option Int

/-- An assignment to an attribute (plotter.py:282-430). -/
inductive Setting (P : Type) where
  | alpha (x : Num)
  | palette (p : P)
  | xscale (s : String)
  | yscale (s : String)
  | linFrac (x : Num)
  | cl (xs : List Num)
  | residuals (s : String)
  | randomQuantile (b : Bool)
  | markOutlier (b : Bool)
  | ciWithSign (b : Bool)
  | fillCi (b : Bool)
  | plotComps (b : Bool)
  | seed (s : Option Int)

/-- `float(x)`, then `if not lo < x <= hi: raise ValueError` (plotter.py:289-292, 332-335): NaN and infinities fail the comparison. -/
noncomputable def inRange (hi : ℝ) : Num → Except PyErr ℝ
  | .fin x => if 0 < x ∧ x ≤ hi then .ok x else .error .valueError
  | .nan => .error .valueError
  | .inf _ => .error .valueError
  | .bad => .error .valueError

/-- `if s not in {...}: raise ValueError` (plotter.py:311-313, 323-325, 357-362). -/
def oneOf (allowed : List String) (s : String) : Except PyErr String := if s ∈ allowed then .ok s else .error .valueError

/-- The numbers among the levels, or an exception: NaN and infinities fail `0 < c < 1` (plotter.py:345-348). -/
def levels : List Num → Except PyErr (List ℝ)
  | [] => .ok []
  | .fin x :: l => (levels l).map (x :: ·)
  | .nan :: _ => .error .valueError
  | .inf _ :: _ => .error .valueError
  | .bad :: _ => .error .valueError

/-- The setters of `PlotConfig` (plotter.py:283-432). -/
noncomputable def Config.assign {P : Type} (c : Config P) : Setting P → Except PyErr (Config P)
  | .alpha x => (inRange 1 x).map fun v => { c with alpha := v }
  | .palette p => .ok { c with palette := p }
  | .xscale s => (oneOf ["linear", "log"] s).map fun v => { c with xscale := v }
  | .yscale s => (oneOf ["linear", "log", "linlog"] s).map fun v => { c with yscale := v }
  | .linFrac x => (inRange 0.5 x).map fun v => { c with linFrac := v }
  | .cl xs => ((levels xs).bind setCl).map fun v => { c with cl := v }
  | .residuals s => (oneOf ["rd", "rp", "rq"] s).map fun v => { c with residuals := v }
  | .randomQuantile b => .ok { c with randomQuantile := b }
  | .markOutlier b => .ok { c with markOutlier := b }
  | .ciWithSign b => .ok { c with ciWithSign := b }
  | .fillCi b => .ok { c with fillCi := b }
  | .plotComps b => .ok { c with plotComps := b }
  | .seed s => .ok { c with seed := s }

/-- An assignment whose exception is caught by the caller (plotter.py:282-430). -/
noncomputable def Config.tryAssign {P : Type} (c : Config P) (s : Setting P) : Config P :=
  match c.assign s with
  | .ok c' => c'
  | .error _ => c

/-- The arguments of `PlotConfig(...)` in the order in which they are assigned (plotter.py:269-281). -/
structure Args (P : Type) where
  alpha : Num
  palette : P
  xscale : String
  yscale : String
  linFrac : Num
  cl : List Num
  residuals : String
  randomQuantile : Bool
  markOutlier : Bool
  ciWithSign : Bool
  fillCi : Bool
  plotComps : Bool
  seed : Option Int

/-- `PlotConfig(...)` (plotter.py:252-281): one assignment after the other; the first exception leaves no object. -/
noncomputable def Config.make {P : Type} (a : Args P) : Except PyErr (Config P) := do
  let alpha ← inRange 1 a.alpha
  let xscale ← oneOf ["linear", "log"] a.xscale
  let yscale ← oneOf ["linear", "log", "linlog"] a.yscale
  let linFrac ← inRange 0.5 a.linFrac
  let cl ← (levels a.cl).bind setCl
  let residuals ← oneOf ["rd", "rp", "rq"] a.residuals
  return ⟨alpha, a.palette, xscale, yscale, linFrac, cl, residuals, a.randomQuantile, a.markOutlier, a.ciWithSign, a.fillCi, a.plotComps, a.seed⟩

/-! ## Colours -/

/-- Values a palette may have: `None`, the text `'customized'`, or any other (plotter.py:294-307). -/
inductive Pal (Q : Type) where
  | none
  | customized
  | other (q : Q)
deriving DecidableEq

/-- seaborn's `color_palette(palette)` and `color_palette(palette, n)` (plot/util.py:13-19). -/
structure Seaborn (Q Col : Type) where
  plain : Pal Q → List Col
  sized : Pal Q → Nat → List Col

/-- `get_colors` (util.py:13-19). -/
def getColors {Q Col : Type} (sns : Seaborn Q Col) (n : Nat) (p : Pal Q) : List Col := if n ≤ (sns.plain p).length then (sns.plain p).take n else sns.sized p n

/-- `_palette` and `_colors` of a plotter, and the palette of its settings (plotter.py:442-448). -/
structure Plotter (Q Col : Type) where
  config : Pal Q
  palette : Pal Q
  colors : Option (List (String × Col))

/-- What may happen to the colours: a new palette in the settings (or new settings), `set_colors(None)`, `set_colors(dict)`, and reading (plotter.py:478-496). -/
inductive Act (Q Col : Type) where
  | config (p : Pal Q)
  | reset
  | set (d : List (String × Col))
  | read

/-- `set_colors` with a dict (plotter.py:478-496); `names` are the data sets.  The exception for missing names leaves everything as it was. -/
def Plotter.setColors {Q Col : Type} (names : List String) (s : Plotter Q Col) (d : List (String × Col)) : Except PyErr (Plotter Q Col) :=
  if names.all (fun n => (d.lookup n).isSome) then .ok { s with palette := .customized, colors := some d } else .error .valueError

/-- `colors` (plotter.py:498-505). -/
def Plotter.read {Q Col : Type} [DecidableEq Q] (sns : Seaborn Q Col) (names : List String) (s : Plotter Q Col) : Plotter Q Col :=
  if s.palette ≠ .customized ∧ s.palette ≠ s.config then { s with palette := s.config, colors := some (names.zip (getColors sns names.length s.config)) } else s

/-- One action, and what reading returns (plotter.py:465-506). -/
def Plotter.step {Q Col : Type} [DecidableEq Q] (sns : Seaborn Q Col) (names : List String) (s : Plotter Q Col) :
    Act Q Col → Plotter Q Col × Option (Option (List (String × Col)))
  | .config p => ({ s with config := p }, none)
  | .reset => ({ s with palette := .none, colors := none }, none)
  | .set d => (match s.setColors names d with | .ok s' => s' | .error _ => s, none)
  | .read => (s.read sns names, some (s.read sns names).colors)

/-- What a history of actions returns (plotter.py:465-506). -/
def Plotter.run {Q Col : Type} [DecidableEq Q] (sns : Seaborn Q Col) (names : List String) : Plotter Q Col → List (Act Q Col) → List (Option (Option (List (String × Col))))
  | _, [] => []
  | s, a :: as => (s.step sns names a).2 :: Plotter.run sns names (s.step sns names a).1 as

/-- A new plotter (plotter.py:435-447). -/
def Plotter.new {Q Col : Type} (p : Pal Q) : Plotter Q Col := ⟨p, .none, none⟩

/-! ## Markers and numbers of data -/

/-- The markers that are repeated (util.py:23). -/
def markerCycle : List Char := ['s', 'o', 'D', '^', 'd', 'p', 'h', 'H', 'D']

/-- `get_markers` (util.py:22-26). -/
def getMarkers (n : Nat) : List Char := (List.range n).map fun i => markerCycle.getD (i % 9) 's'

/-- `ndata` (plotter.py:507-512): a dict; `total` is the sum over the data sets. -/
def ndata (sizes : List (String × Nat)) : List (String × Nat) :=
  if sizes.any (fun kv => kv.1 == "total") then sizes.map (fun kv => if kv.1 == "total" then (kv.1, (sizes.map (·.2)).sum) else kv)
  else sizes ++ [("total", (sizes.map (·.2)).sum)]

end Elisa.Plot.Settings
