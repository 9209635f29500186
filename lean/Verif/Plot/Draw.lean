import Verif.Np
import Mathlib.Data.Real.Basic
import Mathlib.Analysis.SpecialFunctions.Log.Base
import Mathlib.Analysis.SpecialFunctions.Pow.Real

/-!
# Model of the drawing of binned quantities in `src/elisa/plot/plotter.py` and of `PlotData.photon_egrid`

A call of `ax.step(x, y, where='post')` or `ax.fill_between(x, lo, up, step='post')` is recorded by its arrays.  Matplotlib draws the
value `y[j]` from `x[j]` to `x[j + 1]` (`where='post'`); the last entry of `y` has no interval of its own.
-/

namespace Elisa.Plot

open Elisa

/-- One call of `ax.step(x_slice, y_slice, where='post')` (plotter.py:47), or, with pairs `(lower, upper)` for `ys`, one call of
`ax.fill_between(x_slice, lower_slice, upper_slice, step='post')` (plotter.py:79). -/
structure Curve (α : Type) where
  xs : List ℝ
  ys : List α

/-- `xs[a:b]` (plotter.py:32-79). -/
def pySlice {α : Type} (xs : List α) (a b : ℕ) : List α := (xs.take b).drop a

/-- `mask = x_left[1:] != x_right[:-1]` (plotter.py:39, 64) -/
noncomputable def gapMask (xl xr : List ℝ) : List Bool := List.zipWith (fun a b => decide (a ≠ b)) xl.tail xr.dropLast

/-- `idx = np.append(np.insert(np.flatnonzero(mask) + 1, 0, 0), n)` (plotter.py:40-41, 65-66) -/
noncomputable def cuts (xl xr : List ℝ) (n : ℕ) : List ℕ := 0 :: (flatnonzero (gapMask xl xr)).map (· + 1) ++ [n]

/-- The pairs `(idx[i], idx[i + 1])` for `i in range(len(idx) - 1)` (plotter.py:42-43, 67-68). -/
def pairs : List ℕ → List (ℕ × ℕ)
  | [] => []
  | [_] => []
  | a :: b :: r => (a, b) :: pairs (b :: r)

/-- The body of the loop (plotter.py:43-47, 68-79): the slice of the arrays, closed by the right edge and the value of its last bin;
`[-1]` of an empty slice raises. -/
def segment {α : Type} (xl xr : List ℝ) (y : List α) (ab : ℕ × ℕ) : Except PyErr (Curve α) :=
  match (pySlice xr ab.1 ab.2).getLast?, (pySlice y ab.1 ab.2).getLast? with
  | some r, some v => .ok ⟨pySlice xl ab.1 ab.2 ++ [r], pySlice y ab.1 ab.2 ++ [v]⟩
  | _, _ => .error .indexError

/-- `_plot_step` (plotter.py:32-47). -/
noncomputable def plotStep {α : Type} (xl xr : List ℝ) (y : List α) : Except PyErr (List (Curve α)) :=
  if y.length = xl.length ∧ xl.length = xr.length then (pairs (cuts xl xr y.length)).mapM (segment xl xr y)
  else .error .assertionError

/-- The body of the loop of `_plot_ribbon` (plotter.py:67-79): for every stretch, all ribbons in order. -/
def ribbonSegment {α : Type} (xl xr : List ℝ) (ribbons : List (List α)) (ab : ℕ × ℕ) : Except PyErr (List (Curve α)) :=
  ribbons.mapM fun y => segment xl xr y ab

/-- `_plot_ribbon` (plotter.py:50-79).  A ribbon is the list of its pairs `(lower, upper)`; `y_ribbons[0]` of no ribbons raises.
Simplification: a ribbon is given as pairs, so that `shape[0] == 2` holds. -/
noncomputable def plotRibbon {α : Type} (xl xr : List ℝ) (ribbons : List (List α)) : Except PyErr (List (List (Curve α))) :=
  match ribbons with
  | [] => .error .indexError
  | y :: ys =>
    if y.length = xl.length ∧ xl.length = xr.length ∧ ∀ z ∈ y :: ys, z.length = y.length then
      (pairs (cuts xl xr y.length)).mapM (ribbonSegment xl xr (y :: ys))
    else .error .assertionError

/-- `PlotData.photon_egrid` (plot/data.py:156-166): the edges of the photon grid within the noticed energies. -/
noncomputable def plotEgrid (emin0 emaxLast : ℝ) (grid : List ℝ) : List ℝ := grid.filter fun e => decide (emin0 ≤ e ∧ e ≤ emaxLast)

/-- `_plot_step(ax, egrid_[:-1], egrid_[1:], ne, ...)` (plotter.py:812-814) -/
noncomputable def plotUnfolded {α : Type} (egrid : List ℝ) (ne : List α) : Except PyErr (List (Curve α)) :=
  plotStep egrid.dropLast egrid.tail ne

/-- The new lower end in `_adjust_log_range` (plotter.py:97-98). -/
noncomputable def logFloor (vmin vmax : ℝ) (octave : ℕ) : ℝ :=
  if Real.logb 10 (vmax / max (10 ^ (-30 : ℤ)) vmin) > octave then vmax / 10 ^ octave else vmin

/-- `_adjust_log_range` (plotter.py:82-101) for data between `vmin` and `vmax`: the limits set.  Reals replace float64, `Real.logb` of a
number that is not positive stands for the NaN of NumPy. -/
noncomputable def logRange (vmin vmax : ℝ) (octave : ℕ) : ℝ × ℝ :=
  (10 ^ (Real.logb 10 (logFloor vmin vmax octave) - 0.05), 10 ^ (Real.logb 10 vmax + 0.1))

end Elisa.Plot
