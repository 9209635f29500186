import Mathlib.Analysis.SpecialFunctions.Log.Basic
import Mathlib.Analysis.SpecialFunctions.Pow.Real
import Mathlib.Data.List.Sort
import Mathlib.Data.List.Dedup

/-!
# Model of the linear-logarithmic plot axis (`plot/scale.py`)

Real arithmetic stands for floating point.  Matplotlib's own locators (`AutoLocator`, `LogLocator`) are
parameters: an arbitrary list of ticks each.
-/

namespace Elisa.Plot

/-- The attributes of `LinLogTransform` / `InvertedLinLogTransform` after construction
(`plot/scale.py:79-99`, `120-142`). -/
structure LinLog where
  base : ℝ
  thresh : ℝ
  scale : ℝ

/-- `LinLogTransform.__init__` and the identical checks of `InvertedLinLogTransform`, `LinLogLocator` and
`LinLogScale` (`plot/scale.py:86-104`, `123-142`, `245-259`, `379-397`): the first failing check raises. -/
noncomputable def mkLinLog (base thresh scale : ℝ) : Except String LinLog :=
  if base ≤ 1 then .error "`base` must be larger than 1"
  else if thresh ≤ 0 then .error "`lin_thresh` must be positive"
  else if scale ≤ 0 then .error "`lin_scale` must be positive"
  else .ok ⟨base, thresh, scale⟩

/-- `LinLogScale.__init__`'s default for `lin_scale` (`plot/scale.py:382-385`) followed by the checks. -/
noncomputable def mkLinLogScale (base thresh : ℝ) (scale : Option ℝ) : Except String LinLog :=
  mkLinLog base thresh (scale.getD (1 / Real.log base))

/-- `_lin_scale_adj` (`plot/scale.py:104`, `143`). -/
noncomputable def LinLog.adj (s : LinLog) : ℝ := s.scale / (1 - 1 / s.base)

/-- One element of `LinLogTransform.transform_non_affine` (`plot/scale.py:106-115`). -/
noncomputable def LinLog.transform (s : LinLog) (v : ℝ) : ℝ :=
  if v > s.thresh then s.thresh * (s.adj + Real.log (v / s.thresh) / Real.log s.base)
  else v * s.adj

/-- One element of `InvertedLinLogTransform.transform_non_affine` (`plot/scale.py:146-157`);
`inv_lin_thresh = lin_thresh * _lin_scale_adj` (`:141`). -/
noncomputable def LinLog.inverse (s : LinLog) (v : ℝ) : ℝ :=
  if v > s.thresh * s.adj then s.thresh * s.base ^ (v / s.thresh - s.adj)
  else v / s.adj

/-- `get_scale` (`plot/scale.py:426-442`); the assertions are returned as an error. -/
noncomputable def getScale (base thresh vmin vmax f : ℝ) : Except String ℝ :=
  if ¬ 1 < base then .error "AssertionError"
  else if ¬ (vmin < thresh ∧ thresh < vmax) then .error "AssertionError"
  else if ¬ (0 < f ∧ f < 1) then .error "AssertionError"
  else
    let numerator := (base - 1) * f * thresh * Real.log (vmax / thresh)
    let denominator := base * (f - 1) * (thresh - vmin) * Real.log base
    .ok (-numerator / denominator)

/-- `PlotConfig.lin_frac`'s setter (`plot/plotter.py:341-346`). -/
noncomputable def setLinFrac (f : ℝ) : Except String ℝ :=
  if ¬ (0 < f ∧ f ≤ 1 / 2) then .error "lin_frac must be in (0, 0.5]" else .ok f

/-- `_DummyAxis.get_view_interval` and `get_data_interval` (`plot/scale.py:40-46`): the interval each
sub-locator is told to cover. -/
noncomputable def dummyInterval (thresh : ℝ) (isLog : Bool) (v : ℝ × ℝ) : ℝ × ℝ :=
  if v.1 < thresh ∧ thresh < v.2 then (if isLog then (thresh, v.2) else (v.1, thresh)) else v

/-- `LinLogLocator.tick_values` (`plot/scale.py:298-324`) without matplotlib's `raise_if_exceeds` limit;
`lin` and `log` are what the two sub-locators return.  `np.unique` = sort and remove duplicates. -/
noncomputable def tickValues (thresh : ℝ) (lin log : List ℝ) (vmin vmax : ℝ) : List ℝ :=
  let lo := if vmin > vmax then vmax else vmin
  let hi := if vmin > vmax then vmin else vmax
  let a := if lo < thresh then lin.filter (fun x => x < min thresh hi) else []
  let b := if hi > thresh then log.filter (fun x => x > max lo thresh) else []
  ((a ++ b).dedup).mergeSort (fun x y => x ≤ y)

end Elisa.Plot
