import Verif.Plot.LinLog
import Verif.Grouping.Signif

/-!
# Model of the number of ticks on the linear-logarithmic axis (`plot/scale.py`)
-/

namespace Elisa.Plot

open Elisa.Grouping

/-- `_DummyAxis.get_tick_space` (`plot/scale.py:59-69`): `space` is the number of ticks that fit on the whole axis, `v` the interval in view. -/
noncomputable def LinLog.tickSpace (s : LinLog) (isLog : Bool) (space : ℤ) (v : ℝ × ℝ) : ℤ :=
  let cut := s.thresh * s.adj
  let lo := s.transform v.1
  let hi := s.transform v.2
  let factor := if lo < cut ∧ cut < hi then (if isLog then 1 - (cut - lo) / (hi - lo) else (cut - lo) / (hi - lo)) else 1
  roundEven (space * factor)

end Elisa.Plot
