import Verif.Grouping.Float
import Verif.Grouping.Signif

/-!
# The grouping by plain significance with every result rounded

`group_sig_normal` in float64; used for the method `bsig`, and for `sig` with Gaussian data or without a background (base.py:562-563, 576-577).
-/

namespace Elisa.Grouping.Fl

open Elisa Elisa.Grouping

/-- `group_count - sig * np.sqrt(group_variance)` (grouping.py:1064, 1083-1084). -/
noncomputable def Impl.excess (F : Impl) (sig c v : ℝ) : ℝ := F.rnd (c - F.rnd (sig * F.rnd (Real.sqrt v)))

/-- The loop of `group_sig_normal` (grouping.py:1059-1079), see `normalLoop`. -/
noncomputable def Impl.normalLoop (F : Impl) (sig : ℝ) : List (ℝ × ℝ) → ℕ → ℝ → ℝ → List ℕ → List ℕ
  | [], _, _, _, idx => idx
  | [(d, e)], _, gc, gv, idx =>
    if (F.excess sig (F.rnd (gc + d)) (F.rnd (gv + F.rnd (e * e))) < 0 ∨ F.rnd (gv + F.rnd (e * e)) = 0) ∧ 1 < idx.length
    then idx.tail else idx
  | (d, e) :: q :: r, i, gc, gv, idx =>
    if 0 ≤ F.excess sig (F.rnd (gc + d)) (F.rnd (gv + F.rnd (e * e))) ∧ 0 < F.rnd (gv + F.rnd (e * e))
    then F.normalLoop sig (q :: r) (i + 1) 0 0 ((i + 1) :: idx)
    else F.normalLoop sig (q :: r) (i + 1) (F.rnd (gc + d)) (F.rnd (gv + F.rnd (e * e))) idx

/-- Final success test (grouping.py:1081-1087), see `normalSuccess`. -/
noncomputable def Impl.normalSuccess (F : Impl) (count error : List ℝ) (sig : ℝ) (idx : List ℕ) : Bool :=
  (List.zip (F.reduceat count idx) (F.reduceat (error.map fun e => F.rnd (e * e)) idx)).all fun p => decide (0 ≤ F.excess sig p.1 p.2)

/-- `group_sig_normal` (grouping.py:1026-1092). -/
noncomputable def Impl.groupSigNormal (F : Impl) (count error : List ℝ) (sig : ℝ) : Except PyErr (List Int × Bool) :=
  if count.length ≠ error.length then .error .assertionError
  else if sig ≤ 0 then .error .assertionError
  else if count = [] then .error .indexError
  else
    let idx := (F.normalLoop sig (List.zip count error) 0 0 0 [0]).reverse
    .ok (setFlags count.length idx, F.normalSuccess count error sig idx)

end Elisa.Grouping.Fl
