import Verif.Grouping.FloatNormal

/-!
# The optimal grouping with a minimum plain significance, with every result rounded

`group_optsig_normal` in float64; used for the method `optbsig`, and for `optsig` with Gaussian data or without a background.
-/

namespace Elisa.Grouping.Fl

open Elisa Elisa.Grouping

/-- The significance block of `group_optsig_normal` (grouping.py:628-643), see `optNormalExtend`. -/
noncomputable def Impl.optNormalExtend (F : Impl) (counts errors : List ℝ) (sig : ℝ) (i j : ℕ) : Option ℕ :=
  let cts := F.sum i ((counts.take (j + 1)).drop i)
  let err := F.rnd (Real.sqrt (F.sum i (((errors.take (j + 1)).drop i).map fun e => F.rnd (e * e))))
  if F.rnd (cts - F.rnd (sig * err)) < 0 ∨ err = 0 then
    let cts' := (F.cumsum (counts.drop (j + 1))).map fun c => F.rnd (cts + c)
    let err' := (F.cumsum ((errors.drop (j + 1)).map fun e => F.rnd (e * e))).map fun v => F.rnd (err + F.rnd (Real.sqrt v))
    (((List.zip cts' err').findIdx? fun p => decide (0 ≤ F.rnd (p.1 - F.rnd (sig * p.2)) ∧ 0 < p.2)).map fun m => j + (m + 1))
  else some j

/-- `group_optsig_normal` (grouping.py:573-665) with the widths `bint` given. -/
noncomputable def Impl.groupOptsigNormal (F : Impl) (bint : List ℕ) (counts errors : List ℝ) (sig : ℝ) : Except PyErr (List Int × Bool) :=
  if ¬ (bint.length = counts.length ∧ counts.length = errors.length) then .error .assertionError
  else if sig ≤ 0 then .error .assertionError
  else
    let idx := (optLoop (F.optNormalExtend counts errors sig) bint bint.length bint.length 0 []).reverse
    .ok (setFlags bint.length idx, F.normalSuccess counts errors sig idx)

end Elisa.Grouping.Fl
