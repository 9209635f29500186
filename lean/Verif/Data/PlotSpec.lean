import Verif.Data.Obs

/-!
# Model of `ObservationData.plot_spec` (`src/elisa/data/base.py:696-835`)

What is drawn, as data: for every channel its horizontal bar, the total and background rates with their errors and the significance.  Colours, scales and labels are left out; real arithmetic, a
value that is infinite or NaN is `none`.
-/

namespace Elisa.Data

open Elisa Elisa.Grouping

/-- What is drawn for one channel. -/
structure Point where
  x : ℝ
  left : ℝ
  right : ℝ
  total : ℝ × ℝ
  back : Option (ℝ × ℝ)
  sig : Option ℝ

/-- Position and horizontal errors (base.py:755-760, 316-322): geometric mean on a logarithmic axis, midpoint on a linear one. -/
noncomputable def xBar (xlog : Bool) (lo hi : ℝ) : ℝ × ℝ × ℝ :=
  if xlog then (Real.sqrt (lo * hi), |lo - Real.sqrt (lo * hi)|, |hi - Real.sqrt (lo * hi)|)
  else (0.5 * (lo + hi), 0.5 * (hi - lo), 0.5 * (hi - lo))

/-- `factor = 1 / (exposure * width)` (base.py:762). -/
noncomputable def rateFactor (exposure lo hi : ℝ) : ℝ := 1 / (exposure * (hi - lo))

/-- `x / y`; not finite for `y = 0`. -/
noncomputable def quot (x y : ℝ) : Option ℝ := if y = 0 then none else some (x / y)

/-- The significance of one channel (base.py:792-810).  `back` are the counts, errors and ratio of the background with the flag whether it is Poisson.  With a background error of zero
`significance_gv` divides zero or a positive number by zero. -/
noncomputable def sigAt (poisson : Bool) (counts net netErr : ℝ) (back : Option (Bool × ℝ × ℝ × ℝ)) : Option ℝ :=
  if poisson then
    match back with
    | some (true, b, _, r) => some (significanceLima counts b r)
    | some (false, b, e, r) => if e * r = 0 then none else some (significanceGv counts b e r)
    | none => if 0 < net then quot net netErr else some 0
  else quot net netErr

/-- The vertical error of the significance (base.py:816): one, zero where the significance is zero. -/
noncomputable def sigErr (s : Option ℝ) : ℝ :=
  match s with
  | some s => if s ≠ 0 then 1 else 0
  | none => 1

/-- The background of channel `k` for the significance. -/
noncomputable def backAt (o : Obs) (st : ObsState) (k : Nat) : Option (Bool × ℝ × ℝ × ℝ) :=
  match o.back, st.back with
  | some b, some (bc, be, ratio) => some (b.poisson, bc.getD k 0, be.getD k 0, ratio.getD k 0)
  | _, _ => none

/-- What is drawn for channel `k` (base.py:755-825). -/
noncomputable def pointAt (o : Obs) (xlog : Bool) (st : ObsState) (k : Nat) : Point :=
  let lo := st.emin.getD k 0
  let hi := st.emax.getD k 0
  let factor := rateFactor o.spec.exposure lo hi
  { x := (xBar xlog lo hi).1, left := (xBar xlog lo hi).2.1, right := (xBar xlog lo hi).2.2
    total := (st.specCounts.getD k 0 * factor, st.specErrors.getD k 0 * factor)
    back := (backAt o st k).map fun b => (b.2.1 * (b.2.2.2 * factor), b.2.2.1 * (b.2.2.2 * factor))
    sig := sigAt o.spec.poisson (st.specCounts.getD k 0) (st.netCounts.getD k 0) (st.netErrors.getD k 0) (backAt o st k) }

/-- `plot_spec` (base.py:696-835). -/
noncomputable def plotSpec (o : Obs) (xlog : Bool) (st : ObsState) : List Point :=
  (List.range st.emin.length).map (pointAt o xlog st)

end Elisa.Data
