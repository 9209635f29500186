import Verif.Models.Spectra

/-!
# Multiplicative components

Model of `/repo/src/elisa/models/mul.py`.

Simplifications: exact real numbers; a bin whose value is NaN in floating point is `none` where that
can happen (`plAbs`); the cross section table is an argument.
-/

namespace Elisa.Models.Spectra

open Real

/-- `Constant.integral`, mul.py:54-56. -/
def constant (f : ℝ) : ModelFn := fun egrid => List.replicate (egrid.length - 1) f

/-- `Edge.continuum`, mul.py:88-94. -/
noncomputable def edge (Ec D e : ℝ) : ℝ := if e ≥ Ec then exp (-D * (e / Ec) ^ (3 : ℝ)) else 1

/-- `ExpAbs.continuum`, mul.py:116-118. -/
noncomputable def expAbs (Ec e : ℝ) : ℝ := exp (-Ec / e)

/-- `ExpFac.continuum`, mul.py:154-159. -/
noncomputable def expFac (A f Ec e : ℝ) : ℝ := if e ≥ Ec then 1 + A * exp (-f * e) else 1

/-- `GAbs.continuum`, mul.py:195-204. -/
noncomputable def gAbs (El sigma tau e : ℝ) : ℝ :=
  exp (-tau / (sqrt (2 * π) * sigma) * exp (-0.5 * ((e - El) / sigma) ^ (2 : ℝ)))

/-- `HighECut.continuum`, mul.py:236-240. -/
noncomputable def highECut (Ec Ef e : ℝ) : ℝ := if e ≥ Ec then exp ((Ec - e) / Ef) else 1

/-- `PLAbs.integral`, mul.py:266-271. For `alpha = 1` the quotient `K / 0` is infinite (or NaN for
`K = 0`) and the difference of two such values is NaN. -/
noncomputable def plAbs (alpha K : ℝ) : List ℝ → List (Option ℝ) := fun egrid =>
  let oneMinusAlpha := 1 - alpha
  if oneMinusAlpha = 0 then List.replicate (egrid.length - 1) none
  else
    let f := egrid.map fun e => K / oneMinusAlpha * e ^ oneMinusAlpha
    (List.zipWith (fun d w => d / w) (diff f) (diff egrid)).map some

/-- The index `clip(searchsorted(xp, x, side='right'), 1, len(xp) - 1)` of `jnp.interp` (mul.py:274-283). -/
noncomputable def interpIndex (x : ℝ) (xp : List ℝ) : ℕ :=
  max 1 (min (xp.countP fun v => decide (v ≤ x)) (xp.length - 1))

/-- `jnp.interp(x, xp, fp, left='extrapolate', right='extrapolate')` for a sorted table (mul.py:274-283). -/
noncomputable def interp (x : ℝ) (xp fp : List ℝ) : ℝ :=
  let i := interpIndex x xp
  let df := fp.getD i 0 - fp.getD (i - 1) 0
  let dx := xp.getD i 0 - xp.getD (i - 1) 0
  let delta := x - xp.getD (i - 1) 0
  if dx = 0 then fp.getD i 0 else fp.getD (i - 1) 0 + delta / dx * df

/-- `_make_interp(egrid, xsect)(e)`, mul.py:274-283: linear interpolation of the logarithms. -/
noncomputable def crossSection (table : List (ℝ × ℝ)) (e : ℝ) : ℝ :=
  exp (interp (log e) (table.map fun t => log t.1) (table.map fun t => log t.2))

/-- `PhotonAbsorption.continuum`, mul.py:359-388 (`PhAbs`, `TBAbs`, `WAbs`). -/
noncomputable def photonAbs (table : List (ℝ × ℝ)) (nH e : ℝ) : ℝ := exp (-nH * crossSection table e)

end Elisa.Models.Spectra
