import Verif.Infer.Intensity
import Verif.Models.Spectra

/-!
# Model of the front ends `MLEResult.flux`, `lumin` and `eiso` (results.py:63-90, 1058-1296)

The energy grid, the sum over the grid and the factor of the unit of the three methods, on top of `_intensity_ci`
(`Verif/Infer/Intensity.lean`).  `dl z` is the luminosity distance of the cosmology object in cm (astropy, opaque).
Not modelled: JAX, rounding, the names of the units.
-/

namespace Elisa.Infer.FitFlux

open Elisa Elisa.Infer Elisa.Models.Spectra Real

variable {P : Type}

/-- What the user asks for: the arguments `emin`, `emax` (rest frame for `lumin` and `eiso`), `ngrid`, `log` of
results.py:1058-1069, 1133-1145, 1213-1226. -/
structure Band where
  emin : ℝ
  emax : ℝ
  ngrid : ℕ
  log : Bool

/-- `_flux` of `FitResult.__init__` for one data set (results.py:67-88): the sum of `ne` or `ene` times the widths. -/
noncomputable def fluxOn (model : ModelFn) (energy : Bool) (egrid : List ℝ) : ℝ :=
  let f := if energy then ene model egrid else ne model egrid
  (List.zipWith (fun v d => v * d) f (diff egrid)).sum

/-- The grid of `flux` (results.py:1121-1124). -/
noncomputable def gridOf (b : Band) : List ℝ :=
  if b.log then geomspace b.emin b.emax b.ngrid else linspace b.emin b.emax b.ngrid

/-- The grid of `lumin` and `eiso` (results.py:1197-1200, 1279-1282): the rest-frame grid divided by `1 + z`. -/
noncomputable def restGrid (b : Band) (z : ℝ) : List ℝ := (gridOf b).map fun e => e / (1 + z)

/-- `MLEResult.flux` (results.py:1058-1131): the converter is the identity. -/
noncomputable def flux (E : IntensityEngine P) (method : CiMethod) (ds : List (String × Nat)) (model : Nat → P → ModelFn)
    (energy : Bool) (b : Band) : Except PyErr (List (String × Intensity)) :=
  intensity { E with factor := 1 } method ds fun d p => fluxOn (model ((ds.lookup d).getD 0) p) energy (gridOf b)

/-- `factor` of `lumin` (results.py:1202). -/
noncomputable def luminFactor (dl : ℝ → ℝ) (z : ℝ) : ℝ := 4 * π * dl z ^ 2

/-- `MLEResult.lumin` (results.py:1133-1208). -/
noncomputable def lumin (E : IntensityEngine P) (method : CiMethod) (ds : List (String × Nat)) (model : Nat → P → ModelFn)
    (dl : ℝ → ℝ) (z : ℝ) (b : Band) : Except PyErr (List (String × Intensity)) :=
  intensity { E with factor := luminFactor dl z } method ds
    fun d p => fluxOn (model ((ds.lookup d).getD 0) p) true (restGrid b z)

/-- `MLEResult.eiso` (results.py:1211-1296): `factor *= duration / (1 + z)`. -/
noncomputable def eiso (E : IntensityEngine P) (method : CiMethod) (ds : List (String × Nat)) (model : Nat → P → ModelFn)
    (dl : ℝ → ℝ) (z duration : ℝ) (b : Band) : Except PyErr (List (String × Intensity)) :=
  intensity { E with factor := luminFactor dl z * (duration / (1 + z)) } method ds
    fun d p => fluxOn (model ((ds.lookup d).getD 0) p) true (restGrid b z)

end Elisa.Infer.FitFlux
