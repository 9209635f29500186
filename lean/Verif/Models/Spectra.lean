import Mathlib.Analysis.SpecialFunctions.Integrals.Basic
import Mathlib.Analysis.SpecialFunctions.ImproperIntegrals
import Mathlib.Analysis.SpecialFunctions.Sqrt
import Mathlib.Tactic

/-!
# Spectral components on an energy grid

Model of the component functions of `/repo/src/elisa/models/add.py`, `conv.py` and of
`NumericalIntegral._make_integral` (`/repo/src/elisa/models/model.py:1712-1741`).

Simplifications: exact real numbers for floating point; an energy grid is a list of reals, the value
of a model on a grid of `n + 1` edges is a list of `n` bins.
-/

namespace Elisa.Models.Spectra

open Real

/-- A model function: energy grid to bin values. -/
abbrev ModelFn := List ℝ → List ℝ

/-- `f(x[1:], x[:-1])` bin by bin. -/
def perBin {α : Type} (f : ℝ → ℝ → α) (egrid : List ℝ) : List α := List.zipWith (fun b a => f a b) egrid.tail egrid

/-- `f[1:] - f[:-1]`, i.e. `jnp.diff`. -/
def diff (xs : List ℝ) : List ℝ := List.zipWith (fun b a => b - a) xs.tail xs

/-- `_powerlaw_integral`, add.py:40-50. -/
noncomputable def powerlawIntegral (egrid : List ℝ) (alpha : ℝ) : List ℝ :=
  let oneMinusAlpha := if alpha ≠ 1 then 1 - alpha else 1
  let f1 := diff (egrid.map fun e => e ^ oneMinusAlpha / oneMinusAlpha)
  let f2 := diff (egrid.map Real.log)
  if alpha ≠ 1 then f1 else f2

/-- `PowerLaw.integral`, add.py:655-657. -/
noncomputable def powerLaw (alpha K : ℝ) : ModelFn := fun egrid =>
  (powerlawIntegral egrid alpha).map fun v => K * v

/-- `BrokenPL.integral`, add.py:378-393. The value computed for the bin that contains the break is
discarded (`f.at[idx].set(...)` returns a new array that is not kept), so it is left out. -/
noncomputable def brokenPL (alpha1 Eb alpha2 K : ℝ) : ModelFn := fun egrid =>
  let scaled := egrid.map fun e => e / Eb
  let p1 := powerlawIntegral scaled alpha1
  let p2 := powerlawIntegral scaled alpha2
  let mask := egrid.dropLast.map fun e => decide (e ≤ Eb)
  let f := List.zipWith (fun (m : Bool) p => if m then p.1 else p.2) mask (p1.zip p2)
  f.map fun v => K * v

/-- 1 keV in erg, add.py:692. -/
noncomputable def keVToErg : ℝ := 1.602176634e-9

/-- First element of an array of length one. -/
def item (xs : List ℝ) : ℝ := xs.headD 0

/-- `PLFluxNorm.eval` with `_energy = False` (`PLPhFlux`), add.py:682-704. -/
noncomputable def plPhFlux (emin emax alpha F : ℝ) : ModelFn := fun egrid =>
  let f := item (powerlawIntegral [emin, emax] alpha)
  let factor := F / f
  (powerlawIntegral egrid alpha).map fun v => factor * v

/-- `PLFluxNorm.eval` with `_energy = True` (`PLEnFlux`), add.py:682-704. -/
noncomputable def plEnFlux (emin emax alpha F : ℝ) : ModelFn := fun egrid =>
  let f := item (powerlawIntegral [emin, emax] (alpha - 1))
  let factor := F / (f * keVToErg)
  (powerlawIntegral egrid alpha).map fun v => factor * v

/-- `Lorentz.integral`, add.py:553-561. -/
noncomputable def lorentz (El sigma K : ℝ) : ModelFn := fun egrid =>
  let norm := 2 * K / (π + 2 * arctan (2 * El / sigma))
  (diff (egrid.map fun e => arctan (2 * (e - El) / sigma))).map fun v => norm * v

/-- `Band.continuum`, add.py:100-121, at one energy. -/
noncomputable def band (alpha beta Ec K e : ℝ) : ℝ :=
  let amb' := alpha - beta
  let invEc := 1 / Ec
  let amb := if amb' < invEc then invEc else amb'
  let Ebreak := Ec * amb
  K * exp (if e < Ebreak then alpha * log (e / 100) - e / Ec
    else amb * log (amb * Ec / 100) - amb + beta * log (e / 100))

/-- `BandEp.continuum`, add.py:177-200, at one energy. -/
noncomputable def bandEp (alpha beta Ep K e : ℝ) : ℝ :=
  let Ec := Ep / (2 + alpha)
  let Ebreak := (alpha - beta) * Ec
  let amb' := alpha - beta
  let invEc := 1 / Ec
  let amb := if amb' < invEc then invEc else amb'
  K * exp (if e < Ebreak then alpha * log (e / 100) - e / Ec
    else amb * log (amb * Ec / 100) - amb + beta * log (e / 100))

/-- `CutoffPL.continuum`, add.py:434-439. -/
noncomputable def cutoffPL (alpha Ec K e : ℝ) : ℝ := K * e ^ (-alpha) * exp (-e / Ec)

/-- `Compt.continuum`, add.py:473-479. -/
noncomputable def compt (alpha Ep K e : ℝ) : ℝ := K * e ^ (-alpha) * exp (e * ((alpha - 2) / Ep))

/-- `OTTB.continuum`, add.py:590-594. -/
noncomputable def ottb (kT K e : ℝ) : ℝ := K * exp ((1 - e) / kT) / e

/-- `BentPL.continuum`, add.py:231-236. -/
noncomputable def bentPL (alpha Eb K e : ℝ) : ℝ := K * 2 / (1 + (e / Eb) ^ alpha)

/-- `SmoothlyBrokenPL.continuum`, add.py:846-861. -/
noncomputable def smoothlyBrokenPL (alpha1 Eb alpha2 rho K e : ℝ) : ℝ :=
  let s := e / Eb
  let x := (alpha2 - alpha1) / rho * log s
  let alpha := if x > 30 then alpha2 else alpha1
  let r := if |x| > 30 then 0.5 else 0.5 * (1 + exp x)
  K * s ^ (-alpha) * r ^ (-rho)

/-- `Blackbody.continuum`, add.py:266-286. -/
noncomputable def blackbody (kT K e : ℝ) : ℝ :=
  let x := e / kT
  let tmp := 8.0525 * K * e / (kT * kT * kT)
  let x' := if x ≥ 50 then 1 else x
  if x ≤ 1e-4 then tmp else if x ≥ 50 then 0 else tmp * x / (exp x' - 1)

/-- `BlackbodyRad.continuum`, add.py:317-338. -/
noncomputable def blackbodyRad (kT K e : ℝ) : ℝ :=
  let x := e / kT
  let tmp := 1.0344e-3 * K * e
  let x' := if x ≥ 50 then 1 else x
  if x ≤ 1e-4 then tmp * kT else if x ≥ 50 then 0 else tmp * e / (exp x' - 1)

/-- `NumericalIntegral._make_integral` with `'trapz'`, model.py:1731-1743; `add` is
`self.type == 'add'`. -/
noncomputable def trapz (add : Bool) (continuum : ℝ → ℝ) : ModelFn := fun egrid =>
  perBin (fun a b => (if add then 0.5 * (b - a) else 0.5) * (continuum a + continuum b)) egrid

/-- `NumericalIntegral._make_integral` with `'simpson'`, model.py:1725-1736. -/
noncomputable def simpson (add : Bool) (continuum : ℝ → ℝ) : ModelFn := fun egrid =>
  perBin (fun a b => (if add then (b - a) / 6 else 1 / 6) *
    (continuum a + 4 * continuum (0.5 * (a + b)) + continuum b)) egrid

/-! ## Derived quantities (`CompiledModel`) -/

/-- `CompiledModel.ne`, model.py:449-459: `eval(egrid) / de`. -/
noncomputable def ne (model : ModelFn) : ModelFn := fun egrid =>
  List.zipWith (fun v d => v / d) (model egrid) (diff egrid)

/-- `CompiledModel.ene`, model.py:508-520. -/
noncomputable def ene (model : ModelFn) : ModelFn := fun egrid =>
  List.zipWith (fun f v => f * v) (perBin (fun a b => keVToErg * sqrt (a * b)) egrid) (ne model egrid)

/-- `CompiledModel.eene`, model.py:549-562. -/
noncomputable def eene (model : ModelFn) : ModelFn := fun egrid =>
  List.zipWith (fun f v => f * v) (perBin (fun a b => keVToErg * (a * b)) egrid) (ne model egrid)

/-- `jnp.linspace(a, b, n)`. -/
noncomputable def linspace (a b : ℝ) (n : ℕ) : List ℝ :=
  (List.range n).map fun i : ℕ => a + (b - a) * ((i : ℝ) / ((n : ℝ) - 1))

/-- `jnp.geomspace(a, b, n)` for positive ends. -/
noncomputable def geomspace (a b : ℝ) (n : ℕ) : List ℝ :=
  (List.range n).map fun i : ℕ => a * (b / a) ^ ((i : ℝ) / ((n : ℝ) - 1))

/-- The grid of `CompiledModel.flux`, model.py:670-673, and of `NormConvolution.eval`,
conv.py:81-84. -/
noncomputable def bandGrid (emin emax : ℝ) (n : ℕ) (lg : Bool) : List ℝ :=
  if lg then geomspace emin emax n else linspace emin emax n

/-- `CompiledModel.flux`, model.py:670-686: `sum(v * de)` of `ne` or `ene`. -/
noncomputable def flux (model : ModelFn) (emin emax : ℝ) (energy : Bool) (n : ℕ) (lg : Bool) : ℝ :=
  let egrid := bandGrid emin emax n lg
  let f := if energy then ene model egrid else ne model egrid
  (List.zipWith (fun v d => v * d) f (diff egrid)).sum

/-- `CompiledModel.lumin`, model.py:735-757. `dl z` is the luminosity distance of the cosmology object
(astropy, opaque), already in cm: the unit conversion of lines 748-751 is part of it. -/
noncomputable def lumin (dl : ℝ → ℝ) (model : ModelFn) (eminRest emaxRest z : ℝ) (n : ℕ) (lg : Bool) : ℝ :=
  flux model (eminRest / (1 + z)) (emaxRest / (1 + z)) true n lg * (4 * π * dl z ^ 2)

/-- `CompiledModel.eiso`, model.py:798-809. -/
noncomputable def eiso (dl : ℝ → ℝ) (model : ModelFn) (eminRest emaxRest z duration : ℝ) (n : ℕ) (lg : Bool) : ℝ :=
  lumin dl model eminRest emaxRest z n lg * (duration / (1 + z))

/-! ## Convolution components -/

/-- `ZAShift.convolve`, conv.py:293-300. -/
noncomputable def zaShift (z : ℝ) (model : ModelFn) : ModelFn := fun egrid =>
  (model (egrid.map fun e => e * (1 + z))).map fun v => v / (1 + z)

/-- `ZMShift.convolve`, conv.py:329-336. -/
noncomputable def zmShift (z : ℝ) (model : ModelFn) : ModelFn := fun egrid =>
  model (egrid.map fun e => e * (1 + z))

/-- Speed of light in km/s, conv.py:374. -/
noncomputable def cKms : ℝ := 299792.458

/-- `VAShift.convolve` and `VMShift.convolve`, conv.py:367-376 and 406-415. -/
noncomputable def vShift (v : ℝ) (model : ModelFn) : ModelFn := fun egrid =>
  model (egrid.map fun e => e * (1 - v / cKms))

/-- `PhFlux.convolve`, conv.py:184-194, with the band grid of `NormConvolution.eval`. -/
noncomputable def phFlux (emin emax F : ℝ) (n : ℕ) (lg : Bool) (model : ModelFn) : ModelFn := fun egrid =>
  let mflux := (model (bandGrid emin emax n lg)).sum
  (model egrid).map fun v => F / mflux * v

/-- `EnFlux.convolve`, conv.py:243-256. -/
noncomputable def enFlux (emin emax F : ℝ) (n : ℕ) (lg : Bool) (model : ModelFn) : ModelFn := fun egrid =>
  let g := bandGrid emin emax n lg
  let mflux := (List.zipWith (fun c v => c * v) (perBin (fun a b => keVToErg * sqrt (a * b)) g) (model g)).sum
  (model egrid).map fun v => F / mflux * v

end Elisa.Models.Spectra
