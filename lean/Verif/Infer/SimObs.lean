import Verif.Data.Construct
import Verif.Infer.Likelihood

/-!
# Model of `CompiledModel.simulate` and `simulate_from_data` (model.py:811-1142)

The random generator is a parameter: a state and two functions, asked for a list of Poisson or normal variates.  What the variates are is NumPy's
business; the theorems say with which means, widths and generator states they are asked for.  Numbers are exact; `none` stands for a
non-finite mean.
-/

namespace Elisa.Infer

open Elisa Elisa.Data Elisa.Grouping

/-- `np.random.default_rng(int(seed))` (model.py:992): vectors of variates and the next state. -/
structure SimRng (σ : Type) where
  poisson : σ → List ℝ → List ℝ × σ
  normal : σ → List (Option ℝ) → List ℝ → List ℝ × σ

/-- The arguments of `simulate` (model.py:905-931); `nchan`, `ncol` are the sizes of `channel` and of the rows of the response, `fwhm` the later
`channel_fwhm` of the response, `ignoreBad` a keyword handed to `ObservationData`. -/
structure SimInput where
  egrid : List ℝ
  emin : List ℝ
  emax : List ℝ
  matrix : List (List ℝ)
  nchan : Nat
  ncol : Nat
  fwhm : List ℝ
  specExposure : ℝ
  specPoisson : Bool
  specErrors : Option (List ℝ)
  backCounts : Option (List ℝ)
  backErrors : Option (List ℝ)
  backExposure : Option ℝ
  backPoisson : Option Bool
  specArea : ℝ ⊕ List ℝ
  specBack : ℝ ⊕ List ℝ
  backArea : ℝ ⊕ List ℝ
  backBack : ℝ ⊕ List ℝ
  quality : Option (List Int)
  grouping : Option (List Int)
  ignoreBad : Bool

/-- The background arguments after the checks (model.py:1029-1075); `errors` is only meaningful for normal backgrounds. -/
structure SimBack where
  counts : List ℝ
  errors : List ℝ
  exposure : ℝ
  poisson : Bool

/-- The checks on `spec_errors` (model.py:1016-1027). -/
def SimInput.checkSpecErrors (i : SimInput) (n : Nat) : Except PyErr (List ℝ) :=
  if i.specPoisson then .ok []
  else match i.specErrors with
    | none => .error .valueError
    | some e => if e.length ≠ n then .error .valueError else .ok e

/-- `np.clip(back_counts, 0, None)` if a Poisson variate depends on it (model.py:1048-1056). -/
noncomputable def clipBack (either : Bool) (b : List ℝ) : List ℝ := if either then b.map fun x => max x 0 else b

/-- The background errors (model.py:1058-1069). -/
def SimInput.checkBackErrors (i : SimInput) (n : Nat) (poisson : Bool) : Except PyErr (List ℝ) :=
  if poisson then .ok []
  else match i.backErrors with
    | none => .error .valueError
    | some e => if e.length ≠ n then .error .valueError else .ok e

/-- The checks on the background arguments (model.py:1029-1075). -/
noncomputable def SimInput.checkBack (i : SimInput) (n : Nat) : Except PyErr (Option SimBack) :=
  if i.backCounts = none ∧ i.backExposure = none ∧ i.backPoisson = none ∧ i.backErrors = none then .ok none
  else match i.backCounts, i.backExposure, i.backPoisson with
    | some b, some t, some p =>
      if b.length ≠ n then .error .valueError
      else (i.checkBackErrors n p).map fun e => some ⟨clipBack (i.specPoisson || p) b, e, t, p⟩
    | _, _, _ => .error .valueError

/-- `_coerce_scale` (model.py:1004-1014) of the four scales (model.py:1077-1080). -/
def SimInput.scalesOk (i : SimInput) (n : Nat) : Bool :=
  shapeOk n i.specArea && shapeOk n i.specBack && shapeOk n i.backArea && shapeOk n i.backBack

/-- `rng.poisson(lam)`: NumPy raises `ValueError` for negative, NaN or infinite means (model.py:1088-1122). -/
noncomputable def drawPoisson {σ : Type} (g : SimRng σ) (s : σ) (lam : List (Option ℝ)) : Except PyErr (List ℝ × σ) :=
  if lam.all fun x => decide (∃ y, x = some y ∧ 0 ≤ y) then .ok (g.poisson s (lam.map fun x => x.getD 0)) else .error .valueError

/-- `rng.normal(mean, sd)`: NumPy raises `ValueError` for a negative width (model.py:1088-1122). -/
noncomputable def drawNormal {σ : Type} (g : SimRng σ) (s : σ) (mean : List (Option ℝ)) (sd : List ℝ) :
    Except PyErr (List ℝ × σ) :=
  if sd.any fun x => decide (x < 0) then .error .valueError else .ok (g.normal s mean sd)

/-- Poisson or normal variates (model.py:1083-1088, 1118-1123). -/
noncomputable def drawCounts {σ : Type} (g : SimRng σ) (s : σ) (poisson : Bool) (mean : List (Option ℝ)) (sd : List ℝ) :
    Except PyErr (List ℝ × σ) :=
  if poisson then drawPoisson g s mean else drawNormal g s mean sd

/-- One simulated spectrum (model.py:1082-1100, 1118-1133): the variates, their errors and `SpectrumData(...)`. -/
noncomputable def simSpectrum {σ : Type} (g : SimRng σ) (s : σ) (i : SimInput) (poisson : Bool) (mean : List (Option ℝ))
    (errors : List ℝ) (exposure : ℝ) (area back : ℝ ⊕ List ℝ) : Except PyErr (Spectrum × σ) := do
  let d ← drawCounts g s poisson mean errors
  let sp ← Spectrum.init { counts := d.1, errors := if poisson then d.1.map Real.sqrt else errors, poisson := poisson,
                           exposure := exposure, quality := i.quality, grouping := i.grouping,
                           areaScale := .inr (expand mean.length area), backScale := .inr (expand mean.length back),
                           net := none, sysErrors := .inl 0 }
  return (sp, d.2)

/-- The background spectrum, if any (model.py:1082-1104). -/
noncomputable def simBack {σ : Type} (g : SimRng σ) (s : σ) (i : SimInput) : Option SimBack → Except PyErr (Option Spectrum × σ)
  | none => .ok (none, s)
  | some b => do
    let r ← simSpectrum g s i b.poisson (b.counts.map some) b.errors b.exposure i.backArea i.backBack
    return (some r.1, r.2)

/-- The mean of the source spectrum in channel `c` (model.py:1106-1116); `fold c` is the folded model. -/
noncomputable def SimInput.mean (i : SimInput) (back : Option SimBack) (fold : Nat → ℝ) (c : Nat) : Option ℝ :=
  let n := i.emin.length
  let area := at0 (expand n i.specArea) c
  match back with
  | none => some (fold c * i.specExposure * area)
  | some b =>
    let den := b.exposure * at0 (expand n i.backArea) c * at0 (expand n i.backBack) c
    if den = 0 then none
    else some (fold c * i.specExposure * area +
      i.specExposure * area * at0 (expand n i.specBack) c / den * at0 b.counts c)

/-- `simulate` (model.py:905-1142): `v` are the model's values in the photon bins, `isAdd` whether the model is additive. -/
noncomputable def simulate {σ : Type} (g : SimRng σ) (s : σ) (isAdd : Bool) (v : List ℝ) (i : SimInput) :
    Except PyErr (Obs × ObsObj) :=
  if !isAdd then .error .typeError
  else do
    let resp ← Response.init i.egrid i.emin i.emax i.nchan i.ncol i.matrix i.fwhm
    let n := i.emin.length
    let e ← i.checkSpecErrors n
    let back ← i.checkBack n
    if !i.scalesOk n then .error .valueError
    else do
      let b ← simBack g s i back
      let sp ← simSpectrum g b.2 i i.specPoisson ((List.range n).map (i.mean back (foldAt v i.matrix))) e i.specExposure
        i.specArea i.specBack
      let o ← Obs.make sp.1 b.1 resp i.ignoreBad
      let x ← ObsObj.new o [(i.emin.headD 0, i.emax.getLastD 0)]
      return (o, x)

/-- The arguments `simulate_from_data` builds (model.py:844-895); `x` is the observation object with its current ranges and flags, `egrid` and
`fwhm` come with its response. -/
def fromDataInput (egrid fwhm : List ℝ) (o : Obs) (x : ObsObj) (specExposure backExposure : Option ℝ) (ignoreBad : Bool) : SimInput where
  egrid := egrid
  emin := o.resp.emin
  emax := o.resp.emax
  matrix := o.resp.matrix
  nchan := o.resp.channelNumber
  ncol := o.resp.channelNumber
  fwhm := fwhm
  specExposure := specExposure.getD o.spec.exposure
  specPoisson := o.spec.poisson
  specErrors := some o.spec.errors
  backCounts := o.back.map (·.counts)
  backErrors := o.back.map (·.errors)
  backExposure := o.back.map fun b => backExposure.getD b.exposure
  backPoisson := o.back.map (·.poisson)
  specArea := .inr o.spec.areaScale
  specBack := .inr o.spec.backScale
  backArea := match o.back with | none => .inl 1 | some b => .inr b.areaScale
  backBack := match o.back with | none => .inl 1 | some b => .inr b.backScale
  quality := some (o.good.map fun b => if b then 0 else 1)
  grouping := some x.st.grouping
  ignoreBad := ignoreBad

/-- `simulate_from_data` (model.py:811-901). -/
noncomputable def simulateFromData {σ : Type} (g : SimRng σ) (s : σ) (isAdd : Bool) (v egrid fwhm : List ℝ) (o : Obs) (x : ObsObj)
    (specExposure backExposure : Option ℝ) (ignoreBad : Bool) : Except PyErr (Obs × ObsObj) := do
  let r ← simulate g s isAdd v (fromDataInput egrid fwhm o x specExposure backExposure ignoreBad)
  match r.2.setErange r.1 x.erange with
  | (y, none) => return (r.1, y)
  | (_, some e) => .error e

end Elisa.Infer
