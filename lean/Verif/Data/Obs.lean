import Verif.Grouping.Scale
import Verif.Grouping.Signif

/-!
# Model of `src/elisa/data/base.py`: spectra, responses and observations

Arrays are lists of reals (NumPy: float64; NaN and rounding are not modelled).  Energies, counts and
matrices are inputs.  Plotting, names of channels and the fixed-data copy are not modelled.
-/

namespace Elisa.Data

open Elisa Elisa.Grouping

/-! ## SpectrumData -/

/-- A `SpectrumData` object after construction (base.py:1294-1303). -/
structure Spectrum where
  counts : List ℝ
  errors : List ℝ
  quality : List Int
  grouping : List Int
  poisson : Bool
  exposure : ℝ
  areaScale : List ℝ
  backScale : List ℝ
  netOpt : Option Bool

/-- `SpectrumData.net` (base.py:1386-1394): the explicit setting, otherwise whether any channel is
negative. -/
noncomputable def Spectrum.net (s : Spectrum) : Bool :=
  s.netOpt.getD (s.counts.any fun x => decide (x < 0))

/-- The arguments of `SpectrumData(...)` (base.py:1133-1148).  A scalar-or-array argument is a sum
type; the arrays are one-dimensional by construction. -/
structure SpecInput where
  counts : List ℝ
  errors : List ℝ
  poisson : Bool
  exposure : ℝ
  quality : Option (List Int)
  grouping : Option (List Int)
  areaScale : ℝ ⊕ List ℝ
  backScale : ℝ ⊕ List ℝ
  net : Option Bool
  sysErrors : ℝ ⊕ List ℝ

/-- `np.full(shape, x)` or the array itself (base.py:1195-1205). -/
def expand (n : Nat) : ℝ ⊕ List ℝ → List ℝ
  | .inl x => List.replicate n x
  | .inr xs => xs

/-- shape test `shape == () or shape == counts_shape` (base.py:1174-1192) -/
def shapeOk (n : Nat) : ℝ ⊕ List ℝ → Bool
  | .inl _ => true
  | .inr xs => xs.length == n

/-- `scale[(scale == 0) & (quality != 1)] = 1.0` (base.py:1241-1259). -/
noncomputable def resetZero (quality : List Int) (scale : List ℝ) : List ℝ :=
  List.zipWith (fun q s => if s = 0 ∧ q ≠ 1 then 1 else s) quality scale

/-- `SpectrumData.__init__` (base.py:1133-1303); warnings are not modelled.  An empty spectrum fails
at `grouping[0]` (IndexError). -/
noncomputable def Spectrum.init (i : SpecInput) : Except PyErr Spectrum :=
  let n := i.counts.length
  let quality := i.quality.getD (List.replicate n 0)
  let grouping := i.grouping.getD (List.replicate n 1)
  if i.errors.length ≠ n then .error .valueError
  else if quality.length ≠ n then .error .valueError
  else if grouping.length ≠ n then .error .valueError
  else if !shapeOk n i.areaScale then .error .valueError
  else if !shapeOk n i.backScale then .error .valueError
  else if !shapeOk n i.sysErrors then .error .valueError
  else
    let area := expand n i.areaScale
    let back := expand n i.backScale
    let sys := expand n i.sysErrors
    if !(quality.all fun q => decide (q ∈ ([0, 1, 2, 5, -1] : List Int))) then .error .valueError
    else if i.poisson && i.counts.any (fun c => decide (c < 0)) then .error .valueError
    else if i.errors.any (fun e => decide (e < 0)) then .error .valueError
    else if sys.any (fun e => decide (e < 0)) then .error .valueError
    else if i.exposure ≤ 0 then .error .valueError
    else
      let area := resetZero quality area
      let back := resetZero quality back
      if area.any (fun x => decide (x < 0)) then .error .valueError
      else if back.any (fun x => decide (x < 0)) then .error .valueError
      else if !((List.zip area quality).all fun p => decide (0 < p.1 ∨ p.2 = 1)) then
        .error .valueError
      else if !((List.zip back quality).all fun p => decide (0 < p.1 ∨ p.2 = 1)) then
        .error .valueError
      else match grouping with
        | [] => .error .indexError
        | g0 :: gs =>
          let grouping := (if g0 = -1 then 1 else g0) :: gs
          let errors := if i.poisson then i.errors else
            List.zipWith (fun (e : ℝ) (sc : ℝ × ℝ) => Real.sqrt (e ^ 2 + (sc.1 * sc.2) ^ 2)) i.errors
              (List.zip sys i.counts)
          .ok { counts := i.counts, errors := errors, quality := quality, grouping := grouping,
                poisson := i.poisson, exposure := i.exposure, areaScale := area, backScale := back,
                netOpt := i.net }

/-- `SpectrumData.group` (base.py:1305-1343): grouped counts and errors.  `quality=None` gives ones. -/
noncomputable def Spectrum.group (s : Spectrum) (flags : List Int) (quality : Option (List Bool)) :
    Except PyErr (List ℝ × List ℝ) :=
  let n := s.counts.length
  if flags.length ≠ n then .error .valueError
  else if (quality.map List.length).getD n ≠ n then .error .valueError
  else
    let factor : List ℝ := qualityFactor quality n
    let idx := groupIdx flags
    .ok (reduceat (mulArr factor s.counts) idx,
      (reduceat (mulArr (mulArr factor s.errors) s.errors) idx).map Real.sqrt)

/-! ## ResponseData -/

/-- A `ResponseData` object (base.py:1482-1490): channel energies and the redistribution matrix, one
row per photon energy bin.  `fwhm` is the value of `channel_fwhm`. -/
structure Response where
  emin : List ℝ
  emax : List ℝ
  matrix : List (List ℝ)
  fwhm : List ℝ

/-- `ResponseData.__init__` (base.py:1419-1490): sizes and monotonicity.  `nchan` is the size of the
array of channel names; the one-dimensionality tests hold by construction; `fwhm` is the later
result of `channel_fwhm` (base.py:1872-1890), an input here.  The rectangular shape of `matrix` is
given by the number of rows and columns `ncol`. -/
noncomputable def Response.init (egrid emin emax : List ℝ) (nchan ncol : Nat)
    (matrix : List (List ℝ)) (fwhm : List ℝ) : Except PyErr Response :=
  if ¬ (emin.length = emax.length ∧ emax.length = nchan) then .error .valueError
  else if egrid.length ≠ matrix.length + 1 ∨ nchan ≠ ncol then .error .valueError
  else if (List.zip emin emax).any fun p => decide (p.2 < p.1) then .error .valueError
  else if (List.zip egrid egrid.tail).any fun p => decide (p.2 ≤ p.1) then .error .valueError
  else .ok ⟨emin, emax, matrix, fwhm⟩

/-- `channel_number` (base.py:1797-1799). -/
def Response.channelNumber (r : Response) : Nat := r.emin.length

/-- Python's `min` of a non-empty slice (base.py:1602). -/
noncomputable def minOf : List ℝ → ℝ
  | [] => 0
  | x :: xs => xs.foldl min x

/-- Python's `max` of a non-empty slice (base.py:1603). -/
noncomputable def maxOf : List ℝ → ℝ
  | [] => 0
  | x :: xs => xs.foldl max x

/-- `ResponseData.group_energy` (base.py:1540-1608), energies only. -/
noncomputable def Response.groupEnergy (r : Response) (flags : List Int)
    (quality : Option (List Bool)) : Except PyErr (List ℝ × List ℝ) :=
  let n := r.channelNumber
  if flags.length ≠ n then .error .valueError
  else if (quality.map List.length).getD n ≠ n then .error .valueError
  else
    let idx := groupIdx flags
    if idx.length ≠ n then
      .ok ((edges idx n).map (fun e => minOf ((r.emin.take e.2).drop e.1)),
        (edges idx n).map (fun e => maxOf ((r.emax.take e.2).drop e.1)))
    else .ok (r.emin, r.emax)

/-- `ResponseData.group` (base.py:1492-1538), matrix part.  When channels are merged the matrix is
multiplied with the sparse grouping matrix whose column `k` holds the quality factors of the channels
of group `k`; otherwise it is returned as it is. -/
noncomputable def Response.groupMatrix (r : Response) (flags : List Int) (quality : List Bool) :
    List (List ℝ) :=
  let n := r.channelNumber
  let idx := groupIdx flags
  if idx.length ≠ n then
    r.matrix.map fun row => (edges idx n).map fun e =>
      sliceSum (mulArr (qualityFactor (some quality) n) row) e.1 e.2
  else r.matrix

/-! ## ObservationData -/

/-- The constant part of an `ObservationData` object (base.py:90-139). -/
structure Obs where
  spec : Spectrum
  back : Option Spectrum
  resp : Response
  good : List Bool

/-- The result of `set_grouping` (base.py:293-369): everything that is handed to a fit. -/
structure ObsState where
  grouping : List Int
  emin : List ℝ
  emax : List ℝ
  matrix : List (List ℝ)
  specCounts : List ℝ
  specErrors : List ℝ
  areaScale : List ℝ
  back : Option (List ℝ × List ℝ × List ℝ)  -- back_counts, back_errors, back_ratio
  netCounts : List ℝ
  netErrors : List ℝ
  ce : List ℝ
  ceErrors : List ℝ

/-- `np.isin(quality, bad)`; `bad = (1, 2, 5) if ignore_bad else (1,)` (base.py:114-117). -/
def goodOf (ignoreBad : Bool) (quality : List Int) : List Bool :=
  quality.map fun q => !(decide (q ∈ (if ignoreBad then [1, 2, 5] else [1] : List Int)))

/-- The good channels of the observation: those that are good in the spectrum and in the background
(base.py:114-131; the code only takes the intersection when the two arrays differ). -/
def goodBoth (ignoreBad : Bool) (spec : Spectrum) : Option Spectrum → List Bool
  | none => goodOf ignoreBad spec.quality
  | some b => List.zipWith (· && ·) (goodOf ignoreBad spec.quality) (goodOf ignoreBad b.quality)

/-- `ObservationData.__init__` up to the grouping (base.py:58-134). -/
def Obs.make (spec : Spectrum) (back : Option Spectrum) (resp : Response) (ignoreBad : Bool) :
    Except PyErr Obs :=
  if spec.counts.length ≠ resp.channelNumber then .error .valueError
  else if (back.map fun b => b.counts.length).getD resp.channelNumber ≠ resp.channelNumber then
    .error .valueError
  else
    let good := goodBoth ignoreBad spec back
    if !(good.any id) then .error .runtimeError
    else .ok ⟨spec, back, resp, good⟩

/-- `_get_channel_mask` (base.py:213-221): one row per requested energy range. -/
noncomputable def channelMask (erange : List (ℝ × ℝ)) (emin emax : List ℝ) : List (List Bool) :=
  erange.map fun r => List.zipWith (fun lo hi => decide (r.1 ≤ lo) && decide (hi ≤ r.2)) emin emax

/-- `mask &= n_good > 0` (base.py:310, 463), row by row. -/
def maskGood (rows : List (List Bool)) (nGood : List Nat) : List (List Bool) :=
  rows.map fun row => List.zipWith (fun m g => m && decide (0 < g)) row nGood

/-- `n_good = np.add.reduceat(good_quality.astype(int), group_idx)` (base.py:304-307, 453-456). -/
def nGood (good : List Bool) (flags : List Int) : List Nat :=
  reduceat (good.map fun b => if b then 1 else 0) (groupIdx flags)

/-- `np.any(mask, axis=0)` for `n` columns (base.py:302, 683). -/
def anyRow (rows : List (List Bool)) (n : Nat) : List Bool :=
  (List.range n).map fun k => rows.any fun row => row.getD k false

/-- The source/background scale arrays of `_group_scale_arrays` (base.py:141-190). -/
noncomputable def Obs.scaleArrays (o : Obs) (flags : List Int) : Except PyErr
    (ScaleGroupData ℝ × ScaleGroupData ℝ × Option (ScaleGroupData ℝ × ScaleGroupData ℝ)) := do
  let net := o.spec.net && o.back.isNone
  let sa ← groupScaleData o.spec.counts o.spec.areaScale flags (some o.good) net none none none none
  let sb ← groupScaleData o.spec.counts o.spec.backScale flags (some o.good) net none none none none
  match o.back with
  | none => return (sa, sb, none)
  | some b =>
    let ba ← groupScaleData b.counts b.areaScale flags (some o.good) false none none none none
    let bb ← groupScaleData b.counts b.backScale flags (some o.good) false none none none none
    return (sa, sb, some (ba, bb))

/-- `ObservationData.set_grouping` (base.py:258-369) for the energy ranges `erange`; `None` restores
the flags of the spectrum. -/
noncomputable def Obs.setGrouping (o : Obs) (erange : List (ℝ × ℝ)) (flags? : Option (List Int)) :
    Except PyErr ObsState := do
  let flags := flags?.getD o.spec.grouping
  if flags.length ≠ o.resp.channelNumber then .error .valueError
  match flags with
  | [] => .error .indexError
  | f0 :: fs =>
    let flags := (if f0 = -1 then 1 else f0) :: fs
    let (sc, se) ← o.spec.group flags (some o.good)
    let (sa, sb, backScales) ← o.scaleArrays flags
    let (emin, emax) ← o.resp.groupEnergy flags (some o.good)
    let matrix := o.resp.groupMatrix flags o.good
    let rows := channelMask erange emin emax
    let mask := List.zipWith (fun m g => m && decide (0 < g)) (anyRow rows emin.length)
      (nGood o.good flags)
    let emin := applyMask mask emin
    let emax := applyMask mask emax
    let sc := applyMask mask sc
    let se := applyMask mask se
    let unit := List.zipWith (fun lo hi => 1 / ((hi - lo) * o.spec.exposure)) emin emax
    match o.back, backScales with
    | some b, some (ba, bb) =>
      let (bc, be) ← b.group flags (some o.good)
      let ratio := applyMask mask (groupBackRatio o.spec.exposure b.exposure sa sb ba bb)
      let bc := applyMask mask bc
      let be := applyMask mask be
      let net := List.zipWith (· - ·) sc (List.zipWith (· * ·) ratio bc)
      let netE := (List.zipWith (· + ·) (se.map (· ^ 2))
        ((List.zipWith (· * ·) ratio be).map (· ^ 2))).map Real.sqrt
      return { grouping := flags, emin := emin, emax := emax,
               matrix := matrix.map (applyMask mask), specCounts := sc, specErrors := se,
               areaScale := applyMask mask sa.scale, back := some (bc, be, ratio),
               netCounts := net, netErrors := netE, ce := List.zipWith (· * ·) net unit,
               ceErrors := List.zipWith (· * ·) netE unit }
    | _, _ =>
      return { grouping := flags, emin := emin, emax := emax,
               matrix := matrix.map (applyMask mask), specCounts := sc, specErrors := se,
               areaScale := applyMask mask sa.scale, back := none,
               netCounts := sc, netErrors := se, ce := List.zipWith (· * ·) sc unit,
               ceErrors := List.zipWith (· * ·) se unit }

end Elisa.Data
