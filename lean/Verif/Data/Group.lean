import Verif.Data.Construct

/-!
# Model of `ObservationData.group` (base.py:371-694)

Warnings are represented by the returned Boolean (`False` = the `GroupingWarning` was emitted).
-/

namespace Elisa.Data

open Elisa Elisa.Grouping

/-- The `method` argument (base.py:508-673). -/
inductive Method where
  | const | min | sig | bmin | bsig | opt | optmin | optsig | optbmin | optbsig
  | unknown
deriving DecidableEq

/-- `method.startswith('opt')` (base.py:432, 504). -/
def Method.isOpt : Method → Bool
  | .opt | .optmin | .optsig | .optbmin | .optbsig => true
  | _ => false

/-- Python's `int(x)` for a float (grouping.py:31-32, 59, 180). -/
noncomputable def truncInt (x : ℝ) : Int := if 0 ≤ x then ⌊x⌋ else ⌈x⌉

/-- The masked arrays of one energy range (base.py:489-506). -/
structure Segment where
  specCounts : List ℝ
  netCounts : List ℝ
  netErrors : List ℝ
  backCounts : List ℝ
  backErrors : List ℝ
  ratio : RatioData
  fwhm : List ℝ
  countsOpt : List ℝ

/-- `_counts_data_for_opt_grouping` with `_raw_back_ratio` (base.py:99-110, 223-231). -/
noncomputable def Obs.countsOpt (o : Obs) : List ℝ :=
  match o.back with
  | none => o.spec.counts
  | some b => (List.range o.spec.counts.length).map fun i =>
      o.spec.counts.getD i 0 - guardedDiv 1
        (o.spec.exposure * o.spec.areaScale.getD i 0 * o.spec.backScale.getD i 0)
        (b.exposure * b.areaScale.getD i 0 * b.backScale.getD i 0) * b.counts.getD i 0

/-- The unmasked arrays over the pre-groups (base.py:459-487). -/
noncomputable def Obs.preData (o : Obs) (pre : List Int) : Except PyErr Segment := do
  let (sc, se) ← o.spec.group pre (some o.good)
  let (sa, sb, backScales) ← o.scaleArrays pre
  match o.back, backScales with
  | some b, some (ba, bb) =>
    let (bc, be) ← b.group pre (some o.good)
    let ratio := groupBackRatio o.spec.exposure b.exposure sa sb ba bb
    let berr := List.zipWith (· * ·) ratio be
    return { specCounts := sc, netCounts := List.zipWith (· - ·) sc (List.zipWith (· * ·) ratio bc)
             netErrors := (List.zipWith (· + ·) (se.map fun x => x * x) (berr.map fun x => x * x)).map Real.sqrt
             backCounts := bc, backErrors := be
             ratio := ⟨o.spec.exposure, b.exposure, sa, sb, ba, bb⟩
             fwhm := o.resp.fwhm, countsOpt := o.countsOpt }
  | _, _ =>
    return { specCounts := sc, netCounts := sc, netErrors := se, backCounts := [], backErrors := []
             ratio := ⟨o.spec.exposure, 1, sa, sb, sa, sb⟩
             fwhm := o.resp.fwhm, countsOpt := o.countsOpt }

/-- `channel_masked` and `_slice_scale_data` for one mask (base.py:489-506). -/
noncomputable def Segment.slice (d : Segment) (mask : List Bool) : Segment where
  specCounts := applyMask mask d.specCounts
  netCounts := applyMask mask d.netCounts
  netErrors := applyMask mask d.netErrors
  backCounts := applyMask mask d.backCounts
  backErrors := applyMask mask d.backErrors
  ratio := { d.ratio with
    specArea := sliceScaleData d.ratio.specArea mask, specBack := sliceScaleData d.ratio.specBack mask
    backArea := sliceScaleData d.ratio.backArea mask, backBack := sliceScaleData d.ratio.backBack mask }
  fwhm := applyMask mask d.fwhm
  countsOpt := applyMask mask d.countsOpt

/-- `fn(a)` for one segment (base.py:508-673).  The significance used by `sig` / `optsig` depends on
the kind of the spectrum and background. -/
noncomputable def Obs.runMethod (o : Obs) (m : Method) (scale : ℝ) (d : Segment) :
    Except PyErr (List Int × Bool) :=
  let bint := calcOptimalBinning d.fwhm d.countsOpt
  let poissonBack : Option Bool := o.back.map (·.poisson)
  match m with
  | .const => if truncInt scale ≤ 0 then .error .assertionError
      else groupConst d.specCounts.length (truncInt scale).toNat
  | .min => groupMin d.specCounts (truncInt scale : ℝ)
  | .sig => match o.spec.poisson, poissonBack with
      | true, some true => groupSigLima d.specCounts d.backCounts d.ratio scale
      | true, some false => groupSigGv d.specCounts d.backCounts d.backErrors d.ratio scale
      | _, _ => groupSigNormal d.netCounts d.netErrors scale
  | .bmin => groupMin d.backCounts (truncInt scale : ℝ)
  | .bsig => groupSigNormal d.backCounts d.backErrors scale
  | .opt => .ok (groupOpt (K := ℝ) bint none 0)
  | .optmin => .ok (groupOpt bint (some d.specCounts) (truncInt scale : ℝ))
  | .optsig => match o.spec.poisson, poissonBack with
      | true, some true => groupOptsigLima bint d.specCounts d.backCounts d.ratio scale
      | true, some false => groupOptsigGv bint d.specCounts d.backCounts d.backErrors d.ratio scale
      | _, _ => groupOptsigNormal bint d.netCounts d.netErrors scale
  | .optbmin => .ok (groupOpt bint (some d.backCounts) (truncInt scale : ℝ))
  | .optbsig => groupOptsigNormal bint d.backCounts d.backErrors scale
  | .unknown => .error .valueError

/-- The argument checks of `group` (base.py:429-436, 559-563, 567-570, 646-650, 654-657, 672). -/
def Obs.methodOk (o : Obs) (m : Method) (scale : Option ℝ) (preserve : Bool) : Bool :=
  (m == .opt || scale.isSome) && !(m.isOpt && preserve) &&
  (match m with
   | .bmin | .optbmin => o.back.any (·.poisson)
   | .bsig | .optbsig => o.back.isSome
   | .unknown => false
   | _ => true)

/-- `np.repeat(mask, n_chan)` (base.py:684). -/
def repeatMask (mask : List Bool) (nChan : List Nat) : List Bool :=
  (List.zip mask nChan).flatMap fun p => List.replicate p.2 p.1

/-- `x[idx] = v` for increasing `idx`, applied one entry after the other (base.py:689). -/
def putIdx (xs : List Int) : List Nat → List Int → List Int
  | i :: idx, v :: vs => putIdx (xs.set i v) idx vs
  | _, _ => xs

/-- `x = full(-1); x[~mask] = 1; x[mask] = v` (base.py:690-692). -/
def spread : List Bool → List Int → List Int
  | [], _ => []
  | false :: m, v => 1 :: spread m v
  | true :: m, x :: v => x :: spread m v
  | true :: m, [] => -1 :: spread m []

/-- The flag assembly (base.py:683-692).  `x[idx] = v` needs equal sizes (or one value, which is
broadcast) and indices inside the array. -/
def assemble (union : List Bool) (nChan : List Nat) (grouping : List Int) : Except PyErr (List Int) :=
  let nper := applyMask union nChan
  let idx := 0 :: cumsum nper.dropLast
  if idx.any fun i => decide (nper.sum ≤ i) then .error .indexError
  else if grouping.length ≠ idx.length ∧ grouping.length ≠ 1 then .error .valueError
  else
    let v := if grouping.length = idx.length then grouping else List.replicate idx.length (grouping.getD 0 0)
    .ok (spread (repeatMask union nChan) (putIdx (List.replicate nper.sum (-1)) idx v))

/-- `np.diff(np.append(pre_group_idx, len(pre_grouping)))` (base.py:452). -/
def nChanOf (pre : List Int) : List Nat := (edges (groupIdx pre) pre.length).map fun e => e.2 - e.1

/-- The result of `group`: flags in force and data after the final `set_grouping`, the success
report (base.py:683-694). -/
structure GroupResult where
  final : List Int
  success : Bool
  st : ObsState

/-- The rows of `channel_mask` (base.py:458-463): one per energy range. -/
noncomputable def Obs.maskRows (o : Obs) (erange : List (ℝ × ℝ)) (pre : List Int) :
    Except PyErr (List (List Bool)) := do
  let (emin, emax) ← o.resp.groupEnergy pre (some o.good)
  return maskGood (channelMask erange emin emax) (nGood o.good pre)

/-- `list(map(fn, zip(*data)))` (base.py:679). -/
noncomputable def Obs.segResults (o : Obs) (m : Method) (scale : ℝ) (d : Segment) :
    List (List Bool) → Except PyErr (List (List Int × Bool))
  | [] => .ok []
  | mask :: rows => do
    let r ← o.runMethod m scale (d.slice mask)
    let rs ← o.segResults m scale d rows
    return r :: rs

/-- The flags before the method is applied (base.py:444-447): single channels, or the flags stored in
the spectrum with `preserve_data_group=True`. -/
def Obs.preFlags (o : Obs) (preserve : Bool) : List Int :=
  if preserve then o.spec.grouping else List.replicate o.spec.counts.length 1

/-- `ObservationData.group` (base.py:371-694). -/
noncomputable def Obs.group (o : Obs) (erange : List (ℝ × ℝ)) (m : Method) (scale : Option ℝ)
    (preserve : Bool) : Except PyErr GroupResult := do
  if !o.methodOk m scale preserve then .error .valueError
  let pre := o.preFlags preserve
  let rows ← o.maskRows erange pre
  let d ← o.preData pre
  let results ← o.segResults m (scale.getD 0) d rows
  let grouping := (results.map Prod.fst).flatten
  let success := results.all Prod.snd
  let union := anyRow rows (groupIdx pre).length
  let final ← assemble union (nChanOf pre) grouping
  let st ← o.setGrouping erange (some final)
  return ⟨final, success, st⟩

end Elisa.Data
