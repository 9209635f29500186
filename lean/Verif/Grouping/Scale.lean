import Verif.Grouping.Model
import Mathlib.Algebra.Field.Basic

/-!
# Model of `src/elisa/data/grouping.py`, part 2: scale factors of grouped channels

Arrays are lists over a field `K` with decidable equality (NumPy: float64; rounding and
infinities/NaN are not modelled).  All divisions in this part of the code except the final back-ratio
division are guarded (`where=... != 0.0`).
-/

namespace Elisa.Grouping

open Elisa

variable {K : Type*} [Field K] [DecidableEq K]

/-- `_ScaleGroupData` (grouping.py:238-246). -/
structure ScaleGroupData (K : Type*) where
  scale : List K
  counts : List K
  nChan : List K
  weightedInv : List K
  reciprocal : List K
  scaleSum : List K
deriving DecidableEq, Repr

/-- `_ScalePrefixData` (grouping.py:249-257). -/
structure ScalePrefixData (K : Type*) where
  counts : List K
  nChan : List K
  weightedInv : List K
  reciprocal : List K
  scaleSum : List K
  net : Bool

/-- `_prefix_sum` (grouping.py:260-263). -/
def prefixSum (values : List K) : List K := 0 :: cumsum values

/-- `_interval_sum` (grouping.py:266-268). -/
def intervalSum (prefixes : List K) (start stop : Nat) : K :=
  prefixes.getD stop 0 - prefixes.getD start 0

/-- `_build_scale_prefix` (grouping.py:271-280). -/
def buildScalePrefix (d : ScaleGroupData K) (net : Bool) : ScalePrefixData K where
  counts := prefixSum d.counts
  nChan := prefixSum d.nChan
  weightedInv := prefixSum d.weightedInv
  reciprocal := prefixSum d.reciprocal
  scaleSum := prefixSum d.scaleSum
  net := net

/-- `_scale_from_interval` (grouping.py:283-311). -/
def scaleFromInterval (p : ScalePrefixData K) (start stop : Nat) : K :=
  let counts := p.counts.getD stop 0 - p.counts.getD start 0
  let nChan := p.nChan.getD stop 0 - p.nChan.getD start 0
  if nChan = 0 then 1
  else if p.net then
    (p.scaleSum.getD stop 0 - p.scaleSum.getD start 0) / nChan
  else
    let weightedInv := p.weightedInv.getD stop 0 - p.weightedInv.getD start 0
    if weightedInv ≠ 0 then counts / weightedInv
    else
      let reciprocal := p.reciprocal.getD stop 0 - p.reciprocal.getD start 0
      if reciprocal = 0 then 1 else nChan / reciprocal

/-- `group_idx = np.flatnonzero(grouping != -1)` (grouping.py:392; base.py:308, 452, 1335). -/
def groupIdx (grouping : List Int) : List Nat := flatnonzero (grouping.map (· != -1))

/-- `quality.astype(float)` / `np.ones` (grouping.py:342-348). -/
def qualityFactor (quality : Option (List Bool)) (n : Nat) : List K :=
  match quality with
  | none => List.replicate n 1
  | some q => q.map fun b => if b then 1 else 0

/-- `factor * xs` for 1-d arrays of the same length (grouping.py:393-397). -/
def mulArr (factor xs : List K) : List K := List.zipWith (· * ·) factor xs

/-- `np.divide(a, b, out=np.full(default), where=b != 0)` for scalars (grouping.py:357-362,
370-375, 400-421; base.py:105-110). -/
def guardedDiv (default a b : K) : K := if b ≠ 0 then a / b else default

/-- The value of `grouped_scale` for one group (grouping.py:399-421). -/
def groupedScale (net : Bool) (counts nChan weightedInv reciprocal scaleSum : K) : K :=
  if net then guardedDiv 1 scaleSum nChan
  else if weightedInv ≠ 0 then counts / weightedInv
  else guardedDiv 1 nChan reciprocal

/-- `_group_scale_data` (grouping.py:314-431).  Optional arrays are `Option`s; a length mismatch
raises `ValueError`. -/
def groupScaleData (counts scale : List K) (grouping : List Int) (quality : Option (List Bool))
    (net : Bool) (nChan weightedInv reciprocal scaleSum : Option (List K)) :
    Except PyErr (ScaleGroupData K) :=
  let n := counts.length
  if scale.length ≠ n then .error .valueError
  else if grouping.length ≠ n then .error .valueError
  else if (quality.map List.length).getD n ≠ n then .error .valueError
  else if (nChan.map List.length).getD n ≠ n then .error .valueError
  else if (weightedInv.map List.length).getD n ≠ n then .error .valueError
  else if (reciprocal.map List.length).getD n ≠ n then .error .valueError
  else if (scaleSum.map List.length).getD n ≠ n then .error .valueError
  else
    let factor : List K := qualityFactor quality n
    let nChan := nChan.getD (List.replicate n 1)
    let weightedInv := weightedInv.getD (List.zipWith (guardedDiv 0) counts scale)
    let reciprocal := reciprocal.getD (scale.map (guardedDiv 0 1))
    let scaleSum := scaleSum.getD scale
    let idx := groupIdx grouping
    let gc := reduceat (mulArr factor counts) idx
    let gn := reduceat (mulArr factor nChan) idx
    let gw := reduceat (mulArr factor weightedInv) idx
    let gr := reduceat (mulArr factor reciprocal) idx
    let gs := reduceat (mulArr factor scaleSum) idx
    .ok {
      scale := (List.range gc.length).map fun k =>
        groupedScale net (gc.getD k 0) (gn.getD k 0) (gw.getD k 0) (gr.getD k 0) (gs.getD k 0)
      counts := gc, nChan := gn, weightedInv := gw, reciprocal := gr, scaleSum := gs }

/-- `_group_back_ratio` (grouping.py:447-461) for one group. -/
def backRatio1 (specExp backExp specArea specBack backArea backBack : K) : K :=
  specExp * specArea * specBack / (backExp * backArea * backBack)

/-- `_group_back_ratio` (grouping.py:447-461). -/
def groupBackRatio (specExp backExp : K) (specArea specBack backArea backBack : ScaleGroupData K) :
    List K :=
  (List.range specArea.scale.length).map fun k =>
    backRatio1 specExp backExp (specArea.scale.getD k 0) (specBack.scale.getD k 0)
      (backArea.scale.getD k 0) (backBack.scale.getD k 0)

/-- `_interval_back_ratio` (grouping.py:464-480). -/
def intervalBackRatio (start stop : Nat) (specExp backExp : K)
    (specArea specBack backArea backBack : ScalePrefixData K) : K :=
  specExp / backExp * scaleFromInterval specArea start stop * scaleFromInterval specBack start stop
    / scaleFromInterval backArea start stop / scaleFromInterval backBack start stop

/-- `_interval_ratios` (grouping.py:483-507). -/
def intervalRatios (idx : List Nat) (size : Nat) (specExp backExp : K)
    (specArea specBack backArea backBack : ScalePrefixData K) : List K :=
  (edges idx size).map fun e =>
    intervalBackRatio e.1 e.2 specExp backExp specArea specBack backArea backBack

/-- `x[mask]` boolean indexing (used by `_slice_scale_data`, grouping.py:434-444, and base.py). -/
def applyMask {α : Type*} (mask : List Bool) (xs : List α) : List α :=
  (List.zip mask xs).filterMap fun p => if p.1 then some p.2 else none

/-- One entry of `_slice_scale_data` (grouping.py:434-444). -/
def sliceScaleData (d : ScaleGroupData K) (mask : List Bool) : ScaleGroupData K where
  scale := applyMask mask d.scale
  counts := applyMask mask d.counts
  nChan := applyMask mask d.nChan
  weightedInv := applyMask mask d.weightedInv
  reciprocal := applyMask mask d.reciprocal
  scaleSum := applyMask mask d.scaleSum

end Elisa.Grouping
