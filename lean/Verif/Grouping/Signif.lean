import Verif.Grouping.Scale
import Mathlib.Analysis.SpecialFunctions.Log.Basic
import Mathlib.Analysis.SpecialFunctions.Pow.NNReal
import Mathlib.Analysis.SpecialFunctions.Sqrt

/-!
# Model of `src/elisa/data/grouping.py`, part 3: significances, optimal widths, significance groupings

Over the reals (NumPy: float64).  `decide (x ≤ y)` on reals is noncomputable: these definitions are
reasoned about, not run.
-/

namespace Elisa.Grouping

open Elisa

/-- `scipy.special.xlogy(x, y)` for real arguments (`x = 0` gives `0`); used in grouping.py:522-538,
560-565, likelihood.py, residuals.py. -/
noncomputable def xlogy (x y : ℝ) : ℝ := if x = 0 then 0 else x * Real.log y

/-- `term1`/`term2` radicand of `significance_lima` (grouping.py:519-537): `term1 + term2`, each term
evaluated only where its count is positive. -/
noncomputable def limaTerms (nOn nOff a : ℝ) : ℝ :=
  (if 0 < nOn then xlogy nOn ((1 + a) / a * nOn / (nOn + nOff)) else 0) +
  (if 0 < nOff then xlogy nOff ((1 + a) * nOff / (nOn + nOff)) else 0)

/-- `significance_lima` (grouping.py:510-538) for one entry. -/
noncomputable def significanceLima (nOn nOff a : ℝ) : ℝ :=
  (if a * nOff ≤ nOn then 1 else -1) * Real.sqrt (2 * limaTerms nOn nOff a)

/-- `b0_mle` of `significance_gv` (grouping.py:554-558) with `b` and `s` already multiplied by the
ratio; `np.clip(·, 0, None)` is `max · 0`. -/
noncomputable def gvBackground (n b s : ℝ) : ℝ :=
  max (0.5 * (b - s * s + Real.sqrt (b * b - 2 * b * (s * s) + 4 * n * (s * s) + s * s * (s * s)))) 0

/-- `term1 + term2` of `significance_gv` (grouping.py:560-569).  Simplification: a division by zero is zero (for an uncertainty of zero, where NumPy has NaN or an infinity,
see `gvF` and C154). -/
noncomputable def gvTerms (n b s : ℝ) : ℝ :=
  (if 0 < n then xlogy n (n / gvBackground n b s) else 0) + (gvBackground n b s - n) +
  (b - gvBackground n b s) ^ 2 / (2 * (s * s))

/-- `significance_gv` (grouping.py:541-570) for one entry. -/
noncomputable def significanceGv (n b s a : ℝ) : ℝ :=
  (if b * a ≤ n then 1 else -1) * Real.sqrt (2 * gvTerms n (b * a) (s * a))

/-! ### Optimal widths -/

/-- `int(np.round(x))`: round half to even (grouping.py:125-126). -/
noncomputable def roundEven (x : ℝ) : ℤ :=
  if x - ⌊x⌋ < 1 / 2 then ⌊x⌋
  else if 1 / 2 < x - ⌊x⌋ then ⌊x⌋ + 1
  else if ⌊x⌋ % 2 = 0 then ⌊x⌋ else ⌊x⌋ + 1

/-- `Nr[i]` of `_calc_optimal_binning` (grouping.py:121-127). -/
noncomputable def countsPerElement (fwhm counts : List ℝ) (i : Nat) : ℝ :=
  let f := fwhm.getD i 0
  let low := max 0 (roundEven ((i : ℝ) - 0.5 * f))
  let high := min (fwhm.length : ℤ) (roundEven ((i : ℝ) + 0.5 * f))
  1.314 * sliceSum counts low.toNat (high + 1).toNat

/-- The shrink factor `(0.08 x + 7 + 1.8 / x) / (x + 5.9)` (grouping.py:133). -/
noncomputable def shrink (x : ℝ) : ℝ := (0.08 * x + 7 + 1.8 / x) / (x + 5.9)

/-- The width of one channel before it is made an integer (grouping.py:117, 132-135), from `r`, the estimated number of resolution elements plus one,
the counts per resolution element and the FWHM.  `none` is a NaN or an infinity; these become `1` below, because their `int64` is the most
negative one.  The special cases occur only for responses with undefined (`-1`) FWHM, which can make `r` small or negative:
`log` of a negative number is NaN and comparisons with NaN are false; `log 0` is `-inf`, and the threshold is then `-0.0`. -/
noncomputable def channelWidth (r nr f : ℝ) : Option ℝ :=
  if r < 0 then some f
  else if r = 0 then (if 0 < nr then none else some f)
  else
    let c := 1 + 0.2 * Real.log r
    if c = 0 then some f
    else if Real.exp 2.119 / c < nr then
      if nr * c ≤ 0 then none
      else if Real.log (nr * c) = 0 ∨ Real.log (nr * c) + 5.9 = 0 then none
      else some (f * shrink (Real.log (nr * c)))
    else some f

/-- `b.astype(np.int64)` with `bint[bint < 1] = 1` (grouping.py:136-137): truncation and floor agree above one. -/
noncomputable def intWidth : Option ℝ → Nat
  | none => 1
  | some b => if ⌊b⌋ < 1 then 1 else ⌊b⌋.toNat

/-- `_calc_optimal_binning` (grouping.py:99-138): the integer optimal width of each channel. -/
noncomputable def calcOptimalBinning (fwhm counts : List ℝ) : List Nat :=
  let r := 1 + (fwhm.map fun f => 1 / f).sum
  (List.range fwhm.length).map fun i => intWidth (channelWidth r (countsPerElement fwhm counts i) (fwhm.getD i 0))

/-! ### Significance groupings -/

/-- The scale metadata handed to the Li-Ma / GV groupings (keyword arguments at
grouping.py:672-677, 757-762, 846-851, 938-943). -/
structure RatioData where
  specExp : ℝ
  backExp : ℝ
  specArea : ScaleGroupData ℝ
  specBack : ScaleGroupData ℝ
  backArea : ScaleGroupData ℝ
  backBack : ScaleGroupData ℝ

/-- The ratio of a candidate interval: prefixes built with `net=False` (grouping.py:690-693,
708-717). -/
noncomputable def RatioData.ratio (d : RatioData) (a b : Nat) : ℝ :=
  intervalBackRatio a b d.specExp d.backExp (buildScalePrefix d.specArea false)
    (buildScalePrefix d.specBack false) (buildScalePrefix d.backArea false)
    (buildScalePrefix d.backBack false)

/-- `_interval_ratios(idx, nd, ...)` (grouping.py:733-742). -/
noncomputable def RatioData.ratios (d : RatioData) (idx : List Nat) (nd : Nat) : List ℝ :=
  intervalRatios idx nd d.specExp d.backExp (buildScalePrefix d.specArea false)
    (buildScalePrefix d.specBack false) (buildScalePrefix d.backArea false)
    (buildScalePrefix d.backBack false)

/-- `group_sig >= sig` for a candidate interval in `group_sig_lima` / `group_optsig_lima`
(grouping.py:706-718, 882-895). -/
noncomputable def limaOk (on off : List ℝ) (d : RatioData) (sig : ℝ) (a b : Nat) : Bool :=
  decide (sig ≤ significanceLima (intervalSum (prefixSum on) a b) (intervalSum (prefixSum off) a b)
    (d.ratio a b))

/-- Final success test of the Li-Ma groupings (grouping.py:731-745, 909-928). -/
noncomputable def limaSuccess (on off : List ℝ) (d : RatioData) (sig : ℝ) (idx : List Nat) : Bool :=
  ((List.zip (reduceat on idx) (List.zip (reduceat off idx) (d.ratios idx on.length))).all
    fun p => decide (sig ≤ significanceLima p.1 p.2.1 p.2.2))

/-- `group_sig_lima` (grouping.py:668-749). -/
noncomputable def groupSigLima (on off : List ℝ) (d : RatioData) (sig : ℝ) :
    Except PyErr (List Int × Bool) :=
  if on.length ≠ off.length then .error .assertionError
  else if sig ≤ 0 then .error .assertionError
  else if on = [] then .error .indexError
  else
    let idx := (greedyLoop (limaOk on off d sig) on.length 0 0 [0]).reverse
    .ok (setFlags on.length idx, limaSuccess on off d sig idx)

/-- `group_sig >= sig` for a candidate interval in `group_sig_gv` / `group_optsig_gv`
(grouping.py:791-806, 975-989); `s2_prefix = _prefix_sum(s * s)`. -/
noncomputable def gvOk (n b s : List ℝ) (d : RatioData) (sig : ℝ) (i j : Nat) : Bool :=
  decide (sig ≤ significanceGv (intervalSum (prefixSum n) i j) (intervalSum (prefixSum b) i j)
    (Real.sqrt (intervalSum (prefixSum (s.map fun x => x * x)) i j)) (d.ratio i j))

/-- Final success test of the GV groupings (grouping.py:817-833, 1002-1022). -/
noncomputable def gvSuccess (n b s : List ℝ) (d : RatioData) (sig : ℝ) (idx : List Nat) : Bool :=
  ((List.zip (reduceat n idx) (List.zip (reduceat b idx)
      (List.zip (reduceat (s.map fun x => x * x) idx) (d.ratios idx n.length)))).all
    fun p => decide (sig ≤ significanceGv p.1 p.2.1 (Real.sqrt p.2.2.1) p.2.2.2))

/-- `group_sig_gv` (grouping.py:752-837). -/
noncomputable def groupSigGv (n b s : List ℝ) (d : RatioData) (sig : ℝ) :
    Except PyErr (List Int × Bool) :=
  if ¬ (n.length = b.length ∧ b.length = s.length) then .error .assertionError
  else if sig ≤ 0 then .error .assertionError
  else if n = [] then .error .indexError
  else
    let idx := (greedyLoop (gvOk n b s d sig) n.length 0 0 [0]).reverse
    .ok (setFlags n.length idx, gvSuccess n b s d sig idx)

/-- The loop of `group_sig_normal` (grouping.py:1056-1078).  First arguments: the remaining
`count`, `error` pairs; `gc`, `gv` are `group_count`, `group_variance`. -/
noncomputable def normalLoop (sig : ℝ) : List (ℝ × ℝ) → Nat → ℝ → ℝ → List Nat → List Nat
  | [], _, _, _, idx => idx
  | [(d, e)], _, gc, gv, idx =>
    if (gc + d - sig * Real.sqrt (gv + e * e) < 0 ∨ gv + e * e = 0) ∧ 1 < idx.length
    then idx.tail else idx
  | (d, e) :: q :: r, i, gc, gv, idx =>
    if 0 ≤ gc + d - sig * Real.sqrt (gv + e * e) ∧ 0 < gv + e * e
    then normalLoop sig (q :: r) (i + 1) 0 0 ((i + 1) :: idx)
    else normalLoop sig (q :: r) (i + 1) (gc + d) (gv + e * e) idx

/-- Final success test (grouping.py:657-663, 1081-1087). -/
noncomputable def normalSuccess (count error : List ℝ) (sig : ℝ) (idx : List Nat) : Bool :=
  (List.zip (reduceat count idx) (reduceat (error.map fun e => e * e) idx)).all
    fun p => decide (0 ≤ p.1 - sig * Real.sqrt p.2)

/-- `group_sig_normal` (grouping.py:1026-1092). -/
noncomputable def groupSigNormal (count error : List ℝ) (sig : ℝ) : Except PyErr (List Int × Bool) :=
  if count.length ≠ error.length then .error .assertionError
  else if sig ≤ 0 then .error .assertionError
  else if count = [] then .error .indexError
  else
    let idx := (normalLoop sig (List.zip count error) 0 0 0 [0]).reverse
    .ok (setFlags count.length idx, normalSuccess count error sig idx)

/-- `group_optsig_lima` (grouping.py:840-928) with the widths `bint` given.  On empty data NumPy's
`reduceat` with an empty index returns an empty array, so the result is `([], True)`. -/
noncomputable def groupOptsigLima (bint : List Nat) (on off : List ℝ) (d : RatioData) (sig : ℝ) :
    Except PyErr (List Int × Bool) :=
  if ¬ (bint.length = on.length ∧ on.length = off.length) then .error .assertionError
  else if sig ≤ 0 then .error .assertionError
  else
    let nchan := bint.length
    let idx := (optLoop (fun i j => sigExtend (limaOk on off d sig) (nchan - j) i j) bint nchan
      nchan 0 []).reverse
    .ok (setFlags nchan idx, limaSuccess on off d sig idx)

/-- `group_optsig_gv` (grouping.py:931-1023) with the widths `bint` given. -/
noncomputable def groupOptsigGv (bint : List Nat) (n b s : List ℝ) (d : RatioData) (sig : ℝ) :
    Except PyErr (List Int × Bool) :=
  if ¬ (bint.length = n.length ∧ n.length = b.length ∧ b.length = s.length) then
    .error .assertionError
  else if sig ≤ 0 then .error .assertionError
  else
    let nchan := bint.length
    let idx := (optLoop (fun i j => sigExtend (gvOk n b s d sig) (nchan - j) i j) bint nchan
      nchan 0 []).reverse
    .ok (setFlags nchan idx, gvSuccess n b s d sig idx)

/-- The significance block of `group_optsig_normal` (grouping.py:628-643).  Note the extended error
is `err + sqrt(cumsum(...))` (sum of the two errors), not their quadrature sum. -/
noncomputable def optNormalExtend (counts errors : List ℝ) (sig : ℝ) (i j : Nat) : Option Nat :=
  let cts := sliceSum counts i (j + 1)
  let err := Real.sqrt (sliceSum (errors.map fun e => e * e) i (j + 1))
  if cts - sig * err < 0 ∨ err = 0 then
    let cts' := (cumsum (counts.drop (j + 1))).map (cts + ·)
    let err' := (cumsum ((errors.drop (j + 1)).map fun e => e * e)).map (err + Real.sqrt ·)
    (((List.zip cts' err').findIdx? fun p => decide (0 ≤ p.1 - sig * p.2 ∧ 0 < p.2)).map
      fun m => j + (m + 1))
  else some j

/-- `group_optsig_normal` (grouping.py:573-665) with the widths `bint` given. -/
noncomputable def groupOptsigNormal (bint : List Nat) (counts errors : List ℝ) (sig : ℝ) :
    Except PyErr (List Int × Bool) :=
  if ¬ (bint.length = counts.length ∧ counts.length = errors.length) then .error .assertionError
  else if sig ≤ 0 then .error .assertionError
  else
    let nchan := bint.length
    let idx := (optLoop (optNormalExtend counts errors sig) bint nchan nchan 0 []).reverse
    .ok (setFlags nchan idx, normalSuccess counts errors sig idx)

end Elisa.Grouping
