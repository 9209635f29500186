import Verif.Data.Ogip

/-!
# The warnings of `SpectrumData` and of `Spectrum` (data/base.py:1133-1303, data/ogip.py:350-433)

Only which warnings are issued, in order; their text, category and stack level are not modelled.
-/

namespace Elisa.Data

open Elisa Elisa.Grouping

/-- The warnings issued when a spectrum is made (base.py:1219-1287, ogip.py:359-432). -/
inductive Warn where
  | nonInteger
  | sysIgnored
  | areaReset
  | backReset
  | zeroErrors
  | groupingReset
  | errorsOfRate
  deriving DecidableEq

/-- The arguments `zero_errors_warning`, `non_int_warning` and `sys_errors_warning` (base.py:1145-1147). -/
structure WarnFlags where
  zeroErrors : Bool := true
  nonInt : Bool := true
  sysErrors : Bool := true

/-- `np.any(np.abs(counts - np.round(counts)) > 1e-8 * counts)` (base.py:1216-1218, ogip.py:390-391).  NumPy rounds halves to even, which does not matter for the distance. -/
noncomputable def nonIntegers (counts : List ℝ) : Bool := counts.any fun c => decide (1 / 10 ^ 8 * c < |c - (round c : ℤ)|)

/-- A warning or none (base.py:1219-1287). -/
def warnIf (b : Bool) (w : Warn) : List Warn := if b then [w] else []

/-- `np.any(np.logical_and(scale == 0.0, quality != 1))` (base.py:1242-1243, 1251-1252). -/
noncomputable def zeroScale (quality : List Int) (scale : List ℝ) : Bool := (List.zip quality scale).any fun p => decide (p.2 = 0 ∧ p.1 ≠ 1)

/-- `SpectrumData.__init__` (base.py:1133-1303) with the warnings issued before it returns or raises. -/
noncomputable def Spectrum.make (f : WarnFlags) (i : SpecInput) : List Warn × Except PyErr Spectrum :=
  let n := i.counts.length
  let quality := i.quality.getD (List.replicate n 0)
  let grouping := i.grouping.getD (List.replicate n 1)
  if i.errors.length ≠ n then ([], .error .valueError)
  else if quality.length ≠ n then ([], .error .valueError)
  else if grouping.length ≠ n then ([], .error .valueError)
  else if !shapeOk n i.areaScale then ([], .error .valueError)
  else if !shapeOk n i.backScale then ([], .error .valueError)
  else if !shapeOk n i.sysErrors then ([], .error .valueError)
  else
    let area := expand n i.areaScale
    let back := expand n i.backScale
    let sys := expand n i.sysErrors
    if !(quality.all fun q => decide (q ∈ ([0, 1, 2, 5, -1] : List Int))) then ([], .error .valueError)
    else if i.poisson && i.counts.any (fun c => decide (c < 0)) then ([], .error .valueError)
    else
      let w1 := warnIf (i.poisson && f.nonInt && nonIntegers i.counts) .nonInteger ++ warnIf (i.poisson && f.sysErrors && sys.any fun e => decide (0 < e)) .sysIgnored
      if i.errors.any (fun e => decide (e < 0)) then (w1, .error .valueError)
      else if sys.any (fun e => decide (e < 0)) then (w1, .error .valueError)
      else if i.exposure ≤ 0 then (w1, .error .valueError)
      else
        let w2 := w1 ++ warnIf (zeroScale quality area) .areaReset ++ warnIf (zeroScale quality back) .backReset
        let area := resetZero quality area
        let back := resetZero quality back
        if area.any (fun x => decide (x < 0)) then (w2, .error .valueError)
        else if back.any (fun x => decide (x < 0)) then (w2, .error .valueError)
        else if !((List.zip area quality).all fun p => decide (0 < p.1 ∨ p.2 = 1)) then (w2, .error .valueError)
        else if !((List.zip back quality).all fun p => decide (0 < p.1 ∨ p.2 = 1)) then (w2, .error .valueError)
        else
          let w3 := w2 ++ warnIf (!i.poisson && f.zeroErrors && i.errors.any fun e => decide (e = 0)) .zeroErrors
          match grouping with
          | [] => (w3, .error .indexError)
          | g0 :: gs =>
            let grouping := (if g0 = -1 then 1 else g0) :: gs
            let errors := if i.poisson then i.errors else
              List.zipWith (fun (e : ℝ) (sc : ℝ × ℝ) => Real.sqrt (e ^ 2 + (sc.1 * sc.2) ^ 2)) i.errors (List.zip sys i.counts)
            (w3 ++ warnIf (decide (g0 = -1)) .groupingReset,
              .ok { counts := i.counts, errors := errors, quality := quality, grouping := grouping, poisson := i.poisson, exposure := i.exposure, areaScale := area,
                    backScale := back, netOpt := i.net })

/-- The warnings of `Spectrum.__init__` before the base class is called (ogip.py:355-364, 388-411, 424-432), for a file that is not refused before. -/
noncomputable def Pha.ownWarnings (p : Pha) (poisson : Bool) : List Warn :=
  warnIf (!poisson && (p.rate.isSome || p.rates.isSome) && p.counts.isSome) .errorsOfRate ++ warnIf (poisson && nonIntegers p.countsArr) .nonInteger ++
    warnIf (!poisson && (p.statArr false).any fun e => decide (e = 0)) .zeroErrors ++ warnIf (poisson && p.sysArr.any fun e => decide (0 < e)) .sysIgnored

/-- `Spectrum(...)` (ogip.py:267-500) with its warnings; the base class is told not to repeat three of them.  What is warned about a file that is refused is not modelled. -/
noncomputable def Pha.load (p : Pha) (arg : Option Bool) : List Warn × Except PyErr Spectrum :=
  match p.toInput arg with
  | .error e => ([], .error e)
  | .ok i =>
    let r := Spectrum.make ⟨false, false, false⟩ i
    (p.ownWarnings i.poisson ++ r.1, r.2)

end Elisa.Data
