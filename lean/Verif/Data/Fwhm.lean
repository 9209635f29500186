import Verif.Np
import Verif.Grouping.Signif

/-!
# Model of `ResponseData.fwhm` and `ResponseData.channel_fwhm` (base.py:1816-1890)

A row of the response is the list of its channels, all entries included (`todense`).  `scipy`'s sparse `argmax` gives the first index of the
largest element; rows of a response are not negative and a row without entries is a row of zeros, for which it gives zero too.
Numbers are exact.
-/

namespace Elisa.Data

open Elisa

/-- `argmax` of a row (base.py:1832): the first index of the largest element. -/
noncomputable def rowArgmax (row : List ℝ) : Nat := row.findIdx fun x => decide (∀ y ∈ row, y ≤ x)

/-- `np.flatnonzero(row <= half)` (base.py:1844). -/
noncomputable def belowHalf (row : List ℝ) (half : ℝ) : List Nat :=
  (List.range row.length).filter fun c => row.getD c 0 ≤ half

/-- `np.searchsorted(idx, v)` for a sorted index array: the number of elements below `v` (base.py:1846). -/
def searchLeft (idx : List Nat) (v : Nat) : Nat := idx.countP fun c => c < v

/-- The indices below and above the peak (base.py:1837, 1842-1850) before clipping: the neighbours of the peak unless an index at or below half the maximum
is found on that side. -/
noncomputable def lowHigh (row : List ℝ) (half : ℝ) : Int × Int :=
  let a := rowArgmax row
  let idx := belowHalf row half
  let k := searchLeft idx a
  (if 0 < k then (idx.getD (k - 1) 0 : Int) else (a : Int) - 1, if k < idx.length then (idx.getD k 0 : Int) else (a : Int) + 1)

/-- `np.clip(x, 0, nC - 1)` (base.py:1851). -/
def clipIdx (x : Int) (n : Nat) : Int := min (max x 0) ((n : Int) - 1)

/-- One element of `fwhm` (base.py:1830-1866), from a row of the response. -/
noncomputable def rowFwhm (row : List ℝ) : Int :=
  let a := rowArgmax row
  let half := 0.5 * row.getD a 0
  let lh := lowHigh row half
  let ilow := clipIdx lh.1 row.length
  let ihigh := clipIdx lh.2 row.length
  let goodLow : Bool := row.getD 0 0 ≤ half
  let goodHigh : Bool := row.getD (row.length - 1) 0 ≤ half
  let f0 : Int := (if goodHigh then ihigh - a else 0) + (if goodLow then (a : Int) - ilow else 0)
  let f1 := if goodHigh != goodLow then f0 * 2 else f0
  if goodHigh || goodLow then max f1 1 else -1

/-- `searchsorted(photon_egrid, emid) - 1`, clipped (base.py:1887-1888). -/
noncomputable def photonBin (egrid : List ℝ) (nbin : Nat) (emid : ℝ) : Nat :=
  (min (max (((egrid.countP fun e => e < emid) : Int) - 1) 0) ((nbin : Int) - 1)).toNat

/-- `channel_fwhm` (base.py:1872-1890); `channels` are the energy ranges of the channels. -/
noncomputable def channelFwhm (egrid : List ℝ) (matrix : List (List ℝ)) (channels : List (ℝ × ℝ)) : List Int :=
  let fwhm := matrix.map rowFwhm
  channels.map fun c => fwhm.getD (photonBin egrid fwhm.length ((c.1 + c.2) / 2)) 0

end Elisa.Data
