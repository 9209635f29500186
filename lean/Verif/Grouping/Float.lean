import Verif.Grouping.Scale
import Mathlib.Data.Real.Basic

/-!
# Counts in floating point: the grouping loops with binary64 arithmetic

The other modules compute with real numbers.  Here the additions and subtractions on counts in `group_min`, `group_opt` and `SpectrumData.group` are
those of binary64 numbers (IEEE 754): every result is rounded.  How numpy orders the additions of `sum` and of `np.add.reduceat` (pairwise, or in
vector registers) is not specified, so the order is a parameter that may be different in every call; `cumsum` and `+=` go from left to right.
-/

namespace Elisa.Grouping.Fl

open Elisa Elisa.Grouping

/-- The order of the additions of a sum (numpy, for grouping.py:87, 203, 230 and base.py:1338). -/
inductive Tree where
  | leaf (x : ℝ)
  | node (l r : Tree)

/-- The numbers added (numpy, for grouping.py:87, 203, 230 and base.py:1338). -/
def Tree.leaves : Tree → List ℝ
  | .leaf x => [x]
  | .node l r => l.leaves ++ r.leaves

/-- The sum that is computed: every addition is rounded (numpy, for grouping.py:87, 203, 230 and base.py:1338). -/
def Tree.value (rnd : ℝ → ℝ) : Tree → ℝ
  | .leaf x => x
  | .node l r => rnd (l.value rnd + r.value rnd)

/-- An implementation of float64 arithmetic and of numpy's sums (`dtype=np.float64`, base.py:1190): rounding of a result, and the order of the additions
of a sum of at least one number, which may depend on the call. -/
structure Impl where
  rnd : ℝ → ℝ
  order : ℕ → List ℝ → Tree

/-- `xs.sum()` (grouping.py:203); `t` stands for the call. -/
def Impl.sum (F : Impl) (t : ℕ) : List ℝ → ℝ
  | [] => 0
  | x :: xs => (F.order t (x :: xs)).value F.rnd

/-- `np.add.reduceat(xs, idx)` (grouping.py:87, 230, base.py:1338), see `reduceat`. -/
def Impl.reduceat (F : Impl) (xs : List ℝ) : List ℕ → List ℝ
  | [] => []
  | [a] => [F.sum a (xs.drop a)]
  | a :: b :: r => (if a < b then F.sum a ((xs.take b).drop a) else xs.getD a 0) :: F.reduceat xs (b :: r)

/-- The rest of `cumsum` after a partial sum (grouping.py:205). -/
def Impl.cumsumFrom (F : Impl) (acc : ℝ) : List ℝ → List ℝ
  | [] => []
  | x :: xs => F.rnd (acc + x) :: F.cumsumFrom (F.rnd (acc + x)) xs

/-- `xs.cumsum()` (grouping.py:205). -/
def Impl.cumsum (F : Impl) : List ℝ → List ℝ
  | [] => []
  | x :: xs => x :: F.cumsumFrom x xs

/-- The loop of `group_min` (grouping.py:69-84), see `minLoop`. -/
noncomputable def Impl.minLoop (F : Impl) (n : ℝ) : List ℝ → ℕ → ℝ → List ℕ → List ℕ
  | [], _, _, idx => idx
  | [d], _, gc, idx => if F.rnd (gc + d) < n ∧ 1 < idx.length then idx.tail else idx
  | d :: d' :: r, i, gc, idx =>
    if n ≤ F.rnd (gc + d) then F.minLoop n (d' :: r) (i + 1) 0 ((i + 1) :: idx)
    else F.minLoop n (d' :: r) (i + 1) (F.rnd (gc + d)) idx

/-- `group_min(data, n)` (grouping.py:42-95). -/
noncomputable def Impl.groupMin (F : Impl) (data : List ℝ) (n : ℝ) : Except PyErr (List Int × Bool) :=
  if n ≤ 0 then .error .assertionError
  else if data = [] then .error .indexError
  else
    let idx := (F.minLoop n data 0 0 [0]).reverse
    .ok (setFlags data.length idx, (F.reduceat data idx).all fun x => decide (n ≤ x))

/-- `np.flatnonzero(mask)[0] + 1` for `mask = xs.cumsum() >= thr` (grouping.py:205-208). -/
noncomputable def Impl.firstReach (F : Impl) (thr : ℝ) (xs : List ℝ) : Option ℕ :=
  ((F.cumsum xs).findIdx? fun c => decide (thr ≤ c)).map (· + 1)

/-- The `min_flag` block of `group_opt` (grouping.py:202-215). -/
noncomputable def Impl.optMinExtend (F : Impl) (binCounts : List ℝ) (n : ℝ) (i j : ℕ) : Option ℕ :=
  let cts := F.sum i ((binCounts.take (j + 1)).drop i)
  if cts < n then (F.firstReach (F.rnd (n - cts)) (binCounts.drop (j + 1))).map (j + ·) else some j

/-- `group_opt(fwhm, net_counts, bin_counts, n)` (grouping.py:141-235), with the optimal widths and the counts to be reached given. -/
noncomputable def Impl.groupOpt (F : Impl) (bint : List ℕ) (bc : List ℝ) (n : ℝ) : List Int × Bool :=
  if 0 < n then
    let idx := (optLoop (F.optMinExtend bc n) bint bint.length bint.length 0 []).reverse
    (setFlags bint.length idx, !((F.reduceat bc idx).any fun x => decide (x < n)))
  else (setFlags bint.length (optLoop (fun _ j => some j) bint bint.length bint.length 0 []).reverse, true)

/-- The counts of `SpectrumData.group` (base.py:1326-1338). -/
noncomputable def Impl.groupCounts (F : Impl) (counts : List ℝ) (flags : List Int) (quality : Option (List Bool)) : Except PyErr (List ℝ) :=
  if flags.length ≠ counts.length then .error .valueError
  else if (quality.map List.length).getD counts.length ≠ counts.length then .error .valueError
  else .ok (F.reduceat (List.zipWith (fun q c => F.rnd (q * c)) (qualityFactor quality counts.length) counts) (groupIdx flags))

end Elisa.Grouping.Fl
