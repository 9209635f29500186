import Verif.Np

/-!
# Model of `src/elisa/data/grouping.py`, part 1: the grouping loops

Counts live in an arbitrary type `K` (an ordered commutative group in the theorems); floating point
rounding is not modelled.  `bint` (the integer optimal widths) is an input here: it is the output of
`_calc_optimal_binning` (grouping.py:99-138), whose only property used by the loops is `bint[k] ≥ 1`
(grouping.py:137, `bint[bint < 1] = 1`); modelled as `calcOptimalBinning` in `Verif/Grouping/Signif.lean`, bounds proved in `Verif/Grouping/Binning.lean`.
-/

namespace Elisa.Grouping

open Elisa

/-- `flag = np.full(nd, -1); flag[idx] = 1` (grouping.py:92-93, 227-228, 655-656, 747-748, 906-907, 1089-1090). -/
def setFlags (nd : Nat) (idx : List Nat) : List Int :=
  (List.range nd).map fun k => if k ∈ idx then 1 else -1

/-- `group_const(n, c)` (grouping.py:14-39).
`flag[::c] = 1` marks the multiples of `c`; `flag[-r] = -1` (with `r = n % c > 0`) unmarks position
`n - r`.  `success` is always `True`. -/
def groupConst (n c : Nat) : Except PyErr (List Int × Bool) :=
  if c = 0 then .error .assertionError
  else
    let r := n % c
    .ok ((List.range n).map (fun k =>
      if r ≠ 0 ∧ k = n - r then -1 else if k % c = 0 then 1 else -1), true)

section
variable {K : Type*} [AddCommGroup K] [LinearOrder K]

/-- The `for i, di in enumerate(data)` loop of `group_min` (grouping.py:69-84).  The first argument
is `data[i:]`, `gc` is `group_counts`, and `idx` holds `idx[:ng]` in reverse (so `ng = idx.length`
and `ng -= 1` is `idx.tail`). -/
def minLoop (n : K) : List K → Nat → K → List Nat → List Nat
  | [], _, _, idx => idx
  | [d], _, gc, idx => if gc + d < n ∧ 1 < idx.length then idx.tail else idx
  | d :: d' :: r, i, gc, idx =>
    if n ≤ gc + d then minLoop n (d' :: r) (i + 1) 0 ((i + 1) :: idx)
    else minLoop n (d' :: r) (i + 1) (gc + d) idx

/-- `group_min(data, n)` (grouping.py:42-95).  `n = int(n)` is represented by a `K` value; the
assertion is `n > 0`, and `idx[0] = 0` raises on empty data. -/
def groupMin (data : List K) (n : K) : Except PyErr (List Int × Bool) :=
  if n ≤ 0 then .error .assertionError
  else if data = [] then .error .indexError
  else
    let idx := (minLoop n data 0 0 [0]).reverse
    .ok (setFlags data.length idx, (reduceat data idx).all (fun x => decide (n ≤ x)))

/-- `np.flatnonzero(mask)[0] + 1` for `mask = (xs.cumsum() >= thr)` (grouping.py:205-208):
number of further channels needed, or `none` when `np.any(mask)` is false. -/
def firstReach (thr : K) (xs : List K) : Option Nat :=
  ((cumsum xs).findIdx? (fun c => decide (thr ≤ c))).map (· + 1)

/-- The `min_flag` block of `group_opt` (grouping.py:202-215): given the current `i`, `j`, either
the possibly extended `j`, or `none` for the `break` branch. -/
def optMinExtend (binCounts : List K) (n : K) (i j : Nat) : Option Nat :=
  let cts := sliceSum binCounts i (j + 1)
  if cts < n then (firstReach (n - cts) (binCounts.drop (j + 1))).map (j + ·) else some j

end

/-- The initial `j` of the `opt*` loops (grouping.py:195-198, 621-624, 876-879, 969-972):
`j = min(imax, i + bint[i] - 1)` and then, if `k = arange(i+1, j+1)` is non-empty,
`j = min(j, min(k + bint[k] - 1))`. -/
def optWidth (bint : List Nat) (imax i : Nat) : Nat :=
  let j := min imax (i + bint.getD i 0 - 1)
  (List.range' (i + 1) (j - i)).foldl (fun m k => min m (k + bint.getD k 0 - 1)) j

/-- The outer `while i <= imax` loop shared by `group_opt` (grouping.py:191-224),
`group_optsig_normal` (617-652), `group_optsig_lima` (872-903) and `group_optsig_gv` (965-996).
`ext i j` is the part that differs: it returns the extended `j`, or `none` when the remaining
channels do not meet the requirement, in which case the last two groups are combined if `ng > 1`.
`idx` holds `idx[:ng]` in reverse.  The block `if j > imax` (grouping.py:217-222) is kept.
`fuel` bounds the number of iterations; `nchan` iterations always suffice because `i` increases. -/
def optLoop (ext : Nat → Nat → Option Nat) (bint : List Nat) (nchan : Nat) :
    Nat → Nat → List Nat → List Nat
  | 0, _, idx => idx
  | fuel + 1, i, idx =>
    if i < nchan then
      let idx' := i :: idx
      match ext i (optWidth bint (nchan - 1) i) with
      | none => if 1 < idx'.length then idx'.tail else idx'
      | some j =>
        if nchan - 1 < j then
          if j - i < 3 * (j - (nchan - 1)) ∧ 1 < idx'.length then idx'.tail else idx'
        else optLoop ext bint nchan fuel (j + 1) idx'
    else idx

section
variable {K : Type*} [AddCommGroup K] [LinearOrder K]

/-- `group_opt(fwhm, net_counts, bin_counts, n)` (grouping.py:141-235) with `bint` given.
`min_flag = (n > 0) and (bin_counts is not None)`. -/
def groupOpt (bint : List Nat) (binCounts : Option (List K)) (n : K) : List Int × Bool :=
  let nchan := bint.length
  match binCounts with
  | some bc =>
    if 0 < n then
      let idx := (optLoop (optMinExtend bc n) bint nchan nchan 0 []).reverse
      (setFlags nchan idx, !((reduceat bc idx).any (fun x => decide (x < n))))
    else
      (setFlags nchan (optLoop (fun _ j => some j) bint nchan nchan 0 []).reverse, true)
  | none =>
      (setFlags nchan (optLoop (fun _ j => some j) bint nchan nchan 0 []).reverse, true)

end

/-- The `for i in range(nd)` loop of `group_sig_lima` (grouping.py:705-728) and `group_sig_gv`
(791-814).  `ok a b` says that the interval `[a, b)` reaches the significance.  First argument: the
number of channels left (`nd - i`). -/
def greedyLoop (ok : Nat → Nat → Bool) : Nat → Nat → Nat → List Nat → List Nat
  | 0, _, _, idx => idx
  | 1, i, start, idx =>
    if !(ok start (i + 1)) ∧ 1 < idx.length then idx.tail else idx
  | left + 2, i, start, idx =>
    if ok start (i + 1) then greedyLoop ok (left + 1) (i + 1) (i + 1) ((i + 1) :: idx)
    else greedyLoop ok (left + 1) (i + 1) start idx

/-- The inner `while j <= imax` loop of `group_optsig_lima/gv` (grouping.py:881-896, 974-989):
first `j' ≥ j` such that `[i, j'+1)` reaches the significance, `none` if `j` runs past `imax`.
First argument: number of values of `j` left to try. -/
def sigExtend (ok : Nat → Nat → Bool) : Nat → Nat → Nat → Option Nat
  | 0, _, _ => none
  | left + 1, i, j => if ok i (j + 1) then some j else sigExtend ok left i (j + 1)

/-- `np.append(idx, size)`; `zip(edge[:-1], edge[1:])` (grouping.py:494-496): the half-open
intervals of the groups defined by the start positions. -/
def edges : List Nat → Nat → List (Nat × Nat)
  | [], _ => []
  | [a], size => [(a, size)]
  | a :: b :: r, size => (a, b) :: edges (b :: r) size

end Elisa.Grouping
