import Mathlib.Algebra.BigOperators.Group.List.Basic
import Mathlib.Algebra.BigOperators.Intervals
import Mathlib.Algebra.Order.BigOperators.Group.List

/-!
# NumPy / Python primitives used by several modules

These are the library operations the modelled code calls.  They are part of the model, so each one
says which library behaviour it stands for.
-/

namespace Elisa

/-- Python exceptions that the modelled code can raise (only the kind is kept) (the `raise` statements cited at the functions, e.g. base.py:279-284). -/
inductive PyErr where
  | assertionError
  | indexError
  | keyError
  | valueError
  | typeError
  | notImplementedError
  | runtimeError
  | zeroDivisionError
  | attributeError
deriving DecidableEq, Repr

/-- `x[a:b].sum()` for a 1-d array, e.g. `bin_counts[i : j + 1].sum()`
(grouping.py:203).  Slices are clipped to the array as in Python. -/
def sliceSum {K : Type*} [AddCommMonoid K] (xs : List K) (a b : Nat) : K :=
  ((xs.take b).drop a).sum

/-- `np.add.reduceat(xs, idx)` (used in grouping.py:87, 230, 389-393, 658-659, 731-732, 1082-1083; base.py).
For `i` not last: `xs[idx[i]:idx[i+1]].sum()` when `idx[i] < idx[i+1]`, else `xs[idx[i]]`;
the last entry is `xs[idx[-1]:].sum()`.  Simplification: NumPy raises for an index `>= len(xs)`;
here such a slice sums to `0`. -/
def reduceat {K : Type*} [AddCommMonoid K] (xs : List K) : List Nat → List K
  | [] => []
  | [a] => [(xs.drop a).sum]
  | a :: b :: r => (if a < b then sliceSum xs a b else xs.getD a 0) :: reduceat xs (b :: r)

/-- `np.flatnonzero(mask)`: the increasing positions where the mask is true (numpy, used in base.py:308, 451, 1337, grouping.py:392). -/
def flatnonzero (mask : List Bool) : List Nat :=
  (List.range mask.length).filter fun k => mask.getD k false

/-- `np.concatenate(([0.0], np.cumsum(values)))` building block: `np.cumsum` of a list with a
running total (grouping.py:263). -/
def cumsumFrom {K : Type*} [AddCommMonoid K] (acc : K) : List K → List K
  | [] => []
  | x :: xs => (acc + x) :: cumsumFrom (acc + x) xs

/-- `np.cumsum(values)` (numpy, used in base.py:689, grouping.py:205, 263). -/
def cumsum {K : Type*} [AddCommMonoid K] (xs : List K) : List K := cumsumFrom 0 xs

end Elisa
