import Verif.Grouping.Spec
import Mathlib.Algebra.Field.Basic
import Mathlib.Data.Finset.Basic

/-!
# Specification of the effective scale of a set of channels

Independent of the model.  `S` is the set of (good) channels of a group, `c` and `s` the counts and
the scale factor of each channel.
-/

namespace Elisa.Grouping

variable {K : Type*} [Field K] [DecidableEq K]

/-- The effective scale factor of a set of channels: for a net spectrum the arithmetic mean of the
scales, otherwise the count-weighted harmonic mean, or the plain harmonic mean when the weighted
denominator vanishes (no counts); `1` when there is nothing to average. -/
def effScale (net : Bool) (S : Finset Nat) (c s : Nat → K) : K :=
  if net then (if S = ∅ then 1 else (∑ i ∈ S, s i) / (S.card : K))
  else if ∑ i ∈ S, c i / s i ≠ 0 then (∑ i ∈ S, c i) / ∑ i ∈ S, c i / s i
  else if ∑ i ∈ S, 1 / s i ≠ 0 then (S.card : K) / ∑ i ∈ S, 1 / s i
  else 1

/-- The good channels among `a, ..., b-1` (all of them when no quality array is given). -/
def goodIn (quality : Option (List Bool)) (a b : Nat) : Finset Nat :=
  (Finset.Ico a b).filter fun i => ∀ q, quality = some q → q[i]? = some true

/-- A data array as a function of the channel number. -/
def at0 (xs : List K) (i : Nat) : K := xs.getD i 0

end Elisa.Grouping
