import Mathlib.Algebra.BigOperators.Intervals

/-!
# Specification of a grouping

Independent of the model: what it means for an array of flags to describe groups of channels
(OGIP convention: `1` starts a group, `-1` continues it).
-/

namespace Elisa.Grouping

/-- `flags` is a legal grouping of `nd` channels: right length, only `1` / `-1`, and the first
channel starts a group. -/
structure ValidFlags (flags : List Int) (nd : Nat) : Prop where
  length : flags.length = nd
  values : ∀ f ∈ flags, f = 1 ∨ f = -1
  first : flags[0]? = some 1

/-- Channel `k` starts a group (its flag is not the continuation flag `-1`). -/
def IsStart (flags : List Int) (k : Nat) : Prop := ∃ f, flags[k]? = some f ∧ f ≠ -1

/-- Channels `a, a+1, ..., b-1` form one group: `a` carries a start flag, the following ones carry
continuation flags, and channel `b` (if there is one) starts the next group. -/
def IsGroup (flags : List Int) (a b : Nat) : Prop :=
  a < b ∧ b ≤ flags.length ∧ IsStart flags a ∧
    (∀ k, a < k → k < b → flags[k]? = some (-1)) ∧
    (b < flags.length → IsStart flags b)

/-- Channels `a, ..., b-1` form the group number `k` (counting from 0): `k` groups start before. -/
def IsKthGroup (flags : List Int) (k a b : Nat) : Prop :=
  IsGroup flags a b ∧ ((flags.take a).filter (· ≠ -1)).length = k

/-- Total of `data` over the channels `a, ..., b-1`. -/
def total {K : Type*} [AddCommMonoid K] (data : List K) (a b : Nat) : K :=
  ∑ k ∈ Finset.Ico a b, data.getD k 0

/-- Number of groups described by the flags. -/
def numGroups (flags : List Int) : Nat := flags.count 1

end Elisa.Grouping
