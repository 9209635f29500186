import Verif.Infer.FloatPoisson
import Verif.Grouping.Signif
import Mathlib.Data.EReal.Operations

/-!
# The significance over a Gaussian background with every result rounded

`significance_gv` and `group_sig_gv`, with `none` for a NaN and the two infinities.  With `rnd` the identity and `lg` the logarithm this is exact arithmetic with the
divisions by zero of NumPy.  Simplifications: the sums of an interval of channels are exact and its ratio is given; no overflow.
-/

namespace Elisa.Grouping.Fl

open Elisa Elisa.Grouping Elisa.Infer.Fl

/-- `b * b - 2 * b * s2 + 4 * n * s2 + s4` (grouping.py:555-557), from left to right, `s2` given. -/
noncomputable def gvRadF (rnd : ℝ → ℝ) (n b s2 : ℝ) : ℝ :=
  rnd (rnd (rnd (rnd (b * b) - rnd (rnd (2 * b) * s2)) + rnd (rnd (4 * n) * s2)) + rnd (s2 * s2))

/-- `b0_mle` (grouping.py:557-558) where the radicand is not negative. -/
noncomputable def gvBackF (rnd : ℝ → ℝ) (n b s2 : ℝ) : ℝ :=
  max (rnd (1 / 2 * rnd (rnd (b - s2) + rnd (Real.sqrt (gvRadF rnd n b s2))))) 0

/-- `2.0 * (term1 + term2)` (grouping.py:560-568, 570) for a positive `s2` and, if there are counts, a positive `b0_mle`, called `b0`. -/
noncomputable def gvTermsF (rnd lg : ℝ → ℝ) (n b s2 b0 : ℝ) : ℝ :=
  rnd (2 * rnd (rnd ((if 0 < n then xlogyF rnd lg n (rnd (n / b0)) else 0) + rnd (b0 - n)) + rnd (rnd (rnd (b - b0) * rnd (b - b0)) / rnd (2 * s2))))

/-- `sign` (grouping.py:569). -/
noncomputable def gvSign (n b : ℝ) : ℝ := if b ≤ n then 1 else -1

/-- `sign * inf` (grouping.py:570). -/
noncomputable def gvInf (n b : ℝ) : EReal := if b ≤ n then ⊤ else ⊥

/-- `significance_gv` (grouping.py:541-570) for one entry: NaN for the root of a negative number and for zero over zero, an infinity for a number over zero. -/
noncomputable def gvF (rnd lg : ℝ → ℝ) (n b s a : ℝ) : Option EReal :=
  let b' := rnd (b * a)
  let s2 := rnd (rnd (s * a) * rnd (s * a))
  let b0 := gvBackF rnd n b' s2
  if gvRadF rnd n b' s2 < 0 then none
  else if s2 = 0 then (if rnd (rnd (b' - b0) * rnd (b' - b0)) = 0 then none else some (gvInf n b'))
  else if 0 < n ∧ b0 = 0 then some (gvInf n b')
  else if gvTermsF rnd lg n b' s2 b0 < 0 then none
  else some ((gvSign n b' * rnd (Real.sqrt (gvTermsF rnd lg n b' s2 b0)) : ℝ) : EReal)

/-- `group_sig >= sig` (grouping.py:812, 832). -/
noncomputable def reachesE (sig : ℝ) : Option EReal → Bool
  | none => false
  | some s => decide ((sig : EReal) ≤ s)

/-- `group_sig < sig` (grouping.py:808). -/
noncomputable def fallsE (sig : ℝ) : Option EReal → Bool
  | none => false
  | some s => decide (s < (sig : EReal))

/-- The loop of `group_sig_gv` (grouping.py:791-815), see `greedyLoop`; `s a b` is the significance of the interval `[a, b)`. -/
noncomputable def greedyLoopE (s : ℕ → ℕ → Option EReal) (sig : ℝ) : ℕ → ℕ → ℕ → List ℕ → List ℕ
  | 0, _, _, idx => idx
  | 1, i, start, idx => if fallsE sig (s start (i + 1)) ∧ 1 < idx.length then idx.tail else idx
  | left + 2, i, start, idx =>
    if reachesE sig (s start (i + 1)) then greedyLoopE s sig (left + 1) (i + 1) (i + 1) ((i + 1) :: idx)
    else greedyLoopE s sig (left + 1) (i + 1) start idx

/-- `group_sig_gv` (grouping.py:752-837), with the computed ratio of an interval given. -/
noncomputable def groupSigGvF (rnd lg : ℝ → ℝ) (n b s : List ℝ) (ratio : ℕ → ℕ → ℝ) (sig : ℝ) : Except PyErr (List Int × Bool) :=
  if ¬ (n.length = b.length ∧ b.length = s.length) then .error .assertionError
  else if sig ≤ 0 then .error .assertionError
  else if n = [] then .error .indexError
  else
    let S := fun i j : ℕ => gvF rnd lg (intervalSum (prefixSum n) i j) (intervalSum (prefixSum b) i j) (rnd (Real.sqrt (intervalSum (prefixSum (s.map fun x => x * x)) i j))) (ratio i j)
    let idx := (greedyLoopE S sig n.length 0 0 [0]).reverse
    .ok (setFlags n.length idx, (List.zip (Elisa.reduceat n idx) (List.zip (Elisa.reduceat b idx) (List.zip (Elisa.reduceat (s.map fun x => x * x) idx)
      ((edges idx n.length).map fun e => ratio e.1 e.2)))).all fun p => reachesE sig (gvF rnd lg p.1 p.2.1 (rnd (Real.sqrt p.2.2.1)) p.2.2.2))

end Elisa.Grouping.Fl
