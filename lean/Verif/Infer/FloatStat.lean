import Verif.Infer.Likelihood

/-!
# The profile backgrounds in floating point

`wstat_background` and `pgstat_background` with the result of every operation rounded, as float64 arithmetic does.  Simplification: no two operations are
contracted into one (fused multiply-add).
-/

namespace Elisa.Infer.Fl

open Elisa Elisa.Infer

/-- `c = a * (n_on + n_off) - (a + 1) * s` (likelihood.py:118), rounded by `rnd`. -/
noncomputable def wc (rnd : ℝ → ℝ) (s nOn nOff a : ℝ) : ℝ :=
  rnd (rnd (a * rnd (nOn + nOff)) - rnd (rnd (a + 1) * s))

/-- `4 * a * (a + 1) * n_off * s` (likelihood.py:119), from left to right. -/
noncomputable def wt (rnd : ℝ → ℝ) (s nOff a : ℝ) : ℝ :=
  rnd (rnd (rnd (rnd (4 * a) * rnd (a + 1)) * nOff) * s)

/-- `jnp.sqrt(c * c + t)` (likelihood.py:80, 119); the square root is correctly rounded. -/
noncomputable def root (rnd : ℝ → ℝ) (c t : ℝ) : ℝ := rnd (Real.sqrt (rnd (rnd (c * c) + t)))

/-- `wstat_background` (likelihood.py:89-133) for one channel, with rounded operations. -/
noncomputable def wback (rnd : ℝ → ℝ) (s nOn nOff a : ℝ) : ℝ :=
  let c := wc rnd s nOn nOff a
  let d := root rnd c (wt rnd s nOff a)
  if nOn = 0 then rnd (nOff / rnd (1 + a))
  else if nOff = 0 then
    (if s ≤ rnd (rnd (a / rnd (a + 1)) * nOn) then rnd (rnd (nOn / rnd (1 + a)) - rnd (s / a)) else 0)
  else rnd (rnd (c + d) / rnd (rnd (2 * a) * rnd (a + 1)))

/-- `pgstat_background` (likelihood.py:41-84) for one channel, with rounded operations. -/
noncomputable def pgback (rnd : ℝ → ℝ) (s n bEst bErr a : ℝ) : ℝ :=
  let variance := rnd (bErr * bErr)
  let e := rnd (bEst - rnd (a * variance))
  let f := rnd (rnd (rnd (a * variance) * n) + rnd (e * s))
  let c := rnd (rnd (a * e) - s)
  let d := root rnd c (rnd (rnd (4 * a) * f))
  if 0 ≤ e ∨ 0 ≤ f then (if 0 < n then rnd (rnd (c + d) / rnd (2 * a)) else e) else 0

/-- `source_counts + back_ratio * b` (likelihood.py:357, 420), with rounded operations. -/
noncomputable def onRate (rnd : ℝ → ℝ) (s a b : ℝ) : ℝ := rnd (s + rnd (a * b))

end Elisa.Infer.Fl
