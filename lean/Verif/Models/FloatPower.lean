import Verif.Infer.FloatPoissonProps

/-!
# Power law bins in floating point

`_powerlaw_integral` with every result rounded; `pw` and `lg` are the library's power and logarithm.
-/

namespace Elisa.Models.Fl

/-- `f1 = jnp.power(egrid, one_minus_alpha) / one_minus_alpha` (add.py:44) at one edge. -/
noncomputable def edgeF (rnd : ℝ → ℝ) (pw : ℝ → ℝ → ℝ) (q e : ℝ) : ℝ := rnd (pw e q / q)

/-- `_powerlaw_integral` (add.py:40-50) for the bin from `a` to `b`, with rounded operations. -/
noncomputable def powBinF (rnd : ℝ → ℝ) (pw : ℝ → ℝ → ℝ) (lg : ℝ → ℝ) (alpha a b : ℝ) : ℝ :=
  if alpha ≠ 1 then rnd (edgeF rnd pw (rnd (1 - alpha)) b - edgeF rnd pw (rnd (1 - alpha)) a)
  else rnd (lg b - lg a)

end Elisa.Models.Fl
