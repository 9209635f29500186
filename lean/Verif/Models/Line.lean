import Verif.Models.Spectra

/-!
# The Gaussian line and the thermal synchrotron continuum (`src/elisa/models/add.py:482-516, 596-629`)

Both are `NumIntAdditive` components: their bins are `trapz true` or `simpson true` of the continuum (model.py:1714-1736, `Spectra.trapz`, `Spectra.simpson`).
Exact real arithmetic.
-/

namespace Elisa.Models.Spectra

open Real

/-- `jax.scipy.stats.norm.pdf(x, loc, scale)`, as called in add.py:516: `exp(-(x - loc)² / (2 scale²)) / (sqrt(2π) scale)`. -/
noncomputable def normPdf (x loc scale : ℝ) : ℝ := exp (-((x - loc) ^ 2 / (2 * scale ^ 2))) / (sqrt (2 * π) * scale)

/-- `Gauss.continuum`, add.py:511-516, at one energy. -/
noncomputable def gauss (El sigma K e : ℝ) : ℝ := K * normPdf e El sigma

/-- `OTTS.continuum`, add.py:625-629, at one energy. -/
noncomputable def otts (Ec K e : ℝ) : ℝ := K * exp (-((e / Ec) ^ ((1 : ℝ) / 3)))

end Elisa.Models.Spectra
