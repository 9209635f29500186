import Verif.Infer.Likelihood

/-!
# Model of the probability model a Bayesian fit samples from (`numpyro_model`, helper.py:284-371)

The log density of the program is the sum of the `log_prob` of its sample sites: one site per free parameter, with its
prior, and the sites `{name}_Non` and, where there is a background to fit, `{name}_Noff` of every data set; composite
parameters and recorded values are deterministic sites, which have none.  The priors are the default ones
(`Uniform`, `LogUniform`; parameter.py:555-562, 652-659).  Not modelled: numpyro itself, rounding.
-/

namespace Elisa.Infer.Bayes

open Elisa Elisa.Infer

/-- A free parameter with its default prior: `log`, `min`, `max` of a `UniformParameter` (parameter.py:453-490). -/
structure FreeParam where
  name : String
  log : Bool
  lo : ℝ
  hi : ℝ

/-- `log_prob` of the prior of a free parameter (parameter.py:555-562): `Uniform(min, max)`, or `LogUniform(min, max)`, which is
the exponential of a uniform variable between the logarithms. -/
noncomputable def FreeParam.logProb (p : FreeParam) (x : ℝ) : ℝ :=
  if p.log then -Real.log (Real.log p.hi - Real.log p.lo) - Real.log x else -Real.log (p.hi - p.lo)

/-- The sample sites of one data set: `{name}_Non` (likelihood.py:215-221, 262-268, 313-319, 375-381, 432-438) and `{name}_Noff`
(likelihood.py:382-387, 439-444); with the data given, the `log_prob` of a site is that of the data. -/
def siteLogProb (s : Sites) : ℝ :=
  s.onLoglike.sum + match s.off with | some o => o.2.2.sum | none => 0

/-- The log density of `numpyro_model` (helper.py:332-367) at the values `x` of the free parameters: `run x` gives the
statistic, the data and the bin values of the model of each data set. -/
noncomputable def logDensity (ps : List FreeParam) (run : (String → ℝ) → List (Stat × FitData × List ℝ)) (x : String → ℝ) :
    Except PyErr ℝ := do
  let sites ← fitSites (run x)
  return (ps.map fun p => p.logProb (x p.name)).sum + (sites.map siteLogProb).sum

end Elisa.Infer.Bayes
