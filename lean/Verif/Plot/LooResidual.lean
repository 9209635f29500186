import Verif.Plot.Residual
import Verif.Infer.LooPit

/-!
# Model of the residuals of a posterior (`src/elisa/plot/data.py:765-1025`, class `PosteriorPlotData`)

A posterior is a list of draws; each has model fluxes and, for every channel, the log of its normalised importance weight (`az.psislw`, results.py:2373-2390).
Arrays are modelled channel by channel.
-/

namespace Elisa.Plot

open Elisa Elisa.Infer Elisa.Grouping

/-- A draw of the posterior: log weights of the channels and fluxes of the energy bins (results.py:2355-2395). -/
structure Draw where
  lw : List ℝ
  flux : List ℝ

/-- `_loo_expectation` (results.py:2391-2396) in channel `j` of something computed from every draw. -/
noncomputable def looOf (draws : List Draw) (j : Nat) (f : Draw → ℝ) : ℝ := looExpectation (draws.map fun s => (nth s.lw j, f s))

/-- `_sign_loo` (data.py:781-783), with `get_model_loo` (data.py:691-694). -/
noncomputable def signLoo (d : FitData) (width : List ℝ) (draws : List Draw) (j : Nat) : ℝ :=
  signOf (ceData d width j ≥ looOf draws j fun s => modelSpectrum d width s.flux j)

/-- Deviance of a channel (data.py:826-829; helper.py:579-589). -/
noncomputable def devAt (sites : Sites) (j : Nat) : ℝ := -2 * nth sites.loglike j

/-- `_deviance_residuals('loo')` (data.py:885-893): the likelihood of every draw, then `sign * sqrt` of the expectation of the deviance (data.py:826-829). -/
noncomputable def devResLoo (stat : Stat) (d : FitData) (width : List ℝ) (draws : List Draw) : Except PyErr (List ℝ) := do
  let sites ← draws.mapM fun s => likelihood stat d s.flux
  return (List.range d.size).map fun j =>
    signLoo d width draws j * Real.sqrt (looExpectation (List.zipWith (fun (s : Draw) (t : Sites) => (nth s.lw j, devAt t j)) draws sites))

/-- The Pearson residual of one draw in channel `j` (data.py:921-959), before the expectation. -/
noncomputable def pearsonDraw (stat : Stat) (d : FitData) (sites : Sites) (sign : ℝ) (j : Nat) : Option ℝ :=
  let onData := if stat.specNormal then d.netCounts else d.specCounts
  let r := pearson (nth onData j) (nth sites.onModel j) (if stat.specNormal then some (nth d.netErrors j) else none)
  if stat.withBack then
    let rb := pearson (nth ((d.back.map (·.counts)).getD []) j) (nth ((sites.off.map (·.2.1)).getD []) j)
      (if stat.backNormal then some (nth ((d.back.map (·.errors)).getD []) j) else none)
    pearsonPair sign r rb
  else r

/-- `_pearson_residuals('loo')` (data.py:914-965): expectation of the absolute values, with the sign; undefined if a draw is. -/
noncomputable def pearsonResLoo (stat : Stat) (d : FitData) (width : List ℝ) (draws : List Draw) : Except PyErr (List (Option ℝ)) := do
  let sites ← draws.mapM fun s => likelihood stat d s.flux
  return (List.range d.size).map fun j =>
    (List.mapM (fun t => pearsonDraw stat d t (signLoo d width draws j) j) sites).map fun rs =>
      looExpectation (List.zipWith (fun (s : Draw) (r : ℝ) => (nth s.lw j, |r|)) draws rs) * signLoo d width draws j

/-- What `residuals(rtype, mle=...)` returns for deviance and Pearson residuals (data.py:843-857, 869-893, 896-919): those of the maximum likelihood
model only if a posterior predictive check was run. -/
def pointResiduals {A : Type} (ppc mle : Bool) (loo atMle : A) : Option A := if mle then (if ppc then some atMle else none) else some loo

/-- `quantile_residuals` of one channel (data.py:998-1025): `pit` is the pair of C83, `u` a uniform number of `[0, 1)`. -/
noncomputable def looQuantile (chains draws : Nat) (pit : ℝ × ℝ) (random : Bool) (u : ℝ) : EReal × Bool × Bool :=
  limitedResidual (chains * draws) (if random then pit.1 + u * (pit.2 - pit.1) else pit.2)

end Elisa.Plot
