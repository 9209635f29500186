import Verif.Data.Obs
import Mathlib.Analysis.SpecialFunctions.Pow.Real

/-!
# Model of `src/elisa/infer/likelihood.py`

The statistics are modelled per dataset on the arrays that `ObservationData.set_grouping` leaves
behind.  Real numbers replace float64; numpyro's sites are the record `Sites`.
-/

namespace Elisa.Infer

open Elisa Elisa.Grouping

/-- `pgstat_background` (likelihood.py:41-84) for one channel. -/
noncomputable def pgstatBackground (s n bEst bErr a : ℝ) : ℝ :=
  let variance := bErr * bErr
  let e := bEst - a * variance
  let f := a * variance * n + e * s
  let c := a * e - s
  let d := Real.sqrt (c * c + 4 * a * f)
  if 0 ≤ e ∨ 0 ≤ f then (if 0 < n then (c + d) / (2 * a) else e) else 0

/-- `wstat_background` (likelihood.py:89-133) for one channel. -/
noncomputable def wstatBackground (s nOn nOff a : ℝ) : ℝ :=
  let c := a * (nOn + nOff) - (a + 1) * s
  let d := Real.sqrt (c * c + 4 * a * (a + 1) * nOff * s)
  if nOn = 0 then nOff / (1 + a)
  else if nOff = 0 then (if s ≤ a / (a + 1) * nOn then nOn / (1 + a) - s / a else 0)
  else (c + d) / (2 * a * (a + 1))

/-- `BetterNormal.log_prob` (likelihood.py:137-140). -/
noncomputable def normalLogProb (value loc scale : ℝ) : ℝ :=
  let v := (value - loc) / scale
  (-1 / 2) * v * v

/-- `BetterPoisson.log_prob` (likelihood.py:144-174), dense branch; the sparse branch (148-170) computes
the same numbers entry by entry. -/
noncomputable def poissonLogProb (value rate : ℝ) : ℝ :=
  let logp := xlogy value rate - rate
  let gof := xlogy value value - value
  min (logp - gof) 0

/-- `BetterPoisson.log_prob`, sparse branch (likelihood.py:148-170): only entries with a positive value
receive the logarithmic terms. -/
noncomputable def poissonLogProbSparse (value rate : ℝ) : ℝ :=
  min (-rate + (if 0 < value then xlogy value rate - (xlogy value value - value) else 0)) 0

/-- `jnp.clip(x, min=lo, max=hi)` (likelihood.py:204-208). -/
noncomputable def clip (lo hi x : ℝ) : ℝ := min (max x lo) hi

/-- The five statistics (likelihood.py:33). -/
inductive Stat where
  | chi2 | cstat | pstat | pgstat | wstat
deriving DecidableEq, Repr

/-- `_STATISTIC_SPEC_NORMAL` (likelihood.py:36) -/
def Stat.specNormal (s : Stat) : Bool := s ∈ [Stat.chi2]

/-- `_STATISTIC_BACK_NORMAL` (likelihood.py:37) -/
def Stat.backNormal (s : Stat) : Bool := s ∈ [Stat.pgstat]

/-- `_STATISTIC_WITH_BACK` (likelihood.py:38) -/
def Stat.withBack (s : Stat) : Bool := s ∈ [Stat.pgstat, Stat.wstat]

/-- Background part of a `FixedData` (base.py `back_counts`, `back_errors`, `back_ratio`) (base.py:1893-1975). -/
structure FitBack where
  counts : List ℝ
  errors : List ℝ
  ratio : List ℝ

/-- The arrays of a `FixedData` used in a fit (base.py:1893-1975). -/
structure FitData where
  specCounts : List ℝ
  specErrors : List ℝ
  netCounts : List ℝ
  netErrors : List ℝ
  back : Option FitBack
  matrix : List (List ℝ)
  areaScale : List ℝ
  exposure : ℝ
  specPoisson : Bool
  backPoisson : Bool

/-- `ObservationData.get_fixed_data` (base.py:881-915): the fit sees the arrays that `set_grouping` left behind. -/
def FitData.ofObs (o : Data.Obs) (st : Data.ObsState) : FitData where
  specCounts := st.specCounts
  specErrors := st.specErrors
  netCounts := st.netCounts
  netErrors := st.netErrors
  back := st.back.map fun b => ⟨b.1, b.2.1, b.2.2⟩
  matrix := st.matrix
  areaScale := st.areaScale
  exposure := o.spec.exposure
  specPoisson := o.spec.poisson
  backPoisson := (o.back.map (·.poisson)).getD false

/-- Number of channels (noticed groups) of a dataset (helper.py:136 `v.channel.size`). -/
def FitData.size (d : FitData) : Nat := d.specCounts.length

/-- `xs[j]` of a real array, `0` beyond its end (never used beyond it when the arrays match) (likelihood.py:184-450). -/
def nth (xs : List ℝ) (j : Nat) : ℝ := xs.getD j 0

/-- `source_rate = resp_matrix @ jnp.clip(unfold, 1e-300, 1e300) * area_scale`
(likelihood.py:204-205, 249-250, 298-299, 347-348, 412-413), entry `j`; `resp_matrix` is the transposed
response. -/
noncomputable def FitData.sourceRate (d : FitData) (unfold : List ℝ) (j : Nat) : ℝ :=
  ((List.range d.matrix.length).map fun r =>
    nth (d.matrix.getD r []) j * clip (1e-300) (1e300) (nth unfold r)).sum * nth d.areaScale j

/-- `source_counts = jnp.clip(source_rate * exposure, 1e-30, 1e15)`
(likelihood.py:207-208, 252-253, 352-353, 417-418). -/
noncomputable def FitData.sourceCounts (d : FitData) (unfold : List ℝ) (j : Nat) : ℝ :=
  clip (1e-30) (1e15) (d.sourceRate unfold j * d.exposure)

/-- The numpyro sites of one dataset that the rest of the package reads (likelihood.py:184-450). -/
structure Sites where
  /-- `{name}_Non_data` -/
  onData : List ℝ
  /-- `{name}_Non_model` -/
  onModel : List ℝ
  /-- `{name}_Noff_data`, `{name}_Noff_model`, `{name}_Noff_loglike` -/
  off : Option (List ℝ × List ℝ × List ℝ)
  /-- `{name}_Non_loglike` -/
  onLoglike : List ℝ
  /-- `{name}_loglike` -/
  loglike : List ℝ

/-- `chi2`, `cstat`, `pstat`, `pgstat`, `wstat` (likelihood.py:184-450): the likelihood of one dataset for
the bin values `unfold` of the model. -/
noncomputable def likelihood (stat : Stat) (d : FitData) (unfold : List ℝ) : Except PyErr Sites :=
  let js := List.range d.size
  match stat, d.back with
  | .chi2, _ =>
    let μ := js.map (d.sourceCounts unfold)
    let ll := js.map fun j => normalLogProb (nth d.netCounts j) (nth μ j) (nth d.netErrors j)
    .ok ⟨d.netCounts, μ, none, ll, ll⟩
  | .cstat, _ =>
    let μ := js.map (d.sourceCounts unfold)
    let ll := js.map fun j => poissonLogProb (nth d.specCounts j) (nth μ j)
    .ok ⟨d.specCounts, μ, none, ll, ll⟩
  | .pstat, some b =>
    let μ := js.map fun j =>
      clip (1e-30) (1e15) (d.sourceRate unfold j * d.exposure + nth b.ratio j * nth b.counts j)
    let ll := js.map fun j => poissonLogProb (nth d.specCounts j) (nth μ j)
    .ok ⟨d.specCounts, μ, none, ll, ll⟩
  | .pgstat, some b =>
    let bm := js.map fun j => pgstatBackground (d.sourceCounts unfold j) (nth d.specCounts j)
      (nth b.counts j) (nth b.errors j) (nth b.ratio j)
    let μ := js.map fun j => d.sourceCounts unfold j + nth b.ratio j * nth bm j
    let on := js.map fun j => poissonLogProb (nth d.specCounts j) (nth μ j)
    let off := js.map fun j => normalLogProb (nth b.counts j) (nth bm j) (nth b.errors j)
    .ok ⟨d.specCounts, μ, some (b.counts, bm, off), on, js.map fun j => nth on j + nth off j⟩
  | .wstat, some b =>
    let bm := js.map fun j => wstatBackground (d.sourceCounts unfold j) (nth d.specCounts j)
      (nth b.counts j) (nth b.ratio j)
    let μ := js.map fun j => d.sourceCounts unfold j + nth b.ratio j * nth bm j
    let on := js.map fun j => poissonLogProb (nth d.specCounts j) (nth μ j)
    let off := js.map fun j => poissonLogProb (nth b.counts j) (nth bm j)
    .ok ⟨d.specCounts, μ, some (b.counts, bm, off), on, js.map fun j => nth on j + nth off j⟩
  | _, none => .error .assertionError

/-! ## Aggregation in the helper -/

/-- `get_loglike` (helper.py:494-512): per point, per dataset, all channels, total. -/
structure Loglike where
  point : List (List ℝ)
  group : List ℝ
  channels : List ℝ
  total : ℝ

/-- helper.py:494-512, for the sites of the datasets in order. -/
def getLoglike (sites : List Sites) : Loglike :=
  let point := sites.map (·.loglike)
  let channels := point.flatten
  ⟨point, point.map List.sum, channels, channels.sum⟩

/-- `deviance` (helper.py:571-580): point, group and total deviance. -/
structure Deviance where
  point : List (List ℝ)
  group : List ℝ
  total : ℝ

/-- helper.py:571-580 -/
noncomputable def deviance (l : Loglike) : Deviance :=
  ⟨l.point.map fun p => p.map (-2 * ·), l.group.map (-2 * ·), -2 * l.total⟩

/-- `residual` (helper.py:588-594): square roots of the deviance of all channels. -/
noncomputable def residual (l : Loglike) : List ℝ :=
  l.point.flatten.map fun x => Real.sqrt (-2 * x)

/-- All likelihood sites of a fit: dataset `i` with its statistic and the bin values of its model
(helper.py:311-330, 362-367). -/
noncomputable def fitSites (ds : List (Stat × FitData × List ℝ)) : Except PyErr (List Sites) :=
  ds.mapM fun x => likelihood x.1 x.2.1 x.2.2

end Elisa.Infer
