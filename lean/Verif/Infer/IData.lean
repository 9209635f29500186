import Verif.Infer.Params
import Mathlib.Data.Real.Basic

/-!
# Model of what a Bayesian fit stores: likelihoods, deviances, effective sample sizes

`BayesFit._generate_results` (fit.py:570-655), `get_loglike` (helper.py:491-512), `PosteriorResult.deviance`,
`.ess`, `.reff` (results.py:2227-2266), `BayesFit._get_ess` (fit.py:697-723) and the efficiencies computed in
`jaxns`, `nautilus`, `ultranest` (fit.py:1619-1629, 1694-1701, 1787-1794).

All arrays carry the same leading (chain, draw) axes, over which the code works element by element; the model follows
one draw.  The sites of the probabilistic model have distinct names
(numpyro asserts it for `sample` sites only; C115 says when it holds for the others).
-/

namespace Elisa.Infer

open Elisa

/-- Python's `a | b` for dictionaries (fit.py:570-655). -/
def dictMerge {V : Type} (a b : List (String × V)) : List (String × V) :=
  b.foldl (fun d x => dictSet d x.1 x.2) a

/-- The log-likelihood sites of one data set in one draw (likelihood.py:205-232 and so on): of the on counts, of the off counts if the
statistic has a background, and of the channels, which is what the statistic adds up. -/
structure LogLikeSites where
  name : String
  on : List ℝ
  off : Option (List ℝ)
  point : List ℝ

/-- An entry of the `log_likelihood` group in one draw (fit.py:587-595). -/
inductive Entry where
  | points (v : List ℝ)
  | number (v : ℝ)

/-- `get_loglike` (helper.py:494-512). -/
structure LogLike where
  data : List (String × List ℝ)
  point : List (String × List ℝ)
  group : List (String × ℝ)
  channels : List ℝ
  total : ℝ

/-- The names and values under `data` for one data set: `data_group` (helper.py:386-391) and helper.py:493-495. -/
def LogLikeSites.parts (s : LogLikeSites) : List (String × List ℝ) :=
  match s.off with
  | none => [(s.name ++ "_Non", s.on)]
  | some o => [(s.name ++ "_Non", s.on), (s.name ++ "_Noff", o)]

/-- `get_loglike` (helper.py:494-512). -/
def getLogLike (sites : List LogLikeSites) : LogLike :=
  let point := sites.map fun s => (s.name, s.point)
  { data := dictOf (sites.flatMap LogLikeSites.parts)
    point := dictOf point
    group := (dictOf point).map fun x => (x.1, x.2.sum)
    channels := sites.flatMap fun s => (((dictOf point).lookup s.name).getD [])
    total := (sites.flatMap fun s => (((dictOf point).lookup s.name).getD [])).sum }

/-- The `log_likelihood` group (fit.py:587-595): `data | point | {k}_total | channels | total`. -/
def logLikeGroup (l : LogLike) : List (String × Entry) :=
  let group := dictOf (l.group.map fun x => (x.1 ++ "_total", Entry.number x.2))
  let d := l.data.map fun x => (x.1, Entry.points x.2)
  let p := l.point.map fun x => (x.1, Entry.points x.2)
  dictMerge (dictMerge (dictMerge (dictMerge d p) group) [("channels", .points l.channels)]) [("total", .number l.total)]

/-- The keys of `ndata` (helper.py:142-143): the data names, then `total` (not repeated if a data set has that name). -/
def ndataKeys (sites : List LogLikeSites) : List String :=
  (dictSet (dictOf (sites.map fun s => (s.name, ()))) "total" ()).map (·.1)

/-- A scalar entry times minus two; `float(...)` of an array with more than one element raises (results.py:2235-2243). -/
def devianceOf : Option Entry → Except PyErr ℝ
  | some (.number v) => .ok (-2 * v)
  | some (.points _) => .error .typeError
  | none => .error .keyError

/-- `stat_keys` (results.py:2230-2233). -/
def statKey (k : String) : String := if k ≠ "total" then k ++ "_total" else k

/-- `PosteriorResult.deviance` in one draw (results.py:2227-2245). -/
def devianceTable (sites : List LogLikeSites) : Except PyErr (List (String × ℝ)) :=
  (ndataKeys sites).mapM fun k => do
    let v ← devianceOf ((logLikeGroup (getLogLike sites)).lookup (statKey k))
    pure (k, v)

/-- The `ess` group (fit.py:636): the effective sample sizes and the relative efficiency side by side. -/
def essGroup (ess : List (String × ℝ)) (reff : ℝ) : List (String × ℝ) := dictMerge ess [("reff", reff)]

/-- `PosteriorResult.ess` (results.py:2252-2259). -/
def essOf (g : List (String × ℝ)) : List (String × ℝ) := g.filter fun x => x.1 ≠ "reff"

/-- `PosteriorResult.reff` (results.py:2247-2250). -/
def reffOf (g : List (String × ℝ)) : Except PyErr ℝ := dictGet g "reff"

/-- Which sampler produced the draws, as far as the relative efficiency is concerned (fit.py:699-723). -/
inductive EffSource where
  | mcmc | jaxns | nautilus | ultranest
deriving DecidableEq, Repr

/-- The relative efficiency handed to `_generate_results`.  `chains` is the number passed to `_get_ess`, `meanRelative` the mean over the free
parameters of arviz' relative effective sample sizes (fit.py:713-721); the nested samplers divide their effective sample size by a number
of draws: jaxns by the number of draws (fit.py:1629), the other two by `len` of an array whose first axis was added
by `x[None]` (fit.py:1694, 1700-1701, 1787, 1793-1794) and is therefore of length one. -/
noncomputable def relEff (src : EffSource) (chains : Nat) (meanRelative ess : ℝ) (draws : Nat) : ℝ :=
  match src with
  | .mcmc => if chains = 1 then 1 else meanRelative
  | .jaxns => ess / draws
  | .nautilus => ess / (([draws] : List Nat).length : ℝ)
  | .ultranest => ess / (([draws] : List Nat).length : ℝ)

/-- The Pareto table (results.py:1475-1480): `np.histogram(k, [-inf, good, 1, inf])` counts half-open intervals `[a, b)`, the last one closed. -/
def paretoCounts {K : Type} [LinearOrder K] [One K] (good : K) (ks : List K) : List Nat :=
  [ks.countP (fun k => k < good), ks.countP (fun k => good ≤ k ∧ k < 1), ks.countP fun k => 1 ≤ k]

end Elisa.Infer
