import Verif.Infer.IData

/-!
# Model of the named sites of the probabilistic model and of the named count data

`numpyro_model`, `get_sites`, `get_params`, `get_models`, `get_loglike`, `get_counts_data` (helper.py:167-201, 332-368, 452-517) and the sites written by the
likelihoods (likelihood.py:205-225, 250-270, 299-319, 348-385, 413-448).

Values are of any type.  Assumptions about numpyro: the trace is a dictionary from names to sites; a `sample` site whose name is taken is refused
(`AssertionError`), any other site replaces the one of the same name; `constrain_fn(..., return_deterministic=True)` keeps the sites that are free parameters and
the deterministic ones, and fails for a site that has the name of a free parameter but is not a `sample` site.  `jax.tree.map` visits the likelihoods in the order
of the sorted names.
-/

namespace Elisa.Infer.Sites

open Elisa Elisa.Infer

variable {V : Type}

/-- What the likelihood of one data set computes (likelihood.py:205-225, 348-385): the folded model, the counts used and expected, their log-likelihoods, the
log-likelihood of the channels, and for a statistic with background the same for the background. -/
structure Values (V : Type) where
  rate : V
  plate : V
  onData : V
  onModel : V
  onSample : V
  onLike : V
  like : V
  /-- data, model, sample, log-likelihood of the background -/
  off : Option (V × V × V × V)

/-- Types of sites (likelihood.py:184-450, helper.py:332-368). -/
inductive Kind where
  | sample
  | deterministic
  | mutable
  | plate
deriving DecidableEq

/-- A site: its kind and its value (likelihood.py:184-450, helper.py:332-368). -/
structure Site (V : Type) where
  kind : Kind
  value : V

/-- The sites of the likelihood of the data set `n`, in the order they are written (likelihood.py:205-225 for `chi2`, and alike for `cstat`, `pstat`; 348-385 for `pgstat`
and 413-448 for `wstat`). -/
def likelihoodSites (n : String) (v : Values V) : List (String × Site V) :=
  match v.off with
  | none =>
    [(n, ⟨.deterministic, v.rate⟩), (n ++ "_Non_data", ⟨.mutable, v.onData⟩), (n ++ "_Non_model", ⟨.deterministic, v.onModel⟩), (n ++ "_plate", ⟨.plate, v.plate⟩),
      (n ++ "_Non", ⟨.sample, v.onSample⟩), (n ++ "_Non_loglike", ⟨.deterministic, v.onLike⟩), (n ++ "_loglike", ⟨.deterministic, v.like⟩)]
  | some (d, m, s, l) =>
    [(n, ⟨.deterministic, v.rate⟩), (n ++ "_Non_data", ⟨.mutable, v.onData⟩), (n ++ "_Noff_data", ⟨.mutable, d⟩), (n ++ "_Non_model", ⟨.deterministic, v.onModel⟩),
      (n ++ "_Noff_model", ⟨.deterministic, m⟩), (n ++ "_plate", ⟨.plate, v.plate⟩), (n ++ "_Non", ⟨.sample, v.onSample⟩), (n ++ "_Noff", ⟨.sample, s⟩),
      (n ++ "_Non_loglike", ⟨.deterministic, v.onLike⟩), (n ++ "_Noff_loglike", ⟨.deterministic, l⟩), (n ++ "_loglike", ⟨.deterministic, v.like⟩)]

/-- Recording a site in the trace (numpyro, for helper.py:332-368). -/
def record (t : List (String × Site V)) (x : String × Site V) : Except PyErr (List (String × Site V)) :=
  if x.2.kind = .sample ∧ x.1 ∈ t.map (·.1) then .error .assertionError else .ok (dictSet t x.1 x.2)

/-- The trace of a list of sites (numpyro, for helper.py:332-368). -/
def trace (sites : List (String × Site V)) : Except PyErr (List (String × Site V)) := sites.foldlM record []

/-- `numpyro_model` (helper.py:332-367): free parameters, composite parameters, then the likelihoods in the order `run`. -/
def modelSites (free comp : List (String × V)) (run : List (String × Values V)) : List (String × Site V) :=
  (free.map fun x => (x.1, ⟨.sample, x.2⟩)) ++ (comp.map fun x => (x.1, ⟨.deterministic, x.2⟩)) ++ run.flatMap fun x => likelihoodSites x.1 x.2

/-- `constrain_fn(..., return_deterministic=True)` (helper.py:459-465). -/
def constrain (free comp : List (String × V)) (run : List (String × Values V)) : Except PyErr (List (String × V)) :=
  if (modelSites free comp run).any fun x => decide (x.1 ∈ free.map (·.1)) && decide (x.2.kind ≠ .sample) then .error .attributeError
  else
    match trace (modelSites free comp run) with
    | .error e => .error e
    | .ok t => .ok ((t.filter fun x => decide (x.1 ∈ free.map (·.1)) || decide (x.2.kind = .deterministic)).map fun x => (x.1, x.2.value))

/-- `get_params` (helper.py:477-482) -/
def getParams (names : List String) (sites : List (String × V)) : Except PyErr (List (String × V)) :=
  names.mapM fun n => (dictGet sites n).map fun v => (n, v)

/-- `data_group` (helper.py:386-391): the names of the measurements of a data set. -/
def groupNames (n : String) (back : Bool) : List String := if back then [n ++ "_Non", n ++ "_Noff"] else [n ++ "_Non"]

/-- `{k: sites[k] for k in names}` (helper.py:477-512). -/
def pick (sites : List (String × V)) (key : String → String) (names : List String) : Except PyErr (List (String × V)) :=
  names.mapM fun n => (dictGet sites (key n)).map fun v => (n, v)

/-- `get_models` (helper.py:484-492): `data` gives the names of the data sets and whether the statistic has a background. -/
def getModels (data : List (String × Bool)) (sites : List (String × V)) : Except PyErr (List (String × V)) := do
  let a ← pick sites id (data.map (·.1))
  let b ← pick sites id ((data.flatMap fun x => groupNames x.1 x.2).map fun i => i ++ "_model")
  pure (dictMerge (dictOf a) b)

/-- `get_loglike` (helper.py:494-512), the entries `data` and `point`. -/
def getLike (data : List (String × Bool)) (sites : List (String × V)) : Except PyErr (List (String × V) × List (String × V)) := do
  let a ← pick sites (fun n => n ++ "_loglike") (data.flatMap fun x => groupNames x.1 x.2)
  let b ← pick sites (fun n => n ++ "_loglike") (data.map (·.1))
  pure (dictOf a, dictOf b)

/-- What `get_counts_data` needs to know of a data set: its name, and for a statistic with background its ratio; `net` turns on counts and, with background, off
counts into the net spectrum (helper.py:179-190). -/
structure CountRule (V : Type) where
  name : String
  back : Bool
  net : V → Option V → V

/-- The net spectrum of one data set (helper.py:179-190). -/
def CountRule.spectrum (counts : List (String × V)) (r : CountRule V) : Except PyErr (String × V) := do
  let on ← dictGet counts (r.name ++ "_Non")
  pure (r.name, r.net on (if r.back then counts.lookup (r.name ++ "_Noff") else none))

/-- `get_counts_data` (helper.py:167-201); `join` stacks the spectra and `sum` adds up the counts.  The entry `total` is kept abstract: it is some value `sum` of the
count dictionary. -/
def getCountsData (rules : List (CountRule V)) (join : List V → V) (sum : List (String × V) → V) (counts : List (String × V)) :
    Except PyErr (List (String × V)) := do
  let on ← pick counts id (rules.map fun r => r.name ++ "_Non")
  let off ← pick counts id ((rules.filter (·.back)).map fun r => r.name ++ "_Noff")
  let net ← rules.mapM (CountRule.spectrum counts)
  let d := dictMerge (dictMerge (dictOf on) off) net
  let spectra ← rules.mapM fun r => dictGet d r.name
  pure (dictSet (dictSet d "channels" (join spectra)) "total" (sum counts))

/-- The data substituted for the observed ones when simulation `i` is fitted (helper.py:607-610), for one simulation. -/
def newData (data : List (String × Bool)) (sim : List (String × V)) : Except PyErr (List (String × V)) := do
  let a ← pick sim id (data.flatMap fun x => groupNames x.1 x.2)
  pure (dictOf (a.map fun x => (x.1 ++ "_data", x.2)))

end Elisa.Infer.Sites
