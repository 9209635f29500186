import Verif.Infer.BatchProps
import Mathlib.Tactic

/-!
# Repeated simulations: `MLEResult.boot` and `PosteriorResult.ppc` over the life of a result

Model of `/repo/src/elisa/infer/results.py:402-475` and `2028-2113` as operations on the stored
simulation result, of the selection of posterior draws (`results.py:2068-2078`, `2204-2223`), and of
the caches of the plot data (`/repo/src/elisa/plot/data.py:43-65`), which compare object identities.
-/

namespace Elisa.Infer.Resample

open Elisa Elisa.Util

/-! ## Stored simulations -/

/-- Arguments of `boot` / `ppc`. A seed is a Python number: it is compared as given and converted with
`int` afterwards (results.py:402-475, 2028-2113). -/
structure Req where
  n : Nat
  seed : Option ℚ
  parallel : Bool
  progress : Bool
  nParallel : Option Int
deriving DecidableEq

/-- `int(seed)`: truncation towards zero (results.py:402-475). -/
def truncInt (q : ℚ) : Int := if 0 ≤ q then ⌊q⌋ else ⌈q⌉

/-- `BootstrapResult` / `PPCResult`: the settings kept for the comparison and everything else (results.py:2608-2636, 2781-2812). -/
structure Stored (R : Type) where
  n : Nat
  seed : Int
  out : R
deriving DecidableEq

/-- The seed of a run, results.py:440 and 2066: the predictive seed of the fit by default. -/
def seedOf (dflt : Int) (r : Req) : Int :=
  match r.seed with
  | none => dflt
  | some q => truncInt q

/-- `self._boot.seed == seed`, results.py:436 and 2061: `None` is equal to no seed. -/
def sameSeed (stored : Int) : Option ℚ → Bool
  | none => false
  | some q => decide ((stored : ℚ) = q)

/-- `boot` / `ppc`, results.py:431-475 and 2055-2113. `exec seed n' r` is the simulation and fit of
`n'` data sets (it may raise, or be interrupted); the result is stored at the very end. -/
def call {R : Type} (nDev : Nat) (dflt : Int) (exec : Int → Nat → Req → Except PyErr R) (s : Option (Stored R))
    (r : Req) : Except PyErr (Option (Stored R)) :=
  match getParallelNumber nDev r.nParallel with
  | .error e => .error e
  | .ok p =>
    let n := runSize r.parallel p r.n
    let hit := match s with
      | none => false
      | some st => decide (st.n = n) && sameSeed st.seed r.seed
    if hit then .ok s
    else match exec (seedOf dflt r) n r with
      | .error e => .error e
      | .ok out => .ok (some ⟨n, seedOf dflt r, out⟩)

/-- A history of calls on one result object; exceptions are caught by the caller and leave the stored
result alone (a sequence of calls of results.py:402-475, 2028-2113). -/
def history {R : Type} (nDev : Nat) (dflt : Int) (exec : Int → Nat → Req → Except PyErr R) (s : Option (Stored R)) :
    List Req → Option (Stored R)
  | [] => s
  | r :: rs => match call nDev dflt exec s r with
    | .ok s' => history nDev dflt exec s' rs
    | .error _ => history nDev dflt exec s rs

/-- `gof`, results.py:1299-1304 and 2115-2123: the p-values of the stored simulation. -/
def gof {R P : Type} (pvalues : R → P) (s : Option (Stored R)) : Except PyErr P :=
  match s with
  | none => .error .runtimeError
  | some st => .ok (pvalues st.out)

/-! ## Posterior draws -/

/-- `{k: v.values[i, j] for k, v in posterior.items()}` (results.py:2072-2078, 2216-2219): `post` maps each
parameter to its (chain, draw) array, `idx` are the drawn index pairs. -/
def pick {V : Type} (post : List (String × (Nat → Nat → V))) (idx : List (Nat × Nat)) : List (String × List V) :=
  post.map fun kv => (kv.1, idx.map fun ij => kv.2 ij.1 ij.2)

/-- `np.hstack(v.values)`: all draws, chain after chain (results.py:2028-2113). -/
def allIdx (chains draws : Nat) : List (Nat × Nat) :=
  (List.range chains).flatMap fun i => (List.range draws).map fun j => (i, j)

/-- `PosteriorResult._params_dist`, results.py:2204-2223; `rng n` are the `n` index pairs drawn by
`rng.integers`, `dev` is the number of devices. -/
def paramsDist {V : Type} (dev chains draws : Nat) (rng : Nat → List (Nat × Nat)) (post : List (String × (Nat → Nat → V))) :
    List (String × List V) :=
  if 10000 < chains * draws then pick post (rng (10000 - 10000 % dev))
  else pick post (allIdx chains draws)

/-- `PPCResult`, results.py:2093-2113: replicated parameters as drawn, data and fits restricted to the
valid fits. -/
structure PpcRecord (I D R : Type) where
  paramsRep : List I
  data : List D
  fits : List R

/-- results.py:2080-2105: `valid` is computed by the fit and used to select rows of the fit results only. -/
def ppcRecord {I D R : Type} (valid : R → Bool) (draws : List I) (data : List D) (fits : List R) : PpcRecord I D R :=
  ⟨draws, ((data.zip fits).filter fun x => valid x.2).map Prod.fst, fits.filter valid⟩

/-! ## Plot caches -/

/-- The cache of one method of one plot data object: `old_id` and the entries of `functools.cache`,
keyed by the arguments (data.py:49-65). `cur` is the current simulation with its memory address. -/
structure PlotCache (O A V : Type) where
  cur : Option (Nat × O)
  oldId : Option Nat
  entries : List (A × V)

/-- `id(getattr(instance, 'boot'))`; `none` is the address of `None` (plot/data.py:50-68). -/
def curId {O A V : Type} (s : PlotCache O A V) : Option Nat := s.cur.map Prod.fst

/-- A plot data object is created, data.py:57-58: `old_id` is taken from the result at that time. -/
def PlotCache.create {O A V : Type} (cur : Option (Nat × O)) : PlotCache O A V :=
  ⟨cur, cur.map Prod.fst, []⟩

/-- What can happen: a simulation finishes and is stored at address `id`, or the method is called (plot/data.py:50-68). -/
inductive PlotOp (O A : Type) where
  | simulated (id : Nat) (o : O)
  | query (a : A)

/-- Calling the method, data.py:60-64 with `functools.cache`: the new state and the returned value. -/
def PlotCache.query {O A V : Type} [DecidableEq A] (f : Option O → A → V) (s : PlotCache O A V) (a : A) :
    PlotCache O A V × V :=
  let entries := if curId s ≠ s.oldId then [] else s.entries
  match entries.lookup a with
  | some v => (⟨s.cur, curId s, entries⟩, v)
  | none =>
    let v := f (s.cur.map Prod.snd) a
    (⟨s.cur, curId s, (a, v) :: entries⟩, v)

/-- One operation. A new simulation result is allocated while the previous one is still referenced, so
its address differs from the previous one (see `Allocatable`) (plot/data.py:50-68). -/
def PlotCache.step {O A V : Type} [DecidableEq A] (f : Option O → A → V) (s : PlotCache O A V) : PlotOp O A → PlotCache O A V
  | .simulated id o => { s with cur := some (id, o) }
  | .query a => (s.query f a).1

/-- A history (plot/data.py:50-68). -/
def PlotCache.run {O A V : Type} [DecidableEq A] (f : Option O → A → V) (s : PlotCache O A V) (ops : List (PlotOp O A)) :
    PlotCache O A V := ops.foldl (fun s op => s.step f op) s

/-- The addresses of the simulations of a history (specification, models no code). -/
def simIds {O A : Type} (ops : List (PlotOp O A)) : List Nat :=
  ops.filterMap fun op => match op with | .simulated id _ => some id | .query _ => none

/-- Addresses Python can hand out: that of the result being replaced is still in use (specification, models no code). -/
def Allocatable : List Nat → Prop
  | [] => True
  | [_] => True
  | a :: b :: l => a ≠ b ∧ Allocatable (b :: l)

end Elisa.Infer.Resample
