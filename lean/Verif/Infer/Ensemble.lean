import Mathlib.Data.Real.Basic
import Mathlib.Data.List.Basic

/-!
# Model of the ensemble samplers' bookkeeping (`infer/samplers/ensemble/base.py`, `infer/samplers/util.py:118-127`)

The third-party samplers (emcee, zeus, numpyro) are outside the model: what they return is an arbitrary array of
draws, what they tell the progress listener is the message sequence the wrappers put on the queue.
-/

namespace Elisa.Infer

/-- `np.transpose` of an array `(n_step, n_walker)` of draws followed by `np.concatenate` of its rows
(`infer/samplers/ensemble/base.py:240-246`; the same as `jnp.swapaxes` and `reshape` in `infer/fit.py:713-721`). -/
def mergeWalkers {α : Type} (walkers : ℕ) (draws : List (List α)) : List α :=
  ((List.range walkers).map fun w : ℕ => draws.filterMap (fun row => row[w]?)).flatten

/-- `np.vstack` of the merged samplers (`infer/samplers/ensemble/base.py:247-248`). -/
def stackSamplers {α : Type} (walkers : ℕ) (results : List (List (List α))) : List (List α) :=
  results.map (mergeWalkers walkers)

/-- Messages on the progress queue (`infer/samplers/ensemble/base.py:255-282`). -/
inductive Msg where
  | warmup
  | update
  | sample
  | finish
  deriving DecidableEq

/-- What one sampler process puts on the queue, in order (`infer/samplers/ensemble/emcee.py:69-91`,
`infer/samplers/ensemble/zeus.py:71-92`). -/
def samplerMessages (warmup steps : ℕ) : List Msg :=
  [.warmup] ++ List.replicate warmup .update ++ [.sample] ++ List.replicate steps .update ++ [.finish]

/-- `_progress_listener` (`infer/samplers/ensemble/base.py:261-285`) reading the messages that arrive: the number of
updates per bar, the messages left unread, and whether the loop ended (`false`: it is blocked in `queue.get`). -/
def listen (n : ℕ) : ℕ → (ℕ → ℕ) → List (ℕ × Msg) → (ℕ → ℕ) × List (ℕ × Msg) × Bool
  | finished, bars, [] => (bars, [], decide (n ≤ finished))
  | finished, bars, (i, m) :: rest =>
      if n ≤ finished then (bars, (i, m) :: rest, true)
      else match m with
        | .update => listen n finished (Function.update bars i (bars i + 1)) rest
        | .finish => listen n (finished + 1) bars rest
        | .warmup => listen n finished bars rest
        | .sample => listen n finished bars rest

/-- A saved sampler state: the walkers' positions (`infer/samplers/ensemble/base.py:25-32`); the random state is opaque. -/
structure WalkerState where
  coords : List (List ℝ)
  rng : ℕ

/-- The `states` argument of `run` (`infer/samplers/ensemble/base.py:161-186`): the states to start from and the number of
warm-up steps actually made, or the error raised.  `fresh` is what is drawn when no states are given. -/
def startStates (nParallel chains ndim warmup : ℕ) (fresh : List WalkerState) (states : Option (List WalkerState)) :
    Except String (List WalkerState × ℕ) :=
  match states with
  | none => .ok (fresh, warmup)
  | some ss =>
      if ss.length ≠ nParallel then .error "states number should match n_parallel"
      else if ss.any (fun s => s.coords.length ≠ chains || s.coords.any (fun r => r.length ≠ ndim)) then
        .error "states' coords must have shape"
      else .ok (ss, 0)

/-- The jittered start positions (`infer/samplers/ensemble/base.py:162-167`): every walker's coordinate is the initial
coordinate times its own jitter. -/
def jitterInit (jitter : ℕ → ℕ → ℕ → ℝ) (init : ℕ → ℝ) (sampler walker dim : ℕ) : ℝ :=
  jitter sampler walker dim * init dim

/-- The seeds handed to the parallel samplers (`infer/samplers/ensemble/base.py:163-164`): `seed0 + arange(n + 1)`, the first
being used for the jitter. -/
def samplerSeeds (seed0 nParallel : ℕ) : ℕ × List ℕ :=
  (seed0, (List.range nParallel).map fun i : ℕ => seed0 + (i + 1))

/-- `run` as far as the process start method is concerned (`infer/samplers/ensemble/base.py:195-232`): it is switched to
`spawn` and restored at the end; an exception of a sampler (`r.get()`) leaves the function in between. -/
def runStartMethod (method : String) (samplerFails : Bool) : String :=
  let old := if method ≠ "spawn" then method else ""
  let now := if method ≠ "spawn" then "spawn" else method
  if samplerFails then now
  else if old ≠ "" then old else now

/-- `np.indices(shape).reshape(len(shape), -1).T` (`infer/samplers/util.py:123`): all multi-indices, last index fastest. -/
def indices : List ℕ → List (List ℕ)
  | [] => [[]]
  | d :: ds => (List.range d).flatMap fun i : ℕ => (indices ds).map (i :: ·)

/-- `','.join(...)` of the index strings (samplers/util.py:122-132). -/
def joinIdx : List ℕ → List Char
  | [] => []
  | [i] => (Nat.toDigits 10 i)
  | i :: rest => Nat.toDigits 10 i ++ ',' :: joinIdx rest

/-- `ravel_params_names` (`infer/samplers/util.py:122-129`). -/
def ravelNames (name : List Char) (shape : List ℕ) : List (List Char) :=
  if shape = [] then [name] else (indices shape).map fun i => name ++ '[' :: joinIdx i ++ [']']

end Elisa.Infer
