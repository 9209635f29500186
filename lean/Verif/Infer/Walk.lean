import Verif.Infer.Ensemble
import Verif.Np
import Mathlib.Algebra.Module.Defs
import Mathlib.Data.Real.Basic

/-!
# Model of a run of an ensemble sampler in its process

`EmceeSampler` (infer/samplers/ensemble/emcee.py:21-107), `ZeusSampler` (infer/samplers/ensemble/zeus.py:22-101), the start states of `EnsembleSampler.run`
(infer/samplers/ensemble/base.py:160-187) and `DifferentialMove` (zeus.py:104-127).

What the libraries do is summarised as follows.  One step of the walkers is a function of their positions, of the state of NumPy's legacy generator and of the
tuning state of the moves (which a new sampler starts with).  `emcee` (3.1.6, the version the package asks for) has a generator of its own, which a new sampler copies from the
global one of the process; `sample(state)` tries to set it to `state.random_state` and silently goes on if that is not a state of a legacy generator.
`zeus` uses the global generator.  A sampler asked for `n` iterations with `thin_by=t` makes `n * t` steps and stores every `t`-th.
-/

namespace Elisa.Infer.Walk

open Elisa Elisa.Infer

/-- A sampler library: one step of all walkers, the tuning state of a new sampler, and the legacy generator made from a seed (emcee.py:36-98, zeus.py:41-96). -/
structure Lib (S R T : Type) where
  step : S × R × T → S × R × T
  fresh : T
  legacy : ℕ → R

/-- What is found in `EnsembleSamplerState.random_state`: the state of a legacy generator, or a `numpy.random.Generator` (samplers/ensemble/base.py:25-32). -/
inductive Random (R : Type) where
  | legacy (r : R)
  | generator (seed : ℕ)

/-- `EnsembleSamplerState` (base.py:25-32). -/
structure Saved (S R : Type) where
  coords : S
  random : Random R

variable {S R T : Type}

/-- `n` steps (emcee.py:71-90, zeus.py:60-90). -/
def steps (lib : Lib S R T) : ℕ → S × R × T → S × R × T
  | 0, x => x
  | n + 1, x => steps lib n (lib.step x)

/-- `sampler.sample(..., iterations=n, thin_by=t)`: what is stored, and the state at the end (emcee.py:71-90, zeus.py:60-90). -/
def collect (lib : Lib S R T) (t : ℕ) : ℕ → S × R × T → List S × (S × R × T)
  | 0, x => ([], x)
  | n + 1, x =>
      let y := steps lib t x
      let rest := collect lib t n y
      (y.1 :: rest.1, rest.2)

/-- `emcee.EnsembleSampler.random_state = ...`: `own` is the generator copied from the process (emcee.py:36-98). -/
def emceeRandom (own : R) : Random R → R
  | .legacy r => r
  | .generator _ => own

/-- The state kept after a loop `for s in sampler.sample(...): emcee_state = s` over `n` iterations (emcee.py:71-79, 81-90): unchanged if there are none. -/
def emceeAfter (n : ℕ) (before : Saved S R) (x : S × R × T) : Saved S R :=
  match n with
  | 0 => before
  | _ + 1 => ⟨x.1, .legacy x.2.1⟩

/-- `sampling_fn` of `EmceeSampler` (emcee.py:38-96); `own` is the state of the global generator of the process. -/
def emcee (lib : Lib S R T) (own : R) (warmup n t : ℕ) (s : Saved S R) : List S × Saved S R :=
  let w := collect lib 1 warmup (s.coords, emceeRandom own s.random, lib.fresh)
  let s1 := emceeAfter warmup s w.2
  let r := collect lib t n (s1.coords, emceeRandom own s1.random, lib.fresh)
  (r.1, emceeAfter n s1 r.2)

/-- `np.random.set_state` (zeus.py:46) in a process whose global generator is in the state `own`: raises for a `Generator`; `get_random_state` (zeus.py:100-101) gives legacy
states. -/
def zeusRandom (_own : R) : Random R → Except PyErr R
  | .legacy r => .ok r
  | .generator _ => .error .typeError

/-- `sampling_fn` of `ZeusSampler` (zeus.py:41-96), for at least one iteration. -/
def zeus (lib : Lib S R T) (own : R) (warmup n t : ℕ) (s : Saved S R) : Except PyErr (List S × Saved S R) :=
  match zeusRandom own s.random with
  | .error e => .error e
  | .ok r0 =>
      let w := collect lib 1 warmup (s.coords, r0, lib.fresh)
      let r := collect lib t n (w.2.1, w.2.2.1, lib.fresh)
      .ok (r.1, ⟨r.2.1, .legacy r.2.2.1⟩)

/-- `get_random_state` of the two samplers (emcee.py:100-101, zeus.py:100-101). -/
def emceeState (seed : ℕ) : Random R := .generator seed

/-- See `emceeState` (zeus.py:100-101). -/
def zeusState (lib : Lib S R T) (seed : ℕ) : Random R := .legacy (lib.legacy seed)

/-- The start states (base.py:162-170): `coords i` are the jittered positions of the walkers of sampler `i`. -/
def starts (state : ℕ → Random R) (seed0 n : ℕ) (coords : ℕ → S) : List (Saved S R) :=
  (List.range n).map fun i : ℕ => ⟨coords i, state (seed0 + (i + 1))⟩

/-- All samplers of a run with emcee (base.py:222-236); `own i` is the generator of the process that runs sampler `i`. -/
def runEmcee (lib : Lib S R T) (own : ℕ → R) (warmup n t : ℕ) (ss : List (Saved S R)) : List (List S × Saved S R) :=
  ss.mapIdx fun i s => emcee lib (own i) warmup n t s

/-- All samplers of a run with zeus: the results, or the exception of the first sampler that raises (`r.get()`, base.py:231). -/
def runZeus (lib : Lib S R T) (own : ℕ → R) (warmup n t : ℕ) (ss : List (Saved S R)) : Except PyErr (List (List S × Saved S R)) :=
  (ss.mapIdx fun i s => zeus lib (own i) warmup n t s).mapM id

/-! ## Log-probabilities that are not numbers -/

/-- A log-probability (samplers/ensemble/base.py:101-102). -/
inductive LogP where
  | nan
  | negInf
  | num (x : ℝ)
  | posInf

/-- `jnp.nan_to_num(log_prob, nan=-np.inf)` (base.py:101-102): infinities become the largest numbers `± big`. -/
def nanToNum (big : ℝ) : LogP → LogP
  | .nan => .negInf
  | .negInf => .num (-big)
  | .num x => .num x
  | .posInf => .num big

/-! ## The differential move -/

/-- `permutations(range(n), 2)` (zeus.py:118): the ordered pairs of different numbers, in lexicographic order. -/
def pairsOf (n : ℕ) : List (ℕ × ℕ) :=
  (List.range n).flatMap fun i : ℕ => ((List.range n).filter fun j : ℕ => j ≠ i).map fun j : ℕ => (i, j)

/-- The memory of a `DifferentialMove` (zeus.py:107-112): the pairs for the number of walkers seen last. -/
structure Move where
  tune : Bool
  mu0 : ℝ
  known : Option (ℕ × List (ℕ × ℕ))

/-- The pairs used for `n` walkers (zeus.py:115-119). -/
def Move.pairs (m : Move) (n : ℕ) : List (ℕ × ℕ) :=
  match m.known with
  | none => pairsOf n
  | some (k, ps) => if n ≠ k then pairsOf n else ps

/-- `get_direction` (zeus.py:114-127): `choice` is `np.random.choice(nperms, n, replace=False)`, which raises if there are fewer than `n` pairs; the new move and the
directions, one per walker. -/
noncomputable def Move.direction {V : Type} [AddCommGroup V] [Module ℝ V] (m : Move) (X : List V) (mu : ℝ) (choice : List ℕ) : Except PyErr (Move × List V) :=
  let ps := m.pairs X.length
  if ps.length < X.length then .error .valueError
  else
    let mu' := if m.tune then mu else m.mu0
    .ok (⟨m.tune, m.mu0, some (X.length, ps)⟩,
      choice.map fun (i : ℕ) => (2 * mu') • (X.getD (ps.getD i (0, 0)).1 0 - X.getD (ps.getD i (0, 0)).2 0))

end Elisa.Infer.Walk
