import Verif.Np
import Mathlib.Data.Rat.Defs
import Mathlib.Algebra.Field.Basic

/-!
# Model of the single-chain samplers: `samplers/blackjax/nuts.py` and the numpyro wrapper in `infer/fit.py`

The NUTS transition kernel, the dual-averaging adaptation and numpyro's `MCMC` class are third-party code and are parameters
of the model.  What is modelled is what elisa's own code does with them: when the adaptation runs, which step size and mass
matrix every transition gets, the running acceptance statistic, which saved states are accepted and how a run is started.
-/

namespace Elisa.Infer

open Elisa

/-- The BlackJAX functions used by the wrapper (nuts.py:164-176, 197-204): `kernel(key, position, step size, mass matrix)` gives the new
position and the acceptance rate, `adapt_step`, the tuning `adapt_final`, the current tuning inside the adaptation
state, the adaptation schedule, and `random.split`. -/
structure BlackJax (P S A G Key F : Type) where
  kernel : Key → P → S → P × F
  adaptStep : A → G → P → F → A
  adaptFinal : A → S
  current : A → S
  adaptInit : P → A
  schedule : Nat → Nat → G
  split : Key → Key

/-- `BlackJAXNUTSState` (nuts.py:14-63): the fields the next transition depends on, and the acceptance statistics.  `tuning` stands for
the pair (step size, inverse mass matrix); the diagnostic fields are left out. -/
structure NutsState (P S A Key F : Type) where
  i : Nat
  z : P
  tuning : S
  adapt : A
  accept : F
  meanAccept : F
  key : Key

variable {P S A G Key F : Type}

/-- The tuning a transition uses (nuts.py:189-196): that of the adaptation during warm-up, the stored one afterwards. -/
def usedTuning (b : BlackJax P S A G Key F) (warmup : Nat) (s : NutsState P S A Key F) : S :=
  if s.i + 1 ≤ warmup then b.current s.adapt else s.tuning

/-- `mcmc_kernel` (nuts.py:178-235). -/
def nutsStep [Field F] (b : BlackJax P S A G Key F) (warmup : Nat) (s : NutsState P S A Key F) : NutsState P S A Key F :=
  let i := s.i + 1
  let key := b.split s.key
  let r := b.kernel key s.z (usedTuning b warmup s)
  let adapt := if i ≤ warmup then b.adaptStep s.adapt (b.schedule warmup s.i) r.1 r.2 else s.adapt
  let n := if i ≤ warmup then i else i - warmup
  { i := i, z := r.1, tuning := b.adaptFinal adapt, adapt := adapt, accept := r.2,
    meanAccept := s.meanAccept + (r.2 - s.meanAccept) / (n : F), key := key }

/-- `init` (nuts.py:239-258): the acceptance rate of a new state is NaN there and never read; `0` here. -/
def nutsInit [Field F] (b : BlackJax P S A G Key F) (z : P) (key : Key) : NutsState P S A Key F :=
  { i := 0, z := z, tuning := b.current (b.adaptInit z), adapt := b.adaptInit z, accept := 0, meanAccept := 0, key := key }

/-- `n` transitions: what `MCMC.run` does with the kernel (nuts.py:260-262). -/
def nutsRun [Field F] (b : BlackJax P S A G Key F) (warmup : Nat) : Nat → NutsState P S A Key F → NutsState P S A Key F
  | 0, s => s
  | n + 1, s => nutsStep b warmup (nutsRun b warmup n s)

/-- `MCMC.run` with a `post_warmup_state` (fit.py:842-843): no warm-up transitions, the given state with the new key. -/
def resume (s : NutsState P S A Key F) (key : Key) : NutsState P S A Key F := { s with key := key }

/-! ### Starting a run -/

/-- The kernels offered by `BayesFit` (fit.py:849-1308). -/
inductive KernelKind where
  | nuts | barkermh | sa | blackjaxNuts | aies | ess
deriving DecidableEq, Repr

/-- The type of a saved state (fit.py:671-682); for ensemble states, the type of the inner state. -/
inductive StateKind where
  | hmcState | barkerMHState | saState | blackJAXNUTSState | ensemble (inner : KernelKind) | foreign
deriving DecidableEq, Repr

/-- The state a kernel leaves behind (`sampler.last_state`, fit.py:761). -/
def KernelKind.produces : KernelKind → StateKind
  | .nuts => .hmcState
  | .barkermh => .barkerMHState
  | .sa => .saState
  | .blackjaxNuts => .blackJAXNUTSState
  | .aies => .ensemble .aies
  | .ess => .ensemble .ess

/-- `_set_numpyro_mcmc_post_warmup_state` (fit.py:664-697): the state set on the sampler.  The table is walked in the order
`BarkerMH, BlackJAXNUTS, NumpyroEnsembleSampler, HMC, SA, NUTS`; NUTS is a subclass of HMC. -/
def setState (k : KernelKind) (state : Option StateKind) : Except PyErr (Option StateKind) :=
  match state with
  | none => .ok none
  | some st =>
    match k with
    | .barkermh => if st = .barkerMHState then .ok (some st) else .error .valueError
    | .blackjaxNuts => if st = .blackJAXNUTSState then .ok (some st) else .error .valueError
    | .nuts => if st = .hmcState then .ok (some st) else .error .valueError
    | .sa => if st = .saState then .ok (some st) else .error .valueError
    | .aies =>
      match st with
      | .ensemble inner => if inner = .aies then .ok (some st) else .error .valueError
      | _ => .error .valueError
    | .ess =>
      match st with
      | .ensemble inner => if inner = .ess then .ok (some st) else .error .valueError
      | _ => .error .valueError

/-- Where a non-ensemble chain starts (fit.py:825-831): `init` is the user's dictionary, `strategy` an `init_strategy` passed as a
keyword argument. -/
inductive StartAt (D T : Type) where
  | values (d : D)
  | strategy (t : T)
deriving DecidableEq, Repr

/-- `kernel_kwargs['init_strategy']` (fit.py:825-831); `merge` is `_check_init` (fit.py:657-662). -/
def startAt {D T : Type} (merge : Option D → D) (init : Option D) (strategy : Option T) : StartAt D T :=
  match init with
  | some d => .values (merge (some d))
  | none =>
    match strategy with
    | some t => .strategy t
    | none => .values (merge none)

/-- The draws kept of a chain: `MCMC(num_samples=steps*thinning, thinning=thinning)` (fit.py:833-841) makes `steps * thinning` transitions and
keeps every `thinning`-th; `chain t` is the state after `t + 1` transitions. -/
def keptDraws {α : Type} (steps thinning : Nat) (chain : Nat → α) : List α :=
  ((List.range (steps * thinning)).filter fun t => (t + 1) % thinning = 0).map chain

/-- `sample_stats` (fit.py:742-752): the names of the recorded statistics; a tree depth is added if the number of steps is found. -/
def sampleStats (extra : List String) : List String :=
  let stats := extra.map fun k => if k = "num_steps" then "n_steps" else k
  if "tree_depth" ∉ stats ∧ "num_steps" ∈ stats then stats ++ ["tree_depth"] else stats

end Elisa.Infer
