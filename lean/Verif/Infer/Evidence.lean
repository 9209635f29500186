import Verif.Np
import Mathlib.Tactic

/-!
# Model of what is reported for a nested sampling run

`BayesFit.jaxns`, `nautilus`, `ultranest` (`src/elisa/infer/fit.py:1619-1638, 1688-1710, 1769-1803`), the samplers' own `ess` and `lnZ`
(`samplers/ns/nautilus.py:82-109`, `samplers/ns/ultranest.py:90-138`) and the group `evidence` of a result (fit.py:640-643, results.py:2347-2352).

NaN is `none`.  The draws are of any type.
-/

namespace Elisa.Infer.Evidence

open Elisa

/-- What a sampler holds after a run (or what is found in the log of an earlier one): equally weighted draws, the effective sample size, the logarithm of the evidence and its error (jaxns.py:98-252, nautilus.py:82-110, ultranest.py:57-138). -/
structure Run (D : Type) where
  draws : List D
  ess : Nat
  lnZ : ℝ
  lnZError : ℝ

/-- What a `PosteriorResult` reports: draws, effective sample size of every parameter, evidence and its error (results.py:2169-2171, 2253-2259, 2348-2352). -/
structure Report (D : Type) where
  draws : List D
  ess : List (String × Nat)
  lnZ : Option ℝ × Option ℝ

/-- `_generate_results` as far as these entries are concerned (fit.py:636-643): `None` becomes NaN. -/
def generate {D : Type} (draws : List D) (names : List String) (ess : Nat) (lnZ : Option ℝ × Option ℝ) : Report D :=
  ⟨draws, names.map fun n => (n, ess), lnZ⟩

/-- `BayesFit.jaxns` (fit.py:1619-1638). -/
def jaxns {D : Type} (names : List String) (r : Run D) : Report D := generate r.draws names r.ess (some r.lnZ, some r.lnZError)

/-- `NautilusSampler.run` and `BayesFit.nautilus` (nautilus.py:82-101, fit.py:1688-1710); `success` is what the run of nautilus returns. -/
def nautilus {D : Type} (names : List String) (success : Bool) (r : Run D) : Except PyErr (Report D) :=
  if success then .ok (generate r.draws names r.ess (some r.lnZ, none)) else .error .runtimeError

/-- `self._sampler` of an `UltraNestSampler` after `run` (ultranest.py:90-110): the sampler that was run, or `None` if a log was read. -/
def ranSampler {D : Type} (readLog : Option (Run D)) (fresh : Run D) : Option (Run D) :=
  match readLog with
  | some _ => none
  | none => some fresh

/-- The draws returned by `UltraNestSampler.run` (ultranest.py:103-114). -/
def ranDraws {D : Type} (readLog : Option (Run D)) (fresh : Run D) : List D :=
  match readLog with
  | some r => r.draws
  | none => fresh.draws

/-- `UltraNestSampler.print_results` (ultranest.py:116-121). -/
def printResults {D : Type} (sampler : Option (Run D)) : Except PyErr Unit :=
  match sampler with
  | some _ => .ok ()
  | none => .error .runtimeError

/-- `UltraNestSampler.ess` (ultranest.py:124-128). -/
def ultranestEss {D : Type} (sampler : Option (Run D)) : Nat :=
  match sampler with
  | some r => r.ess
  | none => 0

/-- `UltraNestSampler.lnZ` (ultranest.py:131-138). -/
def ultranestLnZ {D : Type} (sampler : Option (Run D)) : Option ℝ × Option ℝ :=
  match sampler with
  | some r => (some r.lnZ, some r.lnZError)
  | none => (none, none)

/-- `BayesFit.ultranest` (fit.py:1760-1803): `readLog` is the run found in the log directory if `read_file_config` is given, `fresh` what a new run would give. -/
def ultranest {D : Type} (names : List String) (printResult : Bool) (readLog : Option (Run D)) (fresh : Run D) : Except PyErr (Report D) := do
  let sampler := ranSampler readLog fresh
  if printResult then printResults sampler
  pure (generate (ranDraws readLog fresh) names (ultranestEss sampler) (ultranestLnZ sampler))

end Elisa.Infer.Evidence
