import Verif.Np
import Mathlib.Tactic

/-!
# Model of what sampling does to process-wide settings

`src/elisa/infer/samplers/ns/ultranest.py:91-103` (NumPy's global random state), `src/elisa/infer/samplers/ns/nautilus.py:51-80` (start method of processes and the patched
`Pool` class), `src/elisa/infer/samplers/ensemble/base.py:195-246` (start method), `src/elisa/util/config.py:108-128` (the flag `jax_pmap_shmap_merge`, used by
`MLEResult.boot`, results.py:445, and `PosteriorResult.ppc`, results.py:2083).

A call of foreign code (nautilus, ultranest, zeus, emcee, JAX) is an arbitrary function of the process-wide settings that may raise and may change them.
-/

namespace Elisa.Infer.Process

/-- The class found as `nautilus.pool.Pool` (nautilus.py:59-60, 79-80). -/
inductive PoolClass
  | original
  | multiprocess
  deriving DecidableEq

/-- Process-wide settings: NumPy's global random state (`R`), the start method of `multiprocess`, the class `nautilus.pool.Pool` and `jax_pmap_shmap_merge` (emcee.py:36-98, zeus.py:41-101, nautilus.py:82-101, jaxns.py:98-218). -/
structure Proc (R : Type) where
  random : R
  start : String
  pool : PoolClass
  merge : Bool

/-- Foreign code: whether it raises, and the settings it leaves (emcee.py:36-98, zeus.py:41-101, nautilus.py:82-101, ultranest.py:57-114). -/
abbrev Ext (R : Type) := Proc R → Bool × Proc R

/-- `with jax_pmap_shmap_merge(flag): body` (config.py:108-128): the flag is set back in `finally`. -/
def withMerge {R : Type} (flag : Bool) (body : Ext R) : Ext R := fun g =>
  let r := body { g with merge := flag }
  (r.1, { r.2 with merge := g.merge })

/-- Switching to `spawn` (nautilus.py:53-57, base.py:195-199): the method to be restored (`''` for none) and the new settings. -/
def toSpawn {R : Type} (g : Proc R) : String × Proc R := if g.start ≠ "spawn" then (g.start, { g with start := "spawn" }) else ("", g)

/-- `if old_method: mp.set_start_method(old_method, force=True)` (nautilus.py:76-77, base.py:244-245). -/
def fromSpawn {R : Type} (old : String) (g : Proc R) : Proc R := if old ≠ "" then { g with start := old } else g

/-- `EnsembleSampler.run` (base.py:195-246): `sampling` is everything between the switches of the start method (the workers and the listener). -/
def ensembleRun {R : Type} (sampling : Ext R) : Ext R := fun g =>
  let s := toSpawn g
  let r := sampling s.2
  if r.1 then r else (false, fromSpawn s.1 r.2)

/-- `NautilusSampler.__init__` (nautilus.py:51-80); `hasPool` is `'pool' in kwargs`, `construct` is the constructor of `nautilus.Sampler`. -/
def nautilusInit {R : Type} (hasPool : Bool) (construct : Ext R) : Ext R := fun g =>
  if hasPool then
    let s := toSpawn g
    let r := construct { s.2 with pool := .multiprocess }
    if r.1 then r else (false, { fromSpawn s.1 r.2 with pool := s.2.pool })
  else construct g

/-- `UltraNestSampler.run` without `read_file_config` (ultranest.py:91-102): `seeded` is the state after `np.random.seed(self._seed)`, `make` the constructor of the sampler and
`sample` its `run`. -/
def ultranestRun {R : Type} (seeded : R) (make sample : Ext R) : Ext R := fun g =>
  let m := make { g with random := seeded }
  if m.1 then m else
  let r := sample m.2
  if r.1 then r else (false, { r.2 with random := g.random })

/-- What a user may do, as far as process-wide settings are concerned: `emcee` and `zeus`; `nautilus`; `ultranest`; `boot` and `ppc`, which evaluate in parallel (fit.py:1310, 1416, 1525, 1640, 1712). -/
inductive Op (R : Type)
  | ensemble (sampling : Ext R)
  | nautilus (hasPool : Bool) (construct : Ext R)
  | ultranest (seeded : R) (make sample : Ext R)
  | parallel (flag : Bool) (body : Ext R)

/-- One operation: whether it raises, and the settings afterwards (fit.py:1310-1803). -/
def Op.run {R : Type} : Op R → Ext R
  | .ensemble f => ensembleRun f
  | .nautilus p f => nautilusInit p f
  | .ultranest s m f => ultranestRun s m f
  | .parallel b f => withMerge b f

/-- A history of operations; exceptions are caught by the user (or by the interactive shell), who goes on.  Each operation is listed with whether it raised (a sequence of calls of fit.py:1310-1803). -/
def history {R : Type} : List (Op R) → Proc R → List (Op R × Bool) × Proc R
  | [], g => ([], g)
  | op :: ops, g =>
    let r := op.run g
    let h := history ops r.2
    ((op, r.1) :: h.1, h.2)

end Elisa.Infer.Process
