import Verif.Plot.Bands
import Verif.Infer.Credible
import Verif.Infer.Batch
import Mathlib.Analysis.SpecialFunctions.Trigonometric.Basic

/-!
# Model of the Q-Q plot, the PIT-ECDF plot and the goodness-of-fit plot (`src/elisa/plot/plotter.py:115-190, 1058-1318`)

The quantile functions of scipy (`norm.ppf`, `beta.ppf`) are parameters.  Arrays are lists; simulated residuals have one row for every simulation.
-/

namespace Elisa.Plot

open Elisa Elisa.Infer

/-- `(np.arange(1, n + 1) - alpha) / (n - 2 * alpha + 1)` with `alpha = np.pi / 8`, entry `i` (counted from 0) (plotter.py:129-131). -/
noncomputable def plotPos (n i : ℕ) : ℝ := (((i : ℝ) + 1) - Real.pi / 8) / ((n : ℝ) - 2 * (Real.pi / 8) + 1)

/-- What `_get_qq` returns (plotter.py:115-154). -/
structure QQ where
  theor : List ℝ
  q : List ℝ
  line : List ℝ
  lower : List ℝ
  upper : List ℝ

/-- Column `k` of `np.sort(qsim, axis=1)` (plotter.py:136): the `k`-th smallest residual of every simulation. -/
noncomputable def orderStat (qsim : List (List ℝ)) (k : ℕ) : List ℝ := qsim.map fun row => (sorted row).getD k 0

/-- plotter.py:134-139: median and interval of column `k`. -/
noncomputable def simQuantiles (qsim : List (List ℝ)) (cl : ℝ) (k : ℕ) : Except PyErr (ℝ × ℝ × ℝ) := do
  let m ← quantile (orderStat qsim k) 0.5
  let lo ← quantile (orderStat qsim k) (0.5 - 0.5 * cl)
  let hi ← quantile (orderStat qsim k) (0.5 + 0.5 * cl)
  return (m, lo, hi)

/-- plotter.py:130-146: the plot before `detrend`.  `ppf` is `norm.ppf`, `beta p a b` is `beta.ppf(p, a, b)`. -/
noncomputable def qqPlain (ppf : ℝ → ℝ) (beta : ℝ → ℕ → ℕ → ℝ) (q : List ℝ) (cl : ℝ) (qsim : Option (List (List ℝ))) : Except PyErr QQ :=
  let n := q.length
  let theor := (List.range n).map fun i => ppf (plotPos n i)
  match qsim with
  | some sims => do
    let rows ← (List.range n).mapM fun k => simQuantiles sims cl k
    return ⟨theor, sorted q, rows.map (·.1), rows.map (·.2.1), rows.map (·.2.2)⟩
  | none =>
    .ok ⟨theor, sorted q, theor, (List.range n).map fun (i : ℕ) => ppf (beta (0.5 - cl * 0.5) (i + 1) (n + 1 - (i + 1))),
      (List.range n).map fun (i : ℕ) => ppf (beta (0.5 + cl * 0.5) (i + 1) (n + 1 - (i + 1)))⟩

/-- `x -= theor` (plotter.py:115-154). -/
noncomputable def minus (x theor : List ℝ) : List ℝ := List.zipWith (· - ·) x theor

/-- `if detrend` (plotter.py:148-152); `np.sort`, `np.array(theor)`, `np.quantile` and `norm.ppf` return new arrays, so nothing else changes. -/
noncomputable def QQ.detrend (r : QQ) : QQ := ⟨r.theor, minus r.q r.theor, minus r.line r.theor, minus r.lower r.theor, minus r.upper r.theor⟩

/-- `_get_qq` (plotter.py:115-154). -/
noncomputable def getQQ (ppf : ℝ → ℝ) (beta : ℝ → ℕ → ℕ → ℝ) (q : List ℝ) (detrend : Bool) (cl : ℝ) (qsim : Option (List (List ℝ))) : Except PyErr QQ := do
  let r ← qqPlain ppf beta q cl qsim
  return if detrend then r.detrend else r

/-- `np.linspace(0.0, 1.0, n + 1)` (plotter.py:171), exact. -/
noncomputable def scaledRank (n : ℕ) : List ℝ := (List.range (n + 1)).map fun (i : ℕ) => (i : ℝ) / n

/-- `np.count_nonzero(pit <= scaled_rank[:, None], axis=1) / n` at one rank (plotter.py:172). -/
noncomputable def ecdf (pit : List ℝ) (x : ℝ) : ℝ := ((pit.countP fun p => decide (p ≤ x) : ℕ) : ℝ) / pit.length

/-- Probability of at most `k` successes in `n` trials of probability `p`: `binom.cdf(k, n, p)` (scipy, plotter.py:157-232). -/
noncomputable def binomCdf (n : ℕ) (p : ℝ) (k : ℕ) : ℝ := ∑ j ∈ Finset.range (k + 1), (n.choose j : ℝ) * p ^ j * (1 - p) ^ (n - j)

/-- `binom.ppf(q, n, p)`: the smallest `k` with `cdf(k) >= q` (at most `n`) (scipy, plotter.py:157-232). -/
noncomputable def binomPpf (n : ℕ) (p q : ℝ) : ℕ := sInf {k | q ≤ binomCdf n p k ∨ n ≤ k}

/-- `stats.binom.interval(cl, n, p)` (plotter.py:173): `ppf((1 - cl) / 2)` and `ppf((1 + cl) / 2)`. -/
noncomputable def binomInterval (cl : ℝ) (n : ℕ) (p : ℝ) : ℕ × ℕ := (binomPpf n p ((1 - cl) / 2), binomPpf n p ((1 + cl) / 2))

/-- One point of what `_get_pit_ecdf` returns (plotter.py:157-185): rank, ecdf, line, lower and upper end. -/
structure PitPoint where
  x : ℝ
  y : ℝ
  line : ℝ
  lower : ℝ
  upper : ℝ

/-- plotter.py:171-184 at the rank `x` -/
noncomputable def pitPoint (pit : List ℝ) (cl : ℝ) (detrend : Bool) (x : ℝ) : PitPoint :=
  let n := pit.length
  let lo : ℝ := (binomInterval cl n x).1 / (n : ℝ)
  let up : ℝ := (binomInterval cl n x).2 / (n : ℝ)
  if detrend then ⟨x, ecdf pit x - x, 0, lo - x, up - x⟩ else ⟨x, ecdf pit x, x, lo, up⟩

/-- `_get_pit_ecdf` (plotter.py:157-185). -/
noncomputable def pitEcdf (pit : List ℝ) (cl : ℝ) (detrend : Bool) : List PitPoint := (scaledRank pit.length).map (pitPoint pit cl detrend)

/-- `d_sim = np.sort(dev_sim[name])`, `sf = 1.0 - np.arange(1.0, n + 1.0) / n` (plotter.py:1296-1297): the points of the curve labelled
`P(D >= d)`. -/
noncomputable def gofCurve (sim : List ℝ) : List (ℝ × ℝ) := (sorted sim).zip ((List.range sim.length).map fun (i : ℕ) => 1 - ((i : ℝ) + 1) / sim.length)

/-- What is written next to the curve (plotter.py:1301-1305). -/
inductive PText where
  | equals (p : ℝ)
  | below (n : ℕ)

/-- plotter.py:1300-1305 -/
noncomputable def gofText (p : ℝ) (n : ℕ) : PText := if 0 < p then .equals p else .below n

/-- `r['total'] = np.hstack(list(r.values()))` (plotter.py:1107; rsim and pit likewise, 1096, 1177): a dict, where a data set called
`total` is overwritten. -/
def withTotal (r : List (String × List ℝ)) : List (String × List ℝ) :=
  if r.any (fun kv => kv.1 == "total") then r.map (fun kv => if kv.1 == "total" then (kv.1, r.flatMap (·.2)) else kv) else r ++ [("total", r.flatMap (·.2))]

end Elisa.Plot
