import Verif.Infer.Level

/-!
# Model of the bands of the plots (`src/elisa/plot/data.py`) and of the residual panel (`src/elisa/plot/plotter.py:935-1056`)

Arrays of simulations have shape `(simulations, channels)` and every operation is along the first axis: they are given by their columns, the
list of simulated values of each channel.  Reals replace float64, no value is NaN.
-/

namespace Elisa.Plot

open Elisa Elisa.Infer

/-- `np.quantile(x, q=0.5 + cl * np.array([-0.5, 0.5]), axis=0)` for one channel (data.py:347-352, 385-391, 524, 710-715, 743-750, 862). -/
noncomputable def band (xs : List ℝ) (cl : ℝ) : Except PyErr (ℝ × ℝ) := do
  let lo ← quantile xs (0.5 + cl * (-0.5))
  let hi ← quantile xs (0.5 + cl * 0.5)
  return (lo, hi)

/-- `q = np.quantile(np.abs(r), q=cl, axis=0)`, `np.row_stack([-q, q])` for one channel (data.py:526-527, 864-865). -/
noncomputable def absBand (xs : List ℝ) (cl : ℝ) : Except PyErr (ℝ × ℝ) := do
  let q ← quantile (xs.map fun x => |x|) cl
  return (-q, q)

/-- `MLEPlotData.ce_model_ci` (data.py:342-353), `PosteriorPlotData.ce_model_ci` (data.py:707-715) with `sims` always present. -/
noncomputable def ceModelCi (sims : Option (List (List ℝ))) (cl : ℝ) : Except PyErr (Option (List (ℝ × ℝ))) :=
  match sims with
  | none => .ok none
  | some cols => if 0 < cl ∧ cl < 1 then some <$> cols.mapM (fun xs => band xs cl) else .error .assertionError

/-- `residuals_ci` of both classes (data.py:507-527, 845-865): `sims` are the residuals of the simulations, absent without simulations and
for quantile residuals. -/
noncomputable def residualsCi (sims : Option (List (List ℝ))) (cl : ℝ) (withSign : Bool) : Except PyErr (Option (List (ℝ × ℝ))) :=
  match sims with
  | none => .ok none
  | some cols =>
    if 0 < cl ∧ cl < 1 then some <$> cols.mapM (fun xs => if withSign then band xs cl else absBand xs cl)
    else .error .assertionError

/-- The setter of `PlotConfig.cl` (plotter.py:348-351). -/
noncomputable def setCl (cl : List ℝ) : Except PyErr (List ℝ) :=
  if (cl.insertionSort (· ≤ ·)).all (fun c => decide (0 < c ∧ c < 1)) then .ok (cl.insertionSort (· ≤ ·)) else .error .valueError

/-- One data set in the residual panel: the bands filled (of simulations, or else `±q` for every `q` of `normal_q`), whether the residuals shown
are those of the best fit, and the marks (plotter.py:935-1050). -/
structure Panel where
  bands : List (List (ℝ × ℝ))
  normal : List ℝ
  useMle : Bool
  r : List ℝ
  marked : List Bool

/-- `mask = (r < q[0]) | (r > q[1])` (plotter.py:1049) -/
noncomputable def outside (r : ℝ) (q : ℝ × ℝ) : Bool := decide (r < q.1 ∨ q.2 < r)

/-- plotter.py:1044-1049: the marks, from the last of the bands or else from the last normal quantile. -/
noncomputable def outlierMarks (bands : List (List (ℝ × ℝ))) (normalQ r : List ℝ) : Except PyErr (List Bool) :=
  if bands ≠ [] then
    match bands.getLast? with
    | some q => .ok (List.zipWith outside r q)
    | none => .error .indexError
  else
    match normalQ.getLast? with
    | some q => .ok (r.map fun x => outside x (-q, q))
    | none => .error .indexError

/-- One data set of `plot_residuals` (plotter.py:983-1050); `normal_q = isf(0.5 * (1 - cl))` (plotter.py:979); `r mle` are the residuals
`data.residuals(rtype, ..., use_mle)`. -/
noncomputable def residualPanel (isf : ℝ → ℝ) (cl : List ℝ) (withSign mark : Bool) (sims : Option (List (List ℝ))) (r : Bool → List ℝ) :
    Except PyErr Panel := do
  let qs ← cl.mapM fun c => residualsCi sims c withSign
  let bands := qs.filterMap id
  let normalQ := cl.map fun c => isf (0.5 * (1 - c))
  let useMle := decide (bands ≠ [])
  let marked ← if mark then outlierMarks bands normalQ (r useMle) else .ok []
  return ⟨bands, if bands ≠ [] then [] else normalQ, useMle, r useMle, marked⟩

/-- A dict of parameters by name (plot/data.py:227-260). -/
abbrev Params := List (String × ℝ)

/-- `a | b` of two dicts of parameters, as a function of names: `b` wins (plot/data.py:355-392). -/
def override (a b : Params) : Params := b ++ a

/-- `MLEPlotData.unfolded_model` (data.py:355-391) without components, at one energy: the curve and, for every level, the band; `model` is the model at that energy.
`boot` is `params_dist`: one dict for every simulation. -/
noncomputable def mleUnfolded (model : Params → ℝ) (mle : Params) (boot : Option (List Params)) (params : Params) (cl : Option (List ℝ)) :
    Except PyErr (ℝ × Option (List (ℝ × ℝ))) :=
  match cl, boot with
  | none, _ => .ok (model (override mle params), none)
  | some cls, none => if cls.all (fun c => decide (0 < c ∧ c < 1)) then .ok (model (override mle params), none) else .error .assertionError
  | some cls, some sims =>
    if cls.all (fun c => decide (0 < c ∧ c < 1)) then do
      let b ← cls.mapM fun c => band (sims.map fun p => model (override p params)) c
      return (model (override mle params), some b)
    else .error .assertionError

/-- `PosteriorPlotData.unfolded_model` (data.py:717-751) at one energy.  Without components and without a level, `cl[:, None]` raises
`TypeError` (data.py:748). -/
noncomputable def postUnfolded (model : Params → ℝ) (post : List Params) (params : Params) (comps : Bool) (cl : Option (List ℝ)) :
    Except PyErr (ℝ × Option (List (ℝ × ℝ))) :=
  match cl with
  | none => do
    let m ← quantile (post.map fun p => model (override p params)) 0.5
    if comps then return (m, none) else .error .typeError
  | some cls =>
    if cls.all (fun c => decide (0 < c ∧ c < 1)) then do
      let m ← quantile (post.map fun p => model (override p params)) 0.5
      let b ← cls.mapM fun c => band (post.map fun p => model (override p params)) c
      return (m, some b)
    else .error .assertionError

end Elisa.Plot
