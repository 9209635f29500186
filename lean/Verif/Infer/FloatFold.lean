import Verif.Infer.Likelihood

/-!
# Folding a model with a response in floating point

The entries of `resp_matrix @ unfold` are sums of products.  A dense matrix (`jnp.array`) multiplies all entries, a sparse one (`BCSR`) only the stored ones; the
order of the additions, padding with zeros and whether a product is rounded before it is added (it is not in a fused multiply-add) are up to the library and the
processor.  `Prog` is one such way of computing an entry.
-/

namespace Elisa.Infer.Fl

open Elisa Elisa.Infer

/-- A way of computing one entry of `resp_matrix @ unfold` (likelihood.py:204-205, 249-250, 298-299, 347-348, 412-413): products, fused or rounded, added up in
some order. -/
inductive Prog where
  | zero
  | prod (fused : Bool) (m x : ℝ)
  | add (l r : Prog)

/-- The products added up (likelihood.py:177-181: all entries of a column, or the stored ones). -/
def Prog.terms : Prog → List (ℝ × ℝ)
  | .zero => []
  | .prod _ m x => [(m, x)]
  | .add l r => l.terms ++ r.terms

/-- Number of operands (likelihood.py:205). -/
def Prog.size : Prog → ℕ
  | .zero => 1
  | .prod _ _ _ => 1
  | .add l r => l.size + r.size

/-- The value computed (likelihood.py:205); `rnd` rounds a result to float64. -/
def Prog.value (rnd : ℝ → ℝ) : Prog → ℝ
  | .zero => 0
  | .prod fused m x => if fused then m * x else rnd (m * x)
  | .add l r => rnd (l.value rnd + r.value rnd)

/-- `jnp.clip(resp_matrix @ unfold * area_scale * exposure, min=1e-30, max=1e15)` (likelihood.py:204-208, 249-253, 347-353, 412-418) for one channel, every result rounded
(the constant `1e-30` too; `1e15` is a float64 number). -/
noncomputable def counts (rnd : ℝ → ℝ) (p : Prog) (area exposure : ℝ) : ℝ :=
  min (max (rnd (rnd (p.value rnd * area) * exposure)) (rnd 1e-30)) 1e15

end Elisa.Infer.Fl
