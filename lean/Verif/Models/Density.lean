import Verif.Models.Batch

/-!
# Model of the differential spectra of a compiled model

`CompiledModel.ne`, `ene`, `eene` and `flux` (model.py:439-562, 613-680) with the checks made before the spectra are computed.
Simplification: exact real numbers; parameters are already bound (C90 treats them).
-/

namespace Elisa.Models.Density

open Elisa Elisa.Models.Spectra Elisa.Models.Info

/-- A spectrum, or one per additive sub-model (model.py:438-483). -/
inductive Out (R : Type) where
  | total (r : R)
  | comps (rs : List (String × R))

/-- The checks at the start of `ne`, `ene`, `eene` and `flux`, and `jax.tree.map` over the sub-models (model.py:460-464, 478-483; 498-502, 515-518; 541-545, 558-561;
656-658, 673-676).  `f` is what is computed from a model function. -/
def checked {R : Type} (m : Folding) (comps : Bool) (f : ModelFn → R) : Except PyErr (Out R) :=
  if !m.add then .error .typeError
  else if comps then
    match m.subs with
    | none => .error .runtimeError
    | some subs => .ok (.comps (subs.map fun q => (q.1, f q.2)))
  else .ok (.total (f m.fn))

/-- `CompiledModel.ne` (model.py:438-477). -/
noncomputable def neOf (m : Folding) (egrid : List ℝ) (comps : Bool) : Except PyErr (Out (List ℝ)) := checked m comps fun f => ne f egrid

/-- `CompiledModel.ene` (model.py:485-520). -/
noncomputable def eneOf (m : Folding) (egrid : List ℝ) (comps : Bool) : Except PyErr (Out (List ℝ)) := checked m comps fun f => ene f egrid

/-- `CompiledModel.eene` (model.py:522-563). -/
noncomputable def eeneOf (m : Folding) (egrid : List ℝ) (comps : Bool) : Except PyErr (Out (List ℝ)) := checked m comps fun f => eene f egrid

/-- `CompiledModel.flux` (model.py:613-676). -/
noncomputable def fluxOf (m : Folding) (emin emax : ℝ) (energy comps : Bool) (n : ℕ) (lg : Bool) : Except PyErr (Out ℝ) :=
  checked m comps fun f => flux f emin emax energy n lg

end Elisa.Models.Density
