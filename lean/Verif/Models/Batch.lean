import Verif.Models.Info
import Verif.Models.Spectra

/-!
# Evaluating a compiled model on arrays of parameters, and folding it

Model of `CompiledModel._prepare_eval` and `CompiledModel.eval` for arrays (`/repo/src/elisa/models/model.py:363-439`) and of
`CompiledModel.ce` (`model.py:565-611`).

An array is a shape and a function of indices (those within the shape matter).  `R` is what the model function returns for one set of scalar
parameters: one value per energy bin.  `jax.vmap` follows its documentation: it maps over the leading axis of every leaf of the dictionary and
stacks the results.
-/

namespace Elisa.Models.Info

open Elisa Elisa.Models.Label Elisa.Models.Track

/-- An array (model.py:363-413). -/
structure Arr (K : Type) where
  shape : List ℕ
  get : List ℕ → K

/-- `jnp.atleast_1d` (model.py:363-413). -/
def Arr.atleast1d {K : Type} (a : Arr K) : Arr K :=
  match a.shape with
  | [] => ⟨[1], fun _ => a.get []⟩
  | n :: s => ⟨n :: s, a.get⟩

/-- Element `j` of `jnp.moveaxis(a, -1, 0)` (model.py:363-413). -/
def Arr.column {K : Type} (a : Arr K) (j : ℕ) : Arr K := ⟨a.shape.dropLast, fun idx => a.get (idx ++ [j])⟩

/-- `a[i]` (model.py:363-413). -/
def Arr.slice {K : Type} (i : ℕ) (a : Arr K) : Arr K := ⟨a.shape.tail, fun idx => a.get (i :: idx)⟩

/-- A dictionary from parameter ids to arrays, in order of insertion (model.py:363-413). -/
abbrev Dict (K : Type) := List (Pid × Arr K)

/-- The value of a key; the last one inserted (model.py:363-413). -/
def Dict.get {K : Type} (d : Dict K) (p : Pid) : Option (Arr K) := (d.reverse.find? fun q => q.1 == p).map Prod.snd

/-- `jax.tree.map(lambda a: a[i], d)` (model.py:363-413). -/
def Dict.slice {K : Type} (i : ℕ) (d : Dict K) : Dict K := d.map fun q => (q.1, q.2.slice i)

/-- `jax.vmap(f, in_axes=(None, 0))`: the leading axis is that of the leaves (all alike) (model.py:363-436). -/
def vmap {K R : Type} (f : Dict K → Arr R) (d : Dict K) : Arr R :=
  ⟨((d.map fun q => q.2.shape).headD []).headD 0 :: (f (d.slice 0)).shape, fun idx => (f (d.slice (idx.headD 0))).get idx.tail⟩

/-- `for _ in range(n): fn = jax.vmap(fn)` (model.py:406-407). -/
def nestedVmap {K R : Type} (f : Dict K → Arr R) : ℕ → Dict K → Arr R
  | 0 => f
  | n + 1 => vmap (nestedVmap f n)

/-- `_prepare_eval` of an array or a sequence (model.py:365-374); `_nparam` is the number of names (344). -/
def Compiled.fromArray {K : Type} (c : Compiled K) (a : Arr K) : Except PyErr (Dict K) :=
  if a.atleast1d.shape.getLast? ≠ some c.paramsName.length then .error .valueError
  else if c.paramsId.length ≠ c.paramsName.length then .error .valueError
  else .ok (c.paramsId.zip ((List.range c.paramsName.length).map fun j : ℕ => a.atleast1d.column j))

/-- The keys of `pname_pid_all` (model.py:332-333). -/
def Compiled.knownNames {K : Type} (c : Compiled K) : List String :=
  c.paramsName ++ ((c.fixedId.map c.name).reverse.dedup.reverse).filter fun nm => nm ∉ c.paramsName

/-- `_prepare_eval` of a mapping (model.py:376-382, 337-340). -/
def Compiled.fromMapping {K : Type} (c : Compiled K) (m : List (String × Arr K)) : Dict K :=
  c.knownNames.filterMap fun nm => do
    let p ← c.lookup nm
    let v ← m.lookup nm
    pure (p, v)

/-- `_params_default` (model.py:325, 384-385): scalars. -/
def Compiled.fromDefault {K : Type} (c : Compiled K) : Dict K :=
  c.paramsId.dedup.filterMap fun p => (c.default p).map fun v => (p, ⟨[], fun _ => v⟩)

/-- What can be given as `params` (model.py:363-413). -/
inductive Given (K : Type) where
  | array (a : Arr K)
  | mapping (m : List (String × Arr K))
  | nothing
  | other

/-- The branches of `_prepare_eval` (model.py:365-388). -/
def Compiled.prepare {K : Type} (c : Compiled K) : Given K → Except PyErr (Dict K)
  | .array a => c.fromArray a
  | .mapping m => .ok (c.fromMapping m)
  | .nothing => .ok c.fromDefault
  | .other => .error .typeError

/-- The shape check and the choice of the mapped function (model.py:390-413), applied to the parameters (437). -/
def Compiled.applyBatch {K R : Type} (c : Compiled K) (f : Dict K → Arr R) (d : Dict K) : Except PyErr (Arr R) :=
  if c.paramsName = [] then .ok (f d)
  else
    match d.map fun q => q.2.shape with
    | [] => .error .valueError
    | s :: ss => if ss.any (fun t => t != s) then .error .valueError else .ok (nestedVmap f s.length d)

/-- `CompiledModel.eval` (model.py:415-436), with `f` the compiled model function. -/
def Compiled.evalBatch {K R : Type} (c : Compiled K) (f : Dict K → Arr R) (g : Given K) : Except PyErr (Arr R) :=
  match c.prepare g with
  | .error e => .error e
  | .ok d => c.applyBatch f d

/-! ## Folding -/

open Elisa.Models.Spectra

/-- `v @ m` for a vector and a matrix given by rows (`ncol` columns) (model.py:565-611). -/
noncomputable def vecMat (v : List ℝ) (m : List (List ℝ)) (ncol : ℕ) : List ℝ :=
  (List.range ncol).map fun j : ℕ => (List.zipWith (fun x (row : List ℝ) => x * row.getD j 0) v m).sum

/-- The body of `fn` in `CompiledModel.ce` (model.py:604-606). -/
noncomputable def foldNE (egrid : List ℝ) (resp : List (List ℝ)) (width ne : List ℝ) : List ℝ :=
  List.zipWith (fun x w => x / w) (vecMat (List.zipWith (fun v d => v * d) ne (diff egrid)) resp width.length) width

/-- What a compiled model has: its type, its function and its additive sub-models, if any (model.py:306-347). -/
structure Folding where
  add : Bool
  fn : ModelFn
  subs : Option (List (String × ModelFn))

/-- The value of `ce`: one spectrum, or one per sub-model (model.py:565-611). -/
inductive Folded where
  | total (c : List ℝ)
  | comps (cs : List (String × List ℝ))

/-- `CompiledModel.ce` (model.py:592-611). -/
noncomputable def Folding.ce (m : Folding) (egrid : List ℝ) (resp : List (List ℝ)) (width : List ℝ) (comps : Bool) : Except PyErr Folded :=
  if !m.add then .error .typeError
  else if comps then
    match m.subs with
    | none => .error .runtimeError
    | some subs => .ok (.comps (subs.map fun q => (q.1, foldNE egrid resp width (ne q.2 egrid))))
  else .ok (.total (foldNE egrid resp width (ne m.fn egrid)))

end Elisa.Models.Info
