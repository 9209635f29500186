import Verif.Np
import Mathlib.Data.List.Dedup
import Mathlib.Data.List.Sort
import Mathlib.Data.Real.Basic

/-!
# Model of the parameter bookkeeping in `src/elisa/infer/helper.py`

Python `dict`s are association lists with distinct keys in insertion order; a Python `set` built from a
sequence is that sequence without repetitions (its iteration order is irrelevant below because every set
is sorted before it is returned).
-/

namespace Elisa.Infer

open Elisa

/-- `ParamSetup` (models/model.py): the role of a model parameter in a fit (model.py:2428-2444). -/
inductive Setup where
  | free | composite | forwarded | fixed | integrated
deriving DecidableEq, Repr

/-- What `check_params` reads from the helper (helper.py:48-61). -/
structure ParamTable where
  /-- `params_names['all']` -/
  all : List String
  /-- `params_names['interest']` -/
  interest : List String
  /-- `params_setup`: component parameter name to (name of the parameter it stands for, role) -/
  setup : List (String × String × Setup)

/-- The `params` argument (helper.py:45). -/
inductive ParamArg where
  | none
  | one (name : String)
  | many (names : List String)
  | other

/-- Keys of `params_setup` with a given role (helper.py:51-60). -/
def ParamTable.withRole (h : ParamTable) (r : Setup) : List String :=
  (h.setup.filter fun x => x.2.2 = r).map (·.1)

/-- `sorted(xs, key=ref.index)` (helper.py:97, 376, 378): `list.index` raises `ValueError` for a missing
name; Python's sort is stable, and so is this one. -/
def sortByIndex (ref : List String) (xs : List String) : Except PyErr (List String) :=
  if ∀ x ∈ xs, x ∈ ref then .ok (xs.insertionSort fun a b => ref.idxOf a ≤ ref.idxOf b)
  else .error .valueError

/-- `check_params` (helper.py:45-97). -/
def checkParams (h : ParamTable) (arg : ParamArg) : Except PyErr (List String) := do
  let known := h.all ++ h.setup.map (·.1)
  let params ← match arg with
    | .none => pure h.interest.dedup
    | .one p => if p ∈ known then pure [p] else throw PyErr.valueError
    | .many ps => if ∀ p ∈ ps.dedup, p ∈ known then pure ps.dedup else throw PyErr.valueError
    | .other => throw PyErr.valueError
  if ∃ p ∈ params, p ∈ h.withRole .forwarded then throw PyErr.runtimeError
  if ∃ p ∈ params, p ∈ h.withRole .fixed then throw PyErr.runtimeError
  if ∃ p ∈ params, p ∈ h.withRole .integrated then throw PyErr.runtimeError
  sortByIndex h.all params

/-- `d[k] = v` on an association list (Python dictionaries, helper.py:45-125). -/
def dictSet {V : Type} (d : List (String × V)) (k : String) (v : V) : List (String × V) :=
  if k ∈ d.map (·.1) then d.map fun x => if x.1 = k then (k, v) else x else d ++ [(k, v)]

/-- `dict(pairs)`: later pairs replace the value of earlier ones (Python dictionaries, helper.py:394-403). -/
def dictOf {V : Type} (pairs : List (String × V)) : List (String × V) :=
  pairs.foldl (fun d x => dictSet d x.1 x.2) []

/-- `d[k]` (Python dictionaries, helper.py:394-403). -/
def dictGet {V : Type} (d : List (String × V)) (k : String) : Except PyErr V :=
  match d.lookup k with
  | some v => .ok v
  | none => .error .keyError

/-- `free_names = sorted(params_prior.keys(), key=params_names.index)` (helper.py:376), where
`params_prior = {pid_to_pname[pid]: prior for pid, prior in ...}` (helper.py:298-300) has one entry per
sampled parameter, `sampled` being their names in order. -/
def freeNames (paramsNames : List String) (sampled : List String) : Except PyErr (List String) :=
  sortByIndex paramsNames (dictOf (sampled.map fun k => (k, ()))|>.map (·.1))

/-- `arr_to_dic` (helper.py:393-397) -/
def arrToDic {V : Type} (free : List String) (arr : List V) : Except PyErr (List (String × V)) :=
  if arr.length = free.length then .ok (dictOf (free.zip arr)) else .error .assertionError

/-- `dic_to_arr` (helper.py:399-402) -/
def dicToArr {V : Type} (free : List String) (dic : List (String × V)) : Except PyErr (List V) :=
  free.mapM (dictGet dic)

end Elisa.Infer
