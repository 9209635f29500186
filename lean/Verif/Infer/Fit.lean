import Verif.Infer.Likelihood
import Mathlib.Data.List.Dedup

/-!
# Model of the input handling of `src/elisa/infer/fit.py` and of parts of `helper.py`, `results.py`
-/

namespace Elisa.Infer

open Elisa

/-- `get_stat` (fit.py:312-323): the default statistic of a dataset. -/
def defaultStat (d : FitData) : Stat :=
  if d.specPoisson then
    (if d.back.isSome then (if d.backPoisson then .wstat else .pgstat) else .cstat)
  else .chi2

/-- `np.any(xs == 0.0)` (fit.py:400-465). -/
noncomputable def anyZero (xs : List ℝ) : Bool := xs.any fun x => decide (x = 0)

/-- `check_stat` (fit.py:325-388). -/
noncomputable def checkStat (d : FitData) (s : Stat) : Except PyErr Unit :=
  if !d.specPoisson && s ≠ .chi2 then .error .valueError
  else match s with
    | .chi2 => if anyZero d.netErrors then .error .valueError else .ok ()
    | .cstat => if d.back.isSome then .error .valueError else .ok ()
    | .pstat => if d.back.isNone then .error .valueError else .ok ()
    | .pgstat =>
      match d.back with
      | none => .error .valueError
      | some b => if anyZero b.errors then .error .valueError else .ok ()
    | .wstat =>
      if !(d.back.isSome && d.backPoisson) then
        (if d.back.isNone then .error .valueError
         else if !d.backPoisson then .error .valueError else .ok ())
      else .ok ()

/-- An argument given as one object or as a sequence (fit.py:296-310 `get_list`; type errors of the
elements are not modelled). -/
inductive OneOrMany (α : Type) where
  | one (x : α)
  | many (xs : List α)

/-- `get_list` (fit.py:296-310). -/
def OneOrMany.toList {α : Type} : OneOrMany α → Except PyErr (List α)
  | .one x => .ok [x]
  | .many [] => .error .valueError
  | .many (x :: xs) => .ok (x :: xs)

/-- `_STATISTIC_OPTIONS` (likelihood.py:33-35): reading the name of a statistic. -/
def readStat (s : String) : Option Stat :=
  if s = "chi2" then some .chi2
  else if s = "cstat" then some .cstat
  else if s = "pstat" then some .pstat
  else if s = "pgstat" then some .pgstat
  else if s = "wstat" then some .wstat
  else none

/-- fit.py:446-453, 455-460: `list *= nd` when it has one entry, otherwise the lengths must agree. -/
def broadcast {α : Type} (nd : Nat) (xs : List α) : Except PyErr (List α) :=
  if xs.length = 1 then .ok (List.replicate nd xs).flatten
  else if xs.length ≠ nd then .error .valueError
  else .ok xs

/-- fit.py:428-444: the requested statistics, or the default ones. -/
def statList (data : List (String × FitData)) : Option (OneOrMany String) → Except PyErr (List Stat)
  | none => .ok (data.map fun d => defaultStat d.2)
  | some s => do
    let l ← s.toList
    match l.mapM readStat with
    | none => .error .valueError
    | some l => .ok l

/-- `if cond: raise err` (fit.py:300-465). -/
def raiseIf (c : Bool) (e : PyErr) : Except PyErr Unit := if c then .error e else .ok ()

/-- `_parse_input` (fit.py:288-468).  A dataset is a name with its arrays, a model is any object with a
flag telling whether its type is `'add'`.  The test for datasets used twice (fit.py:398-406) compares
`len(list(map(id, data)))` with `len(data)`, which are always equal: it never fires and is left out. -/
noncomputable def parseInput {M : Type} (isAdd : M → Bool) (data : OneOrMany (String × FitData))
    (model : OneOrMany M) (stat : Option (OneOrMany String)) :
    Except PyErr (List (String × FitData) × List M × List Stat) := do
  let dataList ← data.toList
  raiseIf (decide ((dataList.map (·.1)).dedup.length ≠ dataList.length)) .valueError
  let modelList ← model.toList
  raiseIf (!(modelList.all isAdd)) .typeError
  let stats ← statList dataList stat
  let models ← broadcast dataList.length modelList
  let stats ← broadcast dataList.length stats
  let _ ← (dataList.zip stats).mapM fun x => checkStat x.1.2 x.2
  .ok (dataList, models, stats)

/-! ## numbers derived from the fit -/

/-- `ndata['total']` (helper.py:136-137). -/
def ndataTotal (data : List FitData) : Nat := (data.map FitData.size).sum

/-- `dof = ndata['total'] - nparam` (helper.py:144-147), a Python integer. -/
def dof (data : List FitData) (nparam : Nat) : Int := (ndataTotal data : Int) - nparam

/-- `self._aic = stat + k * 2 * (1 + (k + 1) / (n - k - 1))` (results.py:328-331): integer division by
zero raises. -/
noncomputable def aic (stat : ℝ) (k n : Nat) : Except PyErr ℝ :=
  if (n : Int) - k - 1 = 0 then .error .zeroDivisionError
  else .ok (stat + k * 2 * (1 + ((k : ℝ) + 1) / ((n : ℝ) - k - 1)))

/-- `self._bic = stat + k * np.log(n)` (results.py:332). -/
noncomputable def bic (stat : ℝ) (k n : Nat) : ℝ := stat + k * Real.log n

end Elisa.Infer
