import Verif.Infer.IData
import Verif.Infer.Fit

/-!
# Model of the tables shown for a fit and for its result

`MLEResult.__init__` (values of the tables), `MLEResult.mle`, `MLEResult.deviance`, `MLEResult._tabs`
(`/repo/src/elisa/infer/results.py:299-337, 367-394, 1307-1316, 2815-2818`), `Fit._make_info_table`
(`/repo/src/elisa/infer/fit.py:269-285, 472, 568`) and `ndata`, `dof` of the helper (`/repo/src/elisa/infer/helper.py:142-153`).
The layout of the tables (PrettyTable) is not modelled: a table is its list of rows.
-/

namespace Elisa.Infer.Tables

open Elisa Elisa.Infer

/-- Formatting of numbers: `cents x` is the number shown by `f'{x:.2f}'`, in hundredths; `short x` is the number shown by
`f'{x:.4g}'` (results.py:367-394). -/
structure Fmt where
  cents : ℝ → ℤ
  short : ℝ → ℝ

/-- What is known about a data set of a fit: its name, its statistic and the number of its channels (helper.py:128-165). -/
structure DataSet where
  name : String
  stat : Stat
  channels : Nat

/-- `ndata` (helper.py:142-143): the sum is taken before the key `total` is set. -/
def ndata (ds : List DataSet) : List (String × Nat) :=
  let d := dictOf (ds.map fun x => (x.name, x.channels))
  dictSet d "total" ((d.map (·.2)).sum)

/-- `self._deviance['group'] | {'total': ...}` read for all data sets and `total`, results.py:1312-1316. -/
def devianceDict (names : List String) (group : List (String × ℝ)) (total : ℝ) : Except PyErr (List (String × ℝ)) :=
  (names ++ ["total"]).mapM fun i => (dictGet (dictMerge group [("total", total)]) i).map fun v => (i, v)

/-- A row of the table of statistics; the value of the last one is shown together with the degrees of freedom (results.py:372-388). -/
structure StatRow where
  data : String
  statistic : Option Stat
  value : ℤ
  dof : Option ℤ
  channels : Nat
deriving DecidableEq

/-- The table `Fit Statistics`, results.py:372-388. -/
def statTable (f : Fmt) (ds : List DataSet) (group : List (String × ℝ)) (total : ℝ) (nparam : Nat) : Except PyErr (List StatRow) := do
  let names := (dictOf (ds.map fun x => (x.name, ()))).map (·.1)
  let dev ← devianceDict names group total
  let nd := ndata ds
  let stat := dictOf (ds.map fun x => (x.name, x.stat))
  let rows ← ((nd.map (·.1)).filter fun i => i ≠ "total").mapM fun i => do
    let s ← dictGet stat i
    let v ← dictGet (dictOf dev) i
    let n ← dictGet nd i
    .ok (StatRow.mk i (some s) (f.cents v) none n)
  let v ← dictGet (dictOf dev) "total"
  let n ← dictGet nd "total"
  .ok (rows ++ [StatRow.mk "Total" none (f.cents v) (some ((n : ℤ) - nparam)) n])

/-- The table `Parameters`, results.py:303-318, 368-371, 1307-1309, 2815-2818: name, best fit and error. -/
def paramTable (f : Fmt) (all : List String) (mle err : List ℝ) : Except PyErr (List (String × ℝ × ℝ)) :=
  let d := dictOf (all.zip (mle.zip err))
  all.mapM fun k => (dictGet d k).map fun v => (k, f.short v.1, f.short v.2)

/-- The table `Information Criterion`, results.py:390-392. -/
noncomputable def icTable (f : Fmt) (stat : ℝ) (k n : Nat) : Except PyErr (List (String × ℤ)) := do
  let a ← aic stat k n
  .ok [("AIC", f.cents a), ("BIC", f.cents (bic stat k n))]

/-- A row of the table of parameters of a fit (`/repo/src/elisa/models/model.py:2333, 2350`): number, component, parameter, value, bound, prior. -/
structure InfoRow where
  no : String
  component : String
  parameter : String
  value : String
  bound : String
  prior : String
deriving DecidableEq, Repr

/-- The columns, fit.py:281. -/
def fields : List String := ["No.", "Component", "Parameter", "Value", "Bound", "Prior"]

/-- A row as a list of cells (fit.py:281-285). -/
def InfoRow.cells (r : InfoRow) : List String := [r.no, r.component, r.parameter, r.value, r.bound, r.prior]

/-- The two kinds of fits (fit.py:471, 567). -/
inductive FitKind where
  | maxLike
  | bayes
deriving DecidableEq

/-- `_tab_config[1]`, fit.py:472, 568. -/
def excluded : FitKind → List String
  | .maxLike => ["Prior"]
  | .bayes => ["Bound"]

/-- `xs[~mask]`, where `mask = np.isin(fields, excluded)`, fit.py:282-284. -/
def keep (k : FitKind) (xs : List String) : List String :=
  ((fields.zip xs).filter fun p => !(excluded k).contains p.1).map (·.2)

/-- The table of parameters of a fit, fit.py:281-285: header and rows. -/
def infoTable (k : FitKind) (rows : List InfoRow) : List String × List (List String) :=
  (keep k fields, rows.map fun r => keep k r.cells)

/-- The table of data sets of a fit, fit.py:270-279: name of the data set, name of its model and statistic, from the dictionaries
`_data`, `_model` and `_stat`, which have one entry per name of a data set (fit.py:148-162). -/
def dataTable (names models stats : List String) : List (String × String × String) :=
  let data := (dictOf (names.zip names)).map (·.1)
  let model := (dictOf (names.zip models)).map (·.2)
  let stat := (dictOf (names.zip stats)).map (·.2)
  data.zip (model.zip stat)

end Elisa.Infer.Tables
