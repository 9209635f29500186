import Verif.Np
import Mathlib.Tactic

/-!
# Model of the plots of a response (`ResponseData.plot_effective_area`, `plot_matrix`, `src/elisa/data/base.py:1610-1769`)

What is drawn, as data: the heights of the step curve, the cells of the colour mesh and the hatched ranges.  Exact real arithmetic; colours, scales and labels are left out.
-/

namespace Elisa.Plot.Resp

open Elisa

/-- `matrix * factor` summed over channels, for one photon bin (base.py:1633-1641); `good` is `None` or one flag per channel. -/
noncomputable def rowArea (good : Option (List Bool)) (row : List ℝ) : ℝ :=
  match good with
  | none => row.sum
  | some g => (List.zipWith (fun x b => if b then x else 0) row g).sum

/-- The effective area of every photon bin (base.py:1633-1642): `ValueError` for flags of a wrong number, negative areas set to zero.  `nchan` is the number of channels. -/
noncomputable def effArea (nchan : Nat) (matrix : List (List ℝ)) (good : Option (List Bool)) : Except PyErr (List ℝ) :=
  match good with
  | none => .ok (matrix.map fun row => max (rowArea none row) 0)
  | some g => if g.length ≠ nchan then .error .valueError else .ok (matrix.map fun row => max (rowArea (some g) row) 0)

/-- `plt.step(x, y)` with Matplotlib's default `where='pre'` (as called in base.py:1646): between `x[i]` and `x[i+1]` the curve has the height `y[i+1]`. -/
def stepPre (x y : List ℝ) : List (ℝ × ℝ × ℝ) := List.zip x (List.zip x.tail y.tail)

/-- The curve of the effective area (base.py:1646): `np.append(eff_area, eff_area[-1])` over the photon grid; `IndexError` without photon bins. -/
def drawArea (egrid area : List ℝ) : Except PyErr (List (ℝ × ℝ × ℝ)) :=
  match area.getLast? with
  | none => .error .indexError
  | some l => .ok (stepPre egrid (area ++ [l]))

/-- First and last of the bins that lie inside a noticed range (base.py:1655-1662, 1747-1753): `IndexError` (base.py:1665-1671) if there is none. -/
noncomputable def span (emin emax : List ℝ) (r : ℝ × ℝ) : Except PyErr (Nat × Nat) :=
  let idx := (List.range emin.length).filter fun k => r.1 ≤ emin.getD k 0 ∧ emax.getD k 0 ≤ r.2
  match idx.head?, idx.getLast? with
  | some a, some b => .ok (a, b)
  | _, _ => .error .indexError

/-- The ranges between consecutive noticed ranges (base.py:1667-1670, 1758-1761). -/
def between (emin emax : List ℝ) : List (Nat × Nat) → List (ℝ × ℝ)
  | [] => []
  | [_] => []
  | s :: t :: rest => (emax.getD s.2 0, emin.getD t.1 0) :: between emin emax (t :: rest)

/-- Everything hatched before the first noticed bin (base.py:1665-1666, 1756-1757). -/
noncomputable def before (emin : List ℝ) (a : Nat) : List (ℝ × ℝ) :=
  if emin.getD a 0 > emin.getD 0 0 then [(emin.getD 0 0, emin.getD a 0)] else []

/-- Everything hatched after the last noticed bin (base.py:1671-1672, 1762-1763). -/
noncomputable def after (emax : List ℝ) (b : Nat) : List (ℝ × ℝ) :=
  if emax.getD b 0 < emax.getD (emax.length - 1) 0 then [(emax.getD b 0, emax.getD (emax.length - 1) 0)] else []

/-- The hatched ranges (base.py:1652-1672, and 1744-1763 for the matrix) for the noticed ranges; `IndexError` if a noticed range contains no bin.  `noticed` has at least one row. -/
noncomputable def ignored (emin emax : List ℝ) (noticed : List (ℝ × ℝ)) : Except PyErr (List (ℝ × ℝ)) := do
  let spans ← noticed.mapM (span emin emax)
  match spans.head?, spans.getLast? with
  | some s, some t => pure (before emin s.1 ++ between emin emax spans ++ after emax t.2)
  | _, _ => .error .indexError

/-- `np.insert(xs, idx, vals)`: every value is put in front of the element of the given index of the original array (base.py:1731-1734). -/
def insertAt {α : Type} : Nat → List α → List (Nat × α) → List α
  | k, [], ins => (ins.filter fun p => p.1 = k).map (·.2)
  | k, x :: xs, ins => (ins.filter fun p => p.1 = k).map (·.2) ++ x :: insertAt (k + 1) xs ins

/-- `np.flatnonzero(channel_emin[1:] - channel_emax[:-1])` (base.py:1728). -/
noncomputable def gaps (emin emax : List ℝ) : List Nat :=
  (List.range (emin.length - 1)).filter fun k => emin.getD (k + 1) 0 - emax.getD k 0 ≠ 0

/-- `channel_emin` after the insertion (base.py:1731). -/
noncomputable def eminIns (emin emax : List ℝ) : List ℝ := insertAt 0 emin ((gaps emin emax).map fun i => (i + 1, emax.getD i 0))

/-- `channel_emax` after the insertion (base.py:1732); the inserted values are taken from `channel_emin` **after** its own insertion. -/
noncomputable def emaxIns (emin emax : List ℝ) : List ℝ :=
  insertAt 0 emax ((gaps emin emax).map fun i => (i + 1, (eminIns emin emax).getD (i + 1) 0))

/-- The columns of the matrix after the insertion (base.py:1733): `none` is a column of NaN. -/
noncomputable def colsIns {α : Type} (emin emax : List ℝ) (cols : List α) : List (Option α) :=
  insertAt 0 (cols.map some) ((gaps emin emax).map fun i => (i + 1, none))

/-- The columns of cells of `pcolormesh` (base.py:1735-1739): between consecutive edges `np.append(channel_emin, channel_emax[-1])`, each with a column of the matrix. -/
noncomputable def cells {α : Type} (emin emax : List ℝ) (cols : List α) : List (ℝ × ℝ × Option α) :=
  let egrid := eminIns emin emax ++ (emaxIns emin emax).getLast?.toList
  List.zip egrid (List.zip egrid.tail (colsIns emin emax cols))

/-- Keeping the good channels (base.py:1712-1721). -/
def keepGood {α : Type} (good : List Bool) (xs : List α) : List α := (List.zip xs good).filterMap fun p => if p.2 then some p.1 else none

/-- The cells drawn for flags of good quality (base.py:1708-1739): `ValueError` for a wrong number of flags.  `cols` are the columns of the matrix; their clipping to the colour scale is left out. -/
noncomputable def meshCells {α : Type} (good : Option (List Bool)) (emin emax : List ℝ) (cols : List α) : Except PyErr (List (ℝ × ℝ × Option α)) :=
  match good with
  | none => .ok (cells emin emax cols)
  | some g => if g.length ≠ cols.length then .error .valueError else .ok (cells (keepGood g emin) (keepGood g emax) (keepGood g cols))

/-- The hatched ranges of the plot of the matrix (base.py:1742-1767): computed from the channel edges after the insertion. -/
noncomputable def ignoredMatrix (emin emax : List ℝ) (noticed : List (ℝ × ℝ)) : Except PyErr (List (ℝ × ℝ)) :=
  ignored (eminIns emin emax) (emaxIns emin emax) noticed

end Elisa.Plot.Resp
