import Verif.Np
import Mathlib.Data.Real.Basic

/-!
# `Response._drop_zeros`: trimming empty rows off a response matrix
-/

namespace Elisa.Data.Trim

open Elisa

/-- One more index in front of the runs of `t`: it starts a run of its own when the next index is more than one away (ogip.py:768). -/
def joinRun (x : Nat) : List Nat → List (List Nat) → List (List Nat)
  | y :: _, r :: rs => if 1 < y - x then [x] :: r :: rs else (x :: r) :: rs
  | _, _ => [[x]]

/-- `np.split(idx, np.nonzero(np.diff(idx) > 1)[0] + 1)` (ogip.py:768): the runs of consecutive indices. -/
def runs : List Nat → List (List Nat)
  | [] => []
  | x :: t => joinRun x t (runs t)

/-- The entries of `l` (from index `i`) whose index is not marked: boolean indexing `l[~mask]` (ogip.py:774-777). -/
def keepFrom {A : Type} (mask : Nat → Bool) : Nat → List A → List A
  | _, [] => []
  | i, x :: t => if mask i then keepFrom mask (i + 1) t else x :: keepFrom mask (i + 1) t

/-- `nonzero_mask`, `zero_mask` (ogip.py:753-755) of one row. -/
noncomputable def isZeroRow (row : List ℝ) : Bool := @decide (∀ x ∈ row, x = 0) (Classical.propDecidable _)

/-- `idx = np.flatnonzero(zero_mask)` (ogip.py:759). -/
noncomputable def zeroRows (rows : List (List ℝ)) : List Nat :=
  (List.range rows.length).filter fun i => isZeroRow (rows.getD i [])

/-- `zeros_mask2` (ogip.py:769-773): marks the runs which reach the first or the last row. -/
def ends (splits : List (List Nat)) (last i : Nat) : Bool := splits.any fun s => s.contains i && (s.contains 0 || s.contains last)

/-- `Response._drop_zeros` (ogip.py:748-779).  The matrix is the list of its rows; `grid` has one more entry than the matrix has rows. -/
noncomputable def dropZeros (grid : List ℝ) (rows : List (List ℝ)) : Except PyErr (List ℝ × List (List ℝ)) :=
  let idx := zeroRows rows
  let last := grid.length - 2
  let kept := rows.filter fun r => !isZeroRow r
  match idx with
  | [] => .ok (grid, kept)
  | [i] => .ok (if i = 0 then grid.tail else if i = last then grid.dropLast else grid, kept)
  | _ =>
    let mask := ends (runs idx) last
    let elo := keepFrom mask 0 grid.dropLast
    let ehi := keepFrom mask 0 grid.tail
    match ehi.getLast? with
    | none => .error .indexError
    | some e => .ok (elo ++ [e], kept)

end Elisa.Data.Trim
