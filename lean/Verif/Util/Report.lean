import Mathlib.Data.Int.Log
import Mathlib.Data.Rat.Floor
import Mathlib.Tactic

/-!
# Values with errors in the titles of corner plots

Model of `report_interval` (`/repo/src/elisa/util/misc.py:442-520`), used for the titles of the corner plot
(`/repo/src/elisa/plot/misc.py:106-112`).  Numbers are rationals; the result is the list of numbers the text denotes.  `rnd` is the rounding
to integers of Python's number formatting (any rounding to nearest); the float multiplication `num * 10**-exp` and `math.log10` are exact.
-/

namespace Elisa.Util.Report

/-- The number `f'{v:.{p}f}'` denotes (util/misc.py:442-520). -/
def fixedPoint (rnd : ℚ → ℤ) (p : ℕ) (v : ℚ) : ℚ := rnd (v * 10 ^ p) / 10 ^ p

/-- The decade of a number, `math.floor(math.log10(abs(v)))` (misc.py:494, 498). -/
def decade (v : ℚ) : ℤ := Int.log 10 |v|

/-- The digits of `f'{v:.{p}e}'` before a carry is taken into account (util/misc.py:484-495). -/
def digits (rnd : ℚ → ℤ) (p : ℕ) (v : ℚ) : ℤ := rnd (v / 10 ^ (decade v - p))

/-- The rounding of the significand carries into the next decade (util/misc.py:484-495). -/
def carries (rnd : ℚ → ℤ) (p : ℕ) (v : ℚ) : Bool := decide ((digits rnd p v).natAbs = 10 ^ (p + 1))

/-- The significand `f'{v:.{p}e}'.split('e')[0]` denotes (util/misc.py:488-495). -/
def sciSignificand (rnd : ℚ → ℤ) (p : ℕ) (v : ℚ) : ℚ :=
  if carries rnd p v then digits rnd p v / 10 ^ (p + 1) else digits rnd p v / 10 ^ p

/-- The exponent `f'{v:.{p}e}'.split('e')[1]` denotes (misc.py:480). -/
def sciExponent (rnd : ℚ → ℤ) (p : ℕ) (v : ℚ) : ℤ := if carries rnd p v then decade v + 1 else decade v

/-- `get_sci_notation_significand` (misc.py:488-496); removing trailing zeros after the decimal point does not change the number. -/
def significand (rnd : ℚ → ℤ) (prec : ℕ) (num : ℚ) (exp : ℤ) : ℚ :=
  if |num| < 10 ^ (exp - prec) then fixedPoint rnd (sciExponent rnd prec num - exp).natAbs (num * 10 ^ (-exp))
  else fixedPoint rnd prec (num * 10 ^ (-exp))

/-- The numbers of the text: `mid`, the errors below and above, and the power of ten they are multiplied by (none shown if plain) (util/misc.py:442-520). -/
structure Shown where
  mid : ℚ
  lower : ℚ
  upper : ℚ
  exp : ℤ

/-- `exponent <= -min_exponent or exponent >= max_exponent` (misc.py:496): scientific notation. -/
def scientific (minExp maxExp : ℕ) (v : ℚ) : Bool := decide (|v| ≤ 10 ^ (-(minExp : ℤ)) ∨ 10 ^ (maxExp : ℤ) ≤ |v|)

/-- An error as shown (misc.py:505-512). -/
def shownError (rnd : ℚ → ℤ) (prec : ℕ) (d : ℚ) (exp : ℤ) : ℚ := if d ≠ 0 then significand rnd prec d exp else 0

/-- `report_interval` (misc.py:442-514); `none` is the `ValueError` of `math.log10(0)`. -/
def report (rnd : ℚ → ℤ) (vmid vmin vmax : ℚ) (prec minExp maxExp : ℕ) : Option Shown :=
  if vmid = 0 then none
  else if scientific minExp maxExp vmid then
    some ⟨sciSignificand rnd prec vmid, shownError rnd prec (vmin - vmid) (decade vmid), shownError rnd prec (vmax - vmid) (decade vmid), decade vmid⟩
  else some ⟨fixedPoint rnd prec vmid, shownError rnd prec (vmin - vmid) 0, shownError rnd prec (vmax - vmid) 0, 0⟩

end Elisa.Util.Report
