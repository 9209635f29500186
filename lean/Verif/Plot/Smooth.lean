import Mathlib.Analysis.SpecialFunctions.Exp
import Mathlib.Analysis.SpecialFunctions.Pow.Real

/-!
# Model of the plotting helpers (`plot/util.py`): kernel smoothing and colour gradients

Real arithmetic stands for floating point; `none` stands for NaN.
-/

namespace Elisa.Plot

/-- One entry of `weights` (`plot/util.py:146-150`): `exp(-0.5 * ((x_eval - x) / sigma) ** 2)`. -/
noncomputable def kernelWeight (sigma xe x : ℝ) : ℝ := Real.exp (-(1 / 2) * ((xe - x) / sigma) ^ 2)

/-- One element of the result of `gaussian_kernel_smooth` at the evaluation point `xe`
(`plot/util.py:146-166`).  The data are `(x, y)` pairs.  `0 / 0` (no data and a non-positive threshold) is NaN. -/
noncomputable def smoothAt (data : List (ℝ × ℝ)) (sigma thresh xe : ℝ) : Option ℝ :=
  let ws := data.map (fun d => kernelWeight sigma xe d.1)
  let dot := (data.map (fun d => kernelWeight sigma xe d.1 * d.2)).sum
  if ws.sum < thresh then none
  else if ws.sum = 0 then none
  else some (dot / ws.sum)

/-- `gaussian_kernel_smooth` (`plot/util.py:97-166`); `xEval = none` uses the data's own abscissae. -/
noncomputable def smooth (data : List (ℝ × ℝ)) (sigma : ℝ) (xEval : Option (List ℝ)) (thresh : ℝ) : List (Option ℝ) :=
  (xEval.getD (data.map Prod.fst)).map (smoothAt data sigma thresh)

/-- The default `null_thresh` (`plot/util.py:102`). -/
noncomputable def defaultNullThresh : ℝ := 683 / 1000

/-- The value of one ASCII hexadecimal digit, as Python's `int(_, 16)` reads it (plot/util.py:33-47). -/
def hexVal (c : Char) : Option ℕ :=
  if '0' ≤ c ∧ c ≤ '9' then some (c.toNat - 48)
  else if 'a' ≤ c ∧ c ≤ 'f' then some (c.toNat - 87)
  else if 'A' ≤ c ∧ c ≤ 'F' then some (c.toNat - 55)
  else none

/-- The six ASCII blanks that `int` skips before and after the digits (`plot/util.py:43-45`). -/
def isBlank (c : Char) : Bool := c = ' ' ∨ c = '\t' ∨ c = '\n' ∨ c = '\x0b' ∨ c = '\x0c' ∨ c = '\r'

/-- `int(s, 16)` on the two-character slices of `_scale_color` (`plot/util.py:43-45`): two digits, or a sign and a
digit, or a blank and a digit in either order.  Simplification: only ASCII digits and blanks. -/
def pyHex2 (c d : Char) : Option ℤ :=
  match hexVal c, hexVal d with
  | some a, some b => some (16 * a + b : ℕ)
  | none, some b =>
      if c = '+' ∨ isBlank c then some b
      else if c = '-' then some (-b) else none
  | some a, none => if isBlank d then some a else none
  | none, none => none

/-- `_clip` (`plot/util.py:29-30`): clip to `[0, 255]`, then truncate. -/
noncomputable def clipChannel (v : ℝ) : ℕ := ⌊max 0 (min v 255)⌋₊

/-- One lowercase hexadecimal digit (plot/util.py:33-47). -/
def hexDigit (n : ℕ) : Char := (['0','1','2','3','4','5','6','7','8','9','a','b','c','d','e','f'] : List Char).getD n '?'

/-- `f'{n:02x}'` for `n < 256` (plot/util.py:33-47). -/
def hex2 (n : ℕ) : List Char := [hexDigit (n / 16), hexDigit (n % 16)]

/-- `_scale_color` (`plot/util.py:33-46`). -/
noncomputable def scaleColor (color : List Char) (factor : ℝ) : Except String (List Char) :=
  match color with
  | ['#', r1, r2, g1, g2, b1, b2] =>
      if factor ≤ 0 then .error "factor must be positive"
      else match pyHex2 r1 r2, pyHex2 g1 g2, pyHex2 b1 b2 with
        | some r, some g, some b =>
            .ok ('#' :: hex2 (clipChannel (r * factor)) ++ hex2 (clipChannel (g * factor)) ++
              hex2 (clipChannel (b * factor)))
        | _, _, _ => .error "invalid literal for int() with base 16"
  | _ => .error "color must be in hex format \"#RRGGBB\""

/-- `np.geomspace(start, stop, n)` for positive end points (the last point is set to `stop` exactly) (plot/util.py:50-72). -/
noncomputable def geomspace (start stop : ℝ) (n : ℕ) : List ℝ :=
  (List.range n).map fun i : ℕ => start * (stop / start) ^ ((i : ℝ) / ((n - 1 : ℕ) : ℝ))

/-- `get_color_gradient` (`plot/util.py:50-72`), for a non-negative count `n`. -/
noncomputable def colorGradient (color : List Char) (n : ℕ) (fmin fmax : ℝ) : Except String (List (List Char)) :=
  if color.head? ≠ some '#' ∨ color.length ≠ 7 then .error "color must be in hex format \"#RRGGBB\""
  else if fmin ≤ 0 then .error "factor_min must be positive"
  else if fmax ≤ 0 then .error "factor_min must be positive"
  else if fmin ≥ fmax then .error "factor_min must be less than factor_max"
  else (geomspace fmax fmin n).mapM (scaleColor color)

end Elisa.Plot
