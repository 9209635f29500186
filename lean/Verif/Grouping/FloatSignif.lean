import Verif.Grouping.FloatLima
import Verif.Grouping.FloatGv
import Verif.Grouping.FloatPrefix

/-!
# Grouping by significance, everything in double precision

`group_sig_lima`, `group_sig_gv`, `group_optsig_lima` and `group_optsig_gv` with the prefix sums, scale factors, ratios, significances and the sums of the final test all computed in float64.
Simplification: the optimal widths are given (C03), and there is no overflow.
-/

namespace Elisa.Grouping.Fl

open Elisa Elisa.Grouping Elisa.Infer.Fl

/-- The significance of a candidate interval in `group_sig_lima` and `group_optsig_lima` (grouping.py:705-718, 882-895). -/
noncomputable def Impl.limaAt (F : Impl) (lg : ℝ → ℝ) (on off : List ℝ) (d : RatioData) (start stop : ℕ) : Option ℝ :=
  limaF F.rnd lg (F.intervalSum (F.prefixSum on) start stop) (F.intervalSum (F.prefixSum off) start stop) (F.ratio d start stop)

/-- The final test of both (grouping.py:733-747, 908-926). -/
noncomputable def Impl.limaSuccess (F : Impl) (lg : ℝ → ℝ) (on off : List ℝ) (d : RatioData) (sig : ℝ) (idx : List ℕ) : Bool :=
  (List.zip (F.reduceat on idx) (List.zip (F.reduceat off idx) ((edges idx on.length).map fun e => F.ratio d e.1 e.2))).all
    fun p => reaches sig (limaF F.rnd lg p.1 p.2.1 p.2.2)

/-- `group_sig_lima` (grouping.py:668-749). -/
noncomputable def Impl.groupSigLima (F : Impl) (lg : ℝ → ℝ) (on off : List ℝ) (d : RatioData) (sig : ℝ) : Except PyErr (List Int × Bool) :=
  if on.length ≠ off.length then .error .assertionError
  else if sig ≤ 0 then .error .assertionError
  else if on = [] then .error .indexError
  else
    let idx := (greedyLoopF (F.limaAt lg on off d) sig on.length 0 0 [0]).reverse
    .ok (setFlags on.length idx, F.limaSuccess lg on off d sig idx)

/-- `group_optsig_lima` (grouping.py:840-928). -/
noncomputable def Impl.groupOptsigLima (F : Impl) (lg : ℝ → ℝ) (bint : List ℕ) (on off : List ℝ) (d : RatioData) (sig : ℝ) : Except PyErr (List Int × Bool) :=
  if ¬ (bint.length = on.length ∧ on.length = off.length) then .error .assertionError
  else if sig ≤ 0 then .error .assertionError
  else
    let idx := (optLoop (fun i j => sigExtend (fun a b => reaches sig (F.limaAt lg on off d a b)) (bint.length - j) i j) bint bint.length bint.length 0 []).reverse
    .ok (setFlags bint.length idx, F.limaSuccess lg on off d sig idx)

/-- The significance of a candidate interval in `group_sig_gv` and `group_optsig_gv` (grouping.py:791-806, 973-988). -/
noncomputable def Impl.gvAt (F : Impl) (lg : ℝ → ℝ) (n b s : List ℝ) (d : RatioData) (start stop : ℕ) : Option EReal :=
  gvF F.rnd lg (F.gvSums n b s start stop).1 (F.gvSums n b s start stop).2.1 (F.gvSums n b s start stop).2.2 (F.ratio d start stop)

/-- The final test of both (grouping.py:821-835, 1001-1021). -/
noncomputable def Impl.gvSuccess (F : Impl) (lg : ℝ → ℝ) (n b s : List ℝ) (d : RatioData) (sig : ℝ) (idx : List ℕ) : Bool :=
  (List.zip (F.reduceat n idx) (List.zip (F.reduceat b idx) (List.zip (F.reduceat (s.map fun x => F.rnd (x * x)) idx) ((edges idx n.length).map fun e => F.ratio d e.1 e.2)))).all
    fun p => reachesE sig (gvF F.rnd lg p.1 p.2.1 (F.rnd (Real.sqrt p.2.2.1)) p.2.2.2)

/-- `group_sig_gv` (grouping.py:752-837). -/
noncomputable def Impl.groupSigGv (F : Impl) (lg : ℝ → ℝ) (n b s : List ℝ) (d : RatioData) (sig : ℝ) : Except PyErr (List Int × Bool) :=
  if ¬ (n.length = b.length ∧ b.length = s.length) then .error .assertionError
  else if sig ≤ 0 then .error .assertionError
  else if n = [] then .error .indexError
  else
    let idx := (greedyLoopE (F.gvAt lg n b s d) sig n.length 0 0 [0]).reverse
    .ok (setFlags n.length idx, F.gvSuccess lg n b s d sig idx)

/-- `group_optsig_gv` (grouping.py:931-1023). -/
noncomputable def Impl.groupOptsigGv (F : Impl) (lg : ℝ → ℝ) (bint : List ℕ) (n b s : List ℝ) (d : RatioData) (sig : ℝ) : Except PyErr (List Int × Bool) :=
  if ¬ (bint.length = n.length ∧ n.length = b.length ∧ b.length = s.length) then .error .assertionError
  else if sig ≤ 0 then .error .assertionError
  else
    let idx := (optLoop (fun i j => sigExtend (fun i j => reachesE sig (F.gvAt lg n b s d i j)) (bint.length - j) i j) bint bint.length bint.length 0 []).reverse
    .ok (setFlags bint.length idx, F.gvSuccess lg n b s d sig idx)

end Elisa.Grouping.Fl
