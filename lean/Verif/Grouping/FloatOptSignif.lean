import Verif.Grouping.FloatLima
import Verif.Grouping.FloatGv

namespace Elisa.Grouping.Fl

open Elisa Elisa.Grouping Elisa.Infer.Fl

/-- `group_optsig_lima` (grouping.py:840-928) with the widths and the computed ratio of an interval given, see `groupOptsigLima`.
The sums of counts are exact in double precision as long as they are at most 2^53. -/
noncomputable def groupOptsigLimaF (rnd lg : ℝ → ℝ) (bint : List ℕ) (on off : List ℝ) (ratio : ℕ → ℕ → ℝ) (sig : ℝ) : Except PyErr (List Int × Bool) :=
  if ¬ (bint.length = on.length ∧ on.length = off.length) then .error .assertionError
  else if sig ≤ 0 then .error .assertionError
  else
    let ok := fun a b : ℕ => reaches sig (limaF rnd lg (intervalSum (prefixSum on) a b) (intervalSum (prefixSum off) a b) (ratio a b))
    let idx := (optLoop (fun i j => sigExtend ok (bint.length - j) i j) bint bint.length bint.length 0 []).reverse
    .ok (setFlags bint.length idx, (List.zip (Elisa.reduceat on idx) (List.zip (Elisa.reduceat off idx) ((edges idx on.length).map fun e => ratio e.1 e.2))).all
      fun p => reaches sig (limaF rnd lg p.1 p.2.1 p.2.2))

/-- `group_optsig_gv` (grouping.py:931-1023) with the widths and the computed ratio of an interval given, see `groupOptsigGv`.
The sums of the backgrounds and of their squared errors are taken as exact here; C157 bounds their error. -/
noncomputable def groupOptsigGvF (rnd lg : ℝ → ℝ) (bint : List ℕ) (n b s : List ℝ) (ratio : ℕ → ℕ → ℝ) (sig : ℝ) : Except PyErr (List Int × Bool) :=
  if ¬ (bint.length = n.length ∧ n.length = b.length ∧ b.length = s.length) then .error .assertionError
  else if sig ≤ 0 then .error .assertionError
  else
    let ok := fun i j : ℕ => reachesE sig (gvF rnd lg (intervalSum (prefixSum n) i j) (intervalSum (prefixSum b) i j)
      (rnd (Real.sqrt (intervalSum (prefixSum (s.map fun x => x * x)) i j))) (ratio i j))
    let idx := (optLoop (fun i j => sigExtend ok (bint.length - j) i j) bint bint.length bint.length 0 []).reverse
    .ok (setFlags bint.length idx, (List.zip (Elisa.reduceat n idx) (List.zip (Elisa.reduceat b idx) (List.zip (Elisa.reduceat (s.map fun x => x * x) idx)
      ((edges idx n.length).map fun e => ratio e.1 e.2)))).all fun p => reachesE sig (gvF rnd lg p.1 p.2.1 (rnd (Real.sqrt p.2.2.1)) p.2.2.2))

end Elisa.Grouping.Fl
