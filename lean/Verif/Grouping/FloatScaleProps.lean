import Verif.Grouping.FloatPrefixProps

namespace Elisa.Grouping.Fl

open Elisa Elisa.Grouping Elisa.Infer.Fl

/-- **C157 (scale factors), partial.**  An interval of channels with counts, whole numbers up to 2^53 in all: the scale factor of the interval (the mean weighted with the counts) is
computed with a relative error of at most 2^-52 plus twice that of the sum of `counts / scale` over the interval, which C157_interval_error bounds by a few units of 2^-52 of the same sum up
to the end of the interval.  What is missing: intervals with few of the counts, for which this error is larger than a quarter, see the counterexample of C157. -/
theorem C157_scale_partial {F : Impl} (h : F.Legal) (d : ScaleGroupData ℝ) (cs ks : List ℕ) (h1 : d.counts = cs.map fun k : ℕ => (k : ℝ)) (h2 : d.nChan = ks.map fun k : ℕ => (k : ℝ))
    (hcs : cs.sum ≤ 2 ^ 53) (hks : ks.sum ≤ 2 ^ 53) (hlen : cs.length = ks.length) (hlen' : d.weightedInv.length = ks.length)
    (hw : ∀ x ∈ d.weightedInv, Rep x ∧ 0 ≤ x) (hm : d.weightedInv.sum ≤ 2 ^ (900 : ℤ)) (hn : ks.length ≤ 2 ^ 25) {a b : ℕ} (hab : a ≤ b) (hb : b ≤ ks.length)
    (hc : 1 ≤ total cs a b) (hk : 1 ≤ total ks a b) (hlow : 2 ^ (-500 : ℤ) ≤ total d.weightedInv a b) {δ : ℝ} (hδ : δ = ((b - a : ℕ) + 3) * 2 ^ (-52 : ℤ) * total d.weightedInv 0 b)
    (hbulk : δ ≤ total d.weightedInv a b / 4) :
    scaleFromInterval (buildScalePrefix d false) a b = total cs a b / total d.weightedInv a b ∧
      |F.scaleOf d a b - total cs a b / total d.weightedInv a b| ≤ (2 ^ (-52 : ℤ) + 2 * (δ / total d.weightedInv a b)) * (total cs a b / total d.weightedInv a b) := by
  have habs : (d.weightedInv.map fun x => |x|) = d.weightedInv := by
    conv_rhs => rw [← List.map_id d.weightedInv]
    exact List.map_congr_left fun x hx => abs_of_nonneg (hw x hx).2
  have err := C157_interval_error_partial h (fun x hx => (hw x hx).1) (by rw [habs]; exact hm) (by omega) hab (by omega : b ≤ d.weightedInv.length)
  rw [habs, ← hδ] at err
  have exact1 : ∀ xs : List ℝ, b ≤ xs.length → (prefixSum xs).getD b 0 - (prefixSum xs).getD a 0 = total xs a b := fun xs hx => intervalSum_prefix xs hab hx
  have hCbig : total cs a b ≤ 2 ^ 53 := (total_le_sum cs (a := a) (by omega)).trans hcs
  have hWle : total d.weightedInv a b ≤ 2 ^ (900 : ℤ) := by
    refine le_trans ?_ hm
    rw [← channels_sum]
    have := List.Sublist.sum_le_sum ((List.drop_sublist a _).trans (List.take_sublist b d.weightedInv)) (fun x hx => (hw x hx).2)
    exact this
  have eC := C157_whole h cs hcs hab (by omega)
  have eK := C157_whole h ks hks hab hb
  rw [total_cast] at eC eK
  have k0 : ((total ks a b : ℕ) : ℝ) ≠ 0 := by
    have : total ks a b ≠ 0 := by omega
    exact_mod_cast this
  have hC1 : (1 : ℝ) ≤ (total cs a b : ℕ) := by exact_mod_cast hc
  have hC2 : ((total cs a b : ℕ) : ℝ) ≤ 2 ^ (53 : ℤ) := by exact_mod_cast hCbig
  have fs : F.scaleOf d a b = if F.intervalSum (F.prefixSum d.weightedInv) a b ≠ 0 then F.rnd ((total cs a b : ℕ) / F.intervalSum (F.prefixSum d.weightedInv) a b)
      else (if F.intervalSum (F.prefixSum d.reciprocal) a b = 0 then 1 else F.rnd ((total ks a b : ℕ) / F.intervalSum (F.prefixSum d.reciprocal) a b)) := by
    unfold Impl.scaleOf
    dsimp only
    rw [h1, h2, eC, eK, if_neg k0]
  have ex : scaleFromInterval (buildScalePrefix d false) a b = (total cs a b : ℕ) / total d.weightedInv a b := by
    unfold scaleFromInterval buildScalePrefix
    dsimp only
    rw [h1, h2, exact1 (ks.map fun k : ℕ => (k : ℝ)) (by rw [List.length_map]; omega), exact1 (cs.map fun k : ℕ => (k : ℝ)) (by rw [List.length_map]; omega), exact1 d.weightedInv (by omega), total_cast, total_cast, if_neg k0, if_neg (by simp),
      if_pos ((two_zpow_pos (-500)).trans_le hlow).ne']
  refine ⟨ex, ?_⟩
  rw [fs]
  generalize ((total cs a b : ℕ) : ℝ) = C at *
  generalize total d.weightedInv a b = W at *
  generalize F.intervalSum (F.prefixSum d.weightedInv) a b = W' at *
  have hW : 0 < W := (two_zpow_pos (-500)).trans_le hlow
  obtain ⟨e1, e2⟩ := _root_.abs_le.1 err
  have l1 : 3 / 4 * W ≤ W' := by linarith
  have l2 : W' ≤ 5 / 4 * W := by linarith
  have hW' : 0 < W' := by linarith
  rw [if_pos hW'.ne']
  have hC : 0 < C := by linarith
  have up : C / W' ≤ 4 / 3 * (C / W) := by
    rw [div_le_iff₀ hW']
    have e : C = C / W * W := (div_mul_cancel₀ C hW.ne').symm
    have p : 0 < C / W := div_pos hC hW
    have := mul_le_mul_of_nonneg_left l1 p.le
    linarith
  have dist : |C / W' - C / W| ≤ 4 / 3 * (δ / W) * (C / W) := by
    have : C / W' - C / W = (C / W') * ((W - W') / W) := by field_simp
    rw [this, abs_mul, abs_of_pos (div_pos hC hW'), abs_div, abs_of_pos hW, abs_sub_comm]
    calc C / W' * (|W' - W| / W) ≤ 4 / 3 * (C / W) * (δ / W) := by gcongr
      _ = _ := by ring
  have rel : |F.rnd (C / W') - C / W'| ≤ unit * (C / W') := by
    have hr : Nearest F.rnd := h.nearest
    refine hr.rel (p := -902) (q := 600) ⟨?_, ?_⟩ (by norm_num) (by norm_num)
    · rw [le_div_iff₀ hW']
      refine le_trans ?_ hC1
      have : W' ≤ 2 ^ (902 : ℤ) := by
        refine l2.trans ?_
        rw [show (2 : ℝ) ^ (902 : ℤ) = 4 * 2 ^ (900 : ℤ) by rw [show (902 : ℤ) = 900 + 2 by norm_num, zpow_add₀ (by norm_num)]; norm_num [mul_comm]]
        exact (show 5 / 4 * W ≤ 4 * W by linarith only [hW]).trans (mul_le_mul_of_nonneg_left hWle (by norm_num))
      calc (2 : ℝ) ^ (-902 : ℤ) * W' ≤ 2 ^ (-902 : ℤ) * 2 ^ (902 : ℤ) := mul_le_mul_of_nonneg_left this (two_zpow_pos _).le
        _ = 1 := by rw [← zpow_add₀ (by norm_num)]; norm_num
    · rw [div_le_iff₀ hW']
      refine hC2.trans ?_
      have g : (2 : ℝ) ^ (-501 : ℤ) ≤ W' := by
        refine le_trans ?_ l1
        rw [show (2 : ℝ) ^ (-501 : ℤ) = 1 / 2 * 2 ^ (-500 : ℤ) by rw [show (-501 : ℤ) = -500 + -1 by norm_num, zpow_add₀ (by norm_num)]; norm_num [mul_comm]]
        have := two_zpow_pos (-500)
        linarith only [this, hlow]
      calc (2 : ℝ) ^ (53 : ℤ) ≤ 2 ^ (600 : ℤ) * 2 ^ (-501 : ℤ) := by rw [← zpow_add₀ (by norm_num)]; exact zpow_le (by norm_num)
        _ ≤ _ := mul_le_mul_of_nonneg_left g (two_zpow_pos _).le
  have u : unit = 1 / 2 * 2 ^ (-52 : ℤ) := by unfold unit; norm_num
  have tri := abs_sub_le (F.rnd (C / W')) (C / W') (C / W)
  have hd0 : 0 ≤ δ := by linarith [abs_nonneg (W' - W)]
  have hq : 0 ≤ δ / W * (C / W) := by positivity
  have hCW : 0 < C / W := by positivity
  have hu : unit * (C / W') ≤ unit * (4 / 3 * (C / W)) := mul_le_mul_of_nonneg_left up (by rw [u]; have := two_zpow_pos (-52); linarith)
  rw [u] at rel hu
  have h52 := two_zpow_pos (-52)
  generalize (2 : ℝ) ^ (-52 : ℤ) = ε at *
  have hp := mul_pos h52 hCW
  nlinarith [hp, tri, dist, rel, hu, hq]

/-- Four counts in a channel with scale factor two and two counts in a channel with scale factor one: the mean is 6/4. -/
example := C157_scale_partial leftImpl_legal ⟨[2, 1], [4, 2], [1, 1], [2, 2], [1 / 2, 1], [2, 1]⟩ [4, 2] [1, 1] (by simp) (by simp) (by norm_num) (by norm_num) rfl rfl
  (by
    intro x hx
    obtain rfl : x = 2 := by simpa using hx
    have := rep_small (k := 2) (by norm_num)
    push_cast at this
    exact ⟨this, by norm_num⟩)
  (by refine le_trans ?_ (zpow_le (p := 2) (by norm_num)); norm_num) (by norm_num) (a := 0) (b := 2) (by norm_num) (by norm_num) (by decide) (by decide)
  (by rw [total_eq_sliceSum]; exact le_trans (zpow_le (q := 2) (by norm_num)) (by norm_num [sliceSum])) rfl (by rw [total_eq_sliceSum]; norm_num [sliceSum])

/-! ## The sums for a Gaussian background -/

theorem total_map_near {xs : List ℝ} {f g : ℝ → ℝ} {c : ℝ} (h : ∀ x ∈ xs, |f x - g x| ≤ c * g x) (a b : ℕ) :
    |total (xs.map f) a b - total (xs.map g) a b| ≤ c * total (xs.map g) a b := by
  unfold total
  rw [← Finset.sum_sub_distrib, Finset.mul_sum]
  refine (Finset.abs_sum_le_sum_abs _ _).trans (Finset.sum_le_sum fun k _ => ?_)
  simp only [List.getD_eq_getElem?_getD, List.getElem?_map]
  cases hk : xs[k]? with
  | none => simp
  | some x => simpa using h x (List.mem_of_getElem? hk)

theorem total_le_start {xs : List ℝ} (h : ∀ x ∈ xs, 0 ≤ x) (a b : ℕ) : total xs a b ≤ total xs 0 b := by
  unfold total
  refine Finset.sum_le_sum_of_subset_of_nonneg (Finset.Ico_subset_Ico (Nat.zero_le _) (le_refl _)) fun k _ _ => ?_
  simp only [List.getD_eq_getElem?_getD]
  cases hk : xs[k]? with
  | none => simp
  | some x => simpa using h x (List.mem_of_getElem? hk)

/-- **C157 (Gaussian background), partial.** The counts, background and error the code uses for an interval of channels when it groups by the significance over a Gaussian background: the counts,
whole numbers, are those of the interval; the background is that of the interval up to a few units of `2 ^ -52` of the backgrounds up to the end of the interval; and the error is the rounded
square root of the variance of the interval up to a few units of `2 ^ -52` of the variances up to the end of the interval.  What is missing: errors relative to the interval, see the
counterexample of C157. -/
theorem C157_gv_partial {F : Impl} (h : F.Legal) (ns : List ℕ) (bs s : List ℝ) (hns : ns.sum ≤ 2 ^ 53) (hb : ∀ x ∈ bs, Rep x) (hbm : (bs.map fun x => |x|).sum ≤ 2 ^ (900 : ℤ))
    (hs : ∀ x ∈ s, x = 0 ∨ 2 ^ (-400 : ℤ) ≤ |x|) (hsm : (s.map fun x => x ^ 2).sum ≤ 2 ^ (899 : ℤ)) (hn : ns.length ≤ 2 ^ 25) (hl : bs.length = ns.length) (hl' : s.length = ns.length)
    {i j : ℕ} (hij : i ≤ j) (hj : j ≤ ns.length) :
    (F.gvSums (ns.map fun k : ℕ => (k : ℝ)) bs s i j).1 = total (ns.map fun k : ℕ => (k : ℝ)) i j ∧
    |(F.gvSums (ns.map fun k : ℕ => (k : ℝ)) bs s i j).2.1 - total bs i j| ≤ ((j - i : ℕ) + 3) * 2 ^ (-52 : ℤ) * total (bs.map fun x => |x|) 0 j ∧
    ∃ v, (F.gvSums (ns.map fun k : ℕ => (k : ℝ)) bs s i j).2.2 = F.rnd (Real.sqrt v) ∧
      |v - total (s.map fun x => x ^ 2) i j| ≤ ((j - i : ℕ) + 4) * 2 ^ (-52 : ℤ) * total (s.map fun x => x ^ 2) 0 j := by
  have hr : Nearest F.rnd := h.nearest
  refine ⟨C157_whole h ns hns hij hj, C157_interval_error_partial h hb hbm (by omega) hij (by omega), _, rfl, ?_⟩
  have sq0 : ∀ x ∈ s.map fun x => x ^ 2, 0 ≤ x := by
    intro y hy
    obtain ⟨x, -, rfl⟩ := List.mem_map.1 hy
    positivity
  have size : ∀ x ∈ s, x ^ 2 ≤ 2 ^ (899 : ℤ) := fun x hx => (List.single_le_sum sq0 _ (List.mem_map_of_mem hx)).trans hsm
  have near : ∀ x ∈ s, |F.rnd (x * x) - x ^ 2| ≤ unit * x ^ 2 := by
    intro x hx
    rw [← sq]
    rcases hs x hx with rfl | hc
    · have : F.rnd 0 = 0 := hr.fix rep_zero (by rw [abs_zero]; exact (two_zpow_pos _).le)
      norm_num [this]
    · refine hr.rel (p := -800) (q := 899) ⟨?_, size x hx⟩ (by norm_num) (by norm_num)
      rw [← sq_abs, show (2 : ℝ) ^ (-800 : ℤ) = (2 ^ (-400 : ℤ)) ^ 2 by rw [← zpow_natCast, ← zpow_mul]; norm_num]
      exact pow_le_pow_left₀ (two_zpow_pos _).le hc 2
  have u1 : unit ≤ 1 := by unfold unit; norm_num
  have up := unit_pos
  have pos : ∀ x ∈ s, 0 ≤ F.rnd (x * x) := fun x hx => by
    have := (_root_.abs_le.1 (near x hx)).1
    have := mul_le_mul_of_nonneg_right u1 (sq_nonneg x)
    linarith
  have habs : ((s.map fun x => F.rnd (x * x)).map fun x => |x|) = s.map fun x => F.rnd (x * x) := by
    rw [List.map_map]
    exact List.map_congr_left fun x hx => abs_of_nonneg (pos x hx)
  have sum_le : (s.map fun x => F.rnd (x * x)).sum ≤ 2 * (s.map fun x => x ^ 2).sum := by
    rw [← List.sum_map_mul_left]
    refine List.sum_le_sum fun x hx => ?_
    have := (_root_.abs_le.1 (near x hx)).2
    have := mul_le_mul_of_nonneg_right u1 (sq_nonneg x)
    linarith
  have err := C157_interval_error_partial h (xs := s.map fun x => F.rnd (x * x)) (fun y hy => by
      obtain ⟨x, hx, rfl⟩ := List.mem_map.1 hy
      exact hr.rep (by rw [← sq, abs_of_nonneg (sq_nonneg x)]; exact (size x hx).trans (zpow_le (by norm_num)))) (by
      rw [habs]
      refine sum_le.trans ?_
      rw [show (2 : ℝ) ^ (900 : ℤ) = 2 * 2 ^ (899 : ℤ) by rw [show (900 : ℤ) = 899 + 1 by norm_num, zpow_add₀ (by norm_num)]; norm_num [mul_comm]]
      exact mul_le_mul_of_nonneg_left hsm (by norm_num)) (by rw [List.length_map]; omega) hij (by rw [List.length_map]; omega)
  rw [habs] at err
  have n1 := total_map_near near i j
  have n2 := total_map_near near 0 j
  have le := total_le_start sq0 i j
  have t0 : 0 ≤ total (s.map fun x => x ^ 2) 0 j := by
    unfold total
    refine Finset.sum_nonneg fun k _ => ?_
    simp only [List.getD_eq_getElem?_getD]
    cases hk : (s.map fun x => x ^ 2)[k]? with
    | none => simp
    | some x => simpa using sq0 x (List.mem_of_getElem? hk)
  have kle : ((j - i : ℕ) : ℝ) ≤ 2 ^ 25 := by exact_mod_cast (show j - i ≤ 2 ^ 25 by omega)
  generalize total (s.map fun x => x ^ 2) i j = T at *
  generalize total (s.map fun x => x ^ 2) 0 j = T0 at *
  generalize total (s.map fun x => F.rnd (x * x)) i j = V at *
  generalize total (s.map fun x => F.rnd (x * x)) 0 j = V0 at *
  generalize F.intervalSum (F.prefixSum (s.map fun x => F.rnd (x * x))) i j = W at *
  have k0 : (0 : ℝ) ≤ ((j - i : ℕ) : ℝ) := Nat.cast_nonneg _
  generalize ((j - i : ℕ) : ℝ) = k at *
  have hu : (2 : ℝ) ^ (-52 : ℤ) = 2 * unit := by unfold unit; norm_num
  rw [hu] at err ⊢
  have small : (k + 3) * (2 * unit) ≤ 1 := by
    have : (k + 3) * (2 * unit) ≤ (2 ^ 25 + 3) * (2 * unit) := mul_le_mul_of_nonneg_right (by linarith) (by linarith)
    refine this.trans ?_
    unfold unit; norm_num
  have v0 : V0 ≤ T0 + unit * T0 := by linarith [(_root_.abs_le.1 n2).2]
  have e1 : (k + 3) * (2 * unit) * V0 ≤ (k + 3) * (2 * unit) * (T0 + unit * T0) := mul_le_mul_of_nonneg_left v0 (by positivity)
  have e2 : (k + 3) * (2 * unit) * (unit * T0) ≤ 1 * (unit * T0) := mul_le_mul_of_nonneg_right small (by positivity)
  have e3 : unit * T ≤ unit * T0 := mul_le_mul_of_nonneg_left le up.le
  have tri := abs_sub_le W V T
  linarith

/-- Hundred counts over backgrounds of 3 ± 2 and 1 ± 1. -/
example := C157_gv_partial leftImpl_legal [7, 100] [3, 1] [2, 1] (by norm_num)
  (by
    intro x hx
    rcases (by simpa using hx : x = 3 ∨ x = 1) with rfl | rfl
    · have := rep_small (k := 3) (by norm_num); push_cast at this; exact this
    · have := rep_small (k := 1) (by norm_num); push_cast at this; exact this)
  (by refine le_trans ?_ (zpow_le (p := 2) (by norm_num)); norm_num)
  (by
    intro x hx
    refine Or.inr ((zpow_le (q := 0) (by norm_num)).trans ?_)
    rcases (by simpa using hx : x = 2 ∨ x = 1) with rfl | rfl <;> norm_num)
  (by refine le_trans ?_ (zpow_le (p := 3) (by norm_num)); norm_num) (by norm_num) rfl rfl (i := 1) (j := 2) (by norm_num) (by norm_num)

end Elisa.Grouping.Fl
