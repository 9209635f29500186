import Verif.Grouping.Signif
import Verif.Grouping.Props
import Mathlib.Tactic.Linarith
import Mathlib.Tactic.NormNum
import Mathlib.Tactic.Positivity
import Mathlib.Tactic.FieldSimp

/-!
# C03, second part: the optimal widths computed by `_calc_optimal_binning`
-/

namespace Elisa.Grouping

open Elisa

theorem shrink_bounds {x : ℝ} (hx : 2.119 ≤ x) : 0 < shrink x ∧ shrink x ≤ 1 := by
  have hx0 : 0 < x := by linarith
  unfold shrink
  constructor
  · positivity
  · rw [div_le_one (by linarith)]
    have : 1.8 / x ≤ 0.92 * x - 1.1 := by
      rw [div_le_iff₀ hx0]
      nlinarith
    linarith

theorem intWidth_pos (b : Option ℝ) : 1 ≤ intWidth b := by
  cases b with
  | none => exact le_refl 1
  | some b =>
    unfold intWidth
    by_cases h : ⌊b⌋ < 1
    · simp [h]
    · simp only [h, if_false]
      omega

theorem intWidth_le (b : ℝ) : (intWidth (some b) : ℝ) ≤ max 1 b := by
  unfold intWidth
  by_cases h : ⌊b⌋ < 1
  · simp [h]
  · simp only [h, if_false]
    refine le_max_of_le_right (le_trans (le_of_eq ?_) (Int.floor_le b))
    have h3 := Int.toNat_of_nonneg (show 0 ≤ ⌊b⌋ by omega)
    exact_mod_cast h3

/-- With at least one resolution element the width is a positive number not above the FWHM. -/
theorem channelWidth_le (r nr f : ℝ) (hr : 1 ≤ r) (hf : 0 < f) : ∃ b, channelWidth r nr f = some b ∧ 0 < b ∧ b ≤ f := by
  have hlogR : 0 ≤ Real.log r := Real.log_nonneg hr
  have hden : 0 < 1 + 0.2 * Real.log r := by positivity
  unfold channelWidth
  rw [if_neg (by linarith), if_neg (by linarith)]
  simp only
  rw [if_neg hden.ne']
  split
  · rename_i h
    have h2 : Real.exp 2.119 < nr * (1 + 0.2 * Real.log r) := by rwa [div_lt_iff₀ hden] at h
    have h0 : 0 < nr * (1 + 0.2 * Real.log r) := lt_trans (Real.exp_pos _) h2
    have h3 : 2.119 ≤ Real.log (nr * (1 + 0.2 * Real.log r)) := by
      rw [Real.le_log_iff_exp_le h0]
      exact h2.le
    rw [if_neg (not_le.2 h0), if_neg (by rintro (h | h) <;> linarith)]
    have hs := shrink_bounds h3
    exact ⟨_, rfl, mul_pos hf hs.1, by nlinarith [hs.2]⟩
  · exact ⟨f, rfl, hf, le_refl _⟩

theorem shrink_anti {x y : ℝ} (hx : 2.119 ≤ x) (hxy : x ≤ y) : shrink y ≤ shrink x := by
  have hx0 : 0 < x := by linarith
  have hy0 : 0 < y := by linarith
  unfold shrink
  rw [div_le_div_iff₀ (by linarith) (by linarith)]
  have h1 : 1.8 / y ≤ 1.8 / x := div_le_div_of_nonneg_left (by norm_num) hx0 hxy
  have h2 : 0 ≤ 1.8 / y := by positivity
  have h3 : 1.8 / y * (x + 5.9) ≤ 1.8 / x * (y + 5.9) := mul_le_mul h1 (by linarith) (by linarith) (by positivity)
  nlinarith

/-- **C03 (more counts, finer bins).**  With a defined FWHM everywhere, more counts per resolution element never give a wider optimal bin. -/
theorem C03_more_counts (r f : ℝ) (hr : 1 ≤ r) (hf : 0 < f) (nr nr' : ℝ) (h : nr ≤ nr') :
    intWidth (channelWidth r nr' f) ≤ intWidth (channelWidth r nr f) := by
  have hlogR : 0 ≤ Real.log r := Real.log_nonneg hr
  have hden : 0 < 1 + 0.2 * Real.log r := by positivity
  have hval : ∀ m : ℝ, channelWidth r m f = some (if Real.exp 2.119 / (1 + 0.2 * Real.log r) < m then
      f * shrink (Real.log (m * (1 + 0.2 * Real.log r))) else f) := by
    intro m
    unfold channelWidth
    rw [if_neg (by linarith), if_neg (by linarith)]
    simp only
    rw [if_neg hden.ne']
    split
    · rename_i h
      have h2 : Real.exp 2.119 < m * (1 + 0.2 * Real.log r) := by rwa [div_lt_iff₀ hden] at h
      have h0 : 0 < m * (1 + 0.2 * Real.log r) := lt_trans (Real.exp_pos _) h2
      have h3 : 2.119 ≤ Real.log (m * (1 + 0.2 * Real.log r)) := by
        rw [Real.le_log_iff_exp_le h0]; exact h2.le
      rw [if_neg (not_le.2 h0), if_neg (by rintro (h | h) <;> linarith)]
    · rfl
  have hmono : ∀ a b : ℝ, a ≤ b → intWidth (some a) ≤ intWidth (some b) := by
    intro a b hab
    have hfl := Int.floor_le_floor hab
    unfold intWidth
    simp only
    split_ifs <;> omega
  rw [hval nr, hval nr']
  apply hmono
  by_cases h1 : Real.exp 2.119 / (1 + 0.2 * Real.log r) < nr
  · have h1' := lt_of_lt_of_le h1 h
    rw [if_pos h1, if_pos h1']
    have h2 : Real.exp 2.119 < nr * (1 + 0.2 * Real.log r) := by rwa [div_lt_iff₀ hden] at h1
    have h0 : 0 < nr * (1 + 0.2 * Real.log r) := lt_trans (Real.exp_pos _) h2
    have h3 : 2.119 ≤ Real.log (nr * (1 + 0.2 * Real.log r)) := by
      rw [Real.le_log_iff_exp_le h0]; exact h2.le
    refine mul_le_mul_of_nonneg_left (shrink_anti h3 (Real.log_le_log h0 ?_)) hf.le
    exact mul_le_mul_of_nonneg_right h hden.le
  · rw [if_neg h1]
    split
    · rename_i h'
      have h2 : Real.exp 2.119 < nr' * (1 + 0.2 * Real.log r) := by rwa [div_lt_iff₀ hden] at h'
      have h0 : 0 < nr' * (1 + 0.2 * Real.log r) := lt_trans (Real.exp_pos _) h2
      have h3 : 2.119 ≤ Real.log (nr' * (1 + 0.2 * Real.log r)) := by
        rw [Real.le_log_iff_exp_le h0]; exact h2.le
      nlinarith [(shrink_bounds h3).2]
    · exact le_refl _

example : (1 : ℝ) ≤ 1 + (([3, 3, 4] : List ℝ).map fun f => 1 / f).sum ∧ (0 : ℝ) < 3 := by norm_num

/-- **C03 (widths, any response).**  Every channel has an optimal width, of at least one channel, even where the FWHM is undefined. -/
theorem C03_width_total (fwhm counts : List ℝ) : (calcOptimalBinning fwhm counts).length = fwhm.length ∧
    ∀ w ∈ calcOptimalBinning fwhm counts, 1 ≤ w := by
  refine ⟨by simp [calcOptimalBinning], fun w hw => ?_⟩
  unfold calcOptimalBinning at hw
  obtain ⟨i, _, rfl⟩ := List.mem_map.1 hw
  exact intWidth_pos _

/-- **C03 (widths).**  The optimal width of every channel is at least one channel and, apart from that,
never more than the resolution (FWHM) at that channel, whatever the counts. -/
theorem C03_optimal_width (fwhm counts : List ℝ) (hpos : ∀ f ∈ fwhm, 0 < f) :
    (calcOptimalBinning fwhm counts).length = fwhm.length ∧
    (∀ w ∈ calcOptimalBinning fwhm counts, 1 ≤ w) ∧
    ∀ (k w : Nat) (f : ℝ), (calcOptimalBinning fwhm counts)[k]? = some w → fwhm[k]? = some f →
      (w : ℝ) ≤ max 1 f := by
  have hlen : (calcOptimalBinning fwhm counts).length = fwhm.length := by
    simp [calcOptimalBinning]
  refine ⟨hlen, ?_, ?_⟩
  · intro w hw
    unfold calcOptimalBinning at hw
    obtain ⟨i, _, rfl⟩ := List.mem_map.1 hw
    exact intWidth_pos _
  · intro k w f hw hf
    have hk : k < fwhm.length := (List.getElem?_eq_some_iff.1 hf).1
    have hfd : fwhm.getD k 0 = f := by simp [List.getD, hf]
    have hfp : 0 < f := hpos f (List.mem_of_getElem? hf)
    have hR : 1 ≤ 1 + (fwhm.map fun f => 1 / f).sum := by
      have : 0 ≤ (fwhm.map fun f => 1 / f).sum := by
        apply List.sum_nonneg
        intro y hy
        obtain ⟨g, hg, rfl⟩ := List.mem_map.1 hy
        exact (one_div_pos.2 (hpos g hg)).le
      linarith
    unfold calcOptimalBinning at hw
    simp only [List.getElem?_map, List.getElem?_range hk, Option.map_some, Option.some.injEq] at hw
    subst hw
    obtain ⟨b, hb, -, hbf⟩ := channelWidth_le _ (countsPerElement fwhm counts k) f hR hfp
    rw [hfd, hb]
    exact le_trans (intWidth_le b) (max_le_max (le_refl _) hbf)

/-- **C03 (resolution).**  In the grouping computed by `'opt'` from the FWHM and the counts, a group that
contains channel `k` extends at most `FWHM[k]` channels from `k` on (or one, if the FWHM is smaller). -/
theorem C03_group_within_resolution (fwhm counts : List ℝ) (hne : fwhm ≠ [])
    (hpos : ∀ f ∈ fwhm, 0 < f) (a b k : Nat) (f : ℝ)
    (hg : IsGroup (groupOpt (K := ℝ) (calcOptimalBinning fwhm counts) none 0).1 a b)
    (hk1 : a ≤ k) (hk2 : k < b) (hf : fwhm[k]? = some f) : (b : ℝ) - k ≤ max 1 f := by
  obtain ⟨h1, h2, h3⟩ := C03_optimal_width fwhm counts hpos
  have hne' : calcOptimalBinning fwhm counts ≠ [] := by
    intro h
    rw [h] at h1
    exact hne (List.length_eq_zero_iff.1 h1.symm)
  obtain ⟨flags, hfl, hspec⟩ := C03_group_opt (K := ℝ) (calcOptimalBinning fwhm counts) hne' h2
  rw [hfl] at hg
  have hk : k < fwhm.length := (List.getElem?_eq_some_iff.1 hf).1
  have hk' : k < (calcOptimalBinning fwhm counts).length := by omega
  have h4 := hspec.width a b hg k hk1 hk2
  have h5 := h3 k _ f (List.getElem?_eq_getElem hk') hf
  have h6 : (calcOptimalBinning fwhm counts).getD k 0 = (calcOptimalBinning fwhm counts)[k] := by
    simp [List.getD, hk']
  rw [h6] at h4
  have : (b : ℝ) ≤ k + (calcOptimalBinning fwhm counts)[k] := by exact_mod_cast h4
  linarith

/-- Non-vacuity: widths are defined for a concrete response. -/
example : (calcOptimalBinning [3, 3, 4] [10, 0, 2]).length = 3 :=
  (C03_optimal_width [3, 3, 4] [10, 0, 2] (by intro f hf; simp at hf; rcases hf with rfl | rfl <;> norm_num)).1

end Elisa.Grouping
