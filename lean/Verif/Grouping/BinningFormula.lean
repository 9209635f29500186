import Verif.Grouping.Binning
import Mathlib.Algebra.Order.Round
import Mathlib.Tactic

/-!
# C03, third part: the optimal widths are those of Kaastra & Bleeker (2016), as documented
-/

namespace Elisa.Grouping.KB

open Elisa Elisa.Grouping

/-! ### Specification: the formula of the comment at grouping.py:105-112 -/

/-- `n` is `x` rounded to the nearest integer, to the even one of two (specification, models no code). -/
def Rounded (x : ℝ) (n : ℤ) : Prop := |x - n| ≤ 1 / 2 ∧ (|x - n| = 1 / 2 → Even n)

/-- Bin size over FWHM, as documented: `1` if `x ≤ 2.119`, else `(0.08 + 7/x + 1.8/x²)/(1 + 5.9/x)` (specification, models no code). -/
noncomputable def documented (x : ℝ) : ℝ :=
  if x ≤ 2.119 then 1 else (0.08 + 7 / x + 1.8 / x ^ 2) / (1 + 5.9 / x)

/-- The counts within half a FWHM of channel `i`, rounded to whole channels (specification, models no code). -/
noncomputable def near (counts : List ℝ) (lo hi : ℤ) : ℝ :=
  ∑ k ∈ (Finset.range counts.length).filter (fun k : Nat => lo ≤ (k : ℤ) ∧ (k : ℤ) ≤ hi), counts.getD k 0

/-! ### Lemmas -/

theorem rounded_roundEven (x : ℝ) : Rounded x (roundEven x) := by
  have h1 := Int.floor_le x
  have h2 := Int.lt_floor_add_one x
  unfold roundEven Rounded
  split_ifs with h h' h''
  · rw [abs_of_nonneg (by linarith)]
    exact ⟨h.le, fun he => absurd he (by linarith)⟩
  · push_cast
    rw [abs_of_nonpos (by linarith)]
    exact ⟨by linarith, fun he => absurd he (by linarith)⟩
  · rw [abs_of_nonneg (by linarith)]
    exact ⟨by linarith, fun _ => Int.even_iff.2 h''⟩
  · push_cast
    rw [abs_of_nonpos (by linarith)]
    refine ⟨by linarith, fun _ => Int.even_iff.2 (by omega)⟩

theorem rounded_unique {x : ℝ} {m n : ℤ} (hm : Rounded x m) (hn : Rounded x n) : m = n := by
  obtain ⟨a1, a2⟩ := hm
  obtain ⟨b1, b2⟩ := hn
  have ha := abs_le.1 a1
  have hb := abs_le.1 b1
  have h1 : (m : ℝ) - n ≤ 1 := by linarith
  have h2 : (n : ℝ) - m ≤ 1 := by linarith
  have h1' : m - n ≤ 1 := by exact_mod_cast h1
  have h2' : n - m ≤ 1 := by exact_mod_cast h2
  by_contra hne
  have hcase : m = n + 1 ∨ n = m + 1 := by omega
  rcases hcase with h | h
  · have hx : x - m = -(1 / 2) := by
      have : (m : ℝ) = n + 1 := by exact_mod_cast h
      linarith
    have hx' : x - n = 1 / 2 := by
      have : (m : ℝ) = n + 1 := by exact_mod_cast h
      linarith
    have e1 := a2 (by rw [hx]; norm_num [abs_of_pos])
    have e2 := b2 (by rw [hx']; norm_num [abs_of_pos])
    rw [Int.even_iff] at e1 e2
    omega
  · have hx : x - n = -(1 / 2) := by
      have : (n : ℝ) = m + 1 := by exact_mod_cast h
      linarith
    have hx' : x - m = 1 / 2 := by
      have : (n : ℝ) = m + 1 := by exact_mod_cast h
      linarith
    have e1 := b2 (by rw [hx]; norm_num [abs_of_pos])
    have e2 := a2 (by rw [hx']; norm_num [abs_of_pos])
    rw [Int.even_iff] at e1 e2
    omega

theorem near_eq (counts : List ℝ) (lo hi : ℤ) (n : Nat) (hn : counts.length = n) :
    sliceSum counts (max 0 lo).toNat (min (n : ℤ) hi + 1).toNat = near counts lo hi := by
  rw [← total_eq_sliceSum]
  unfold total near
  have hz : ∀ k, counts.length ≤ k → counts.getD k 0 = 0 := fun k hk => by
    rw [List.getD_eq_default _ _ hk]
  subst hn
  rw [show (Finset.Ico (max 0 lo).toNat (min (counts.length : ℤ) hi + 1).toNat)
      = (Finset.range (counts.length + 1)).filter (fun k : Nat => lo ≤ (k : ℤ) ∧ (k : ℤ) ≤ hi) from ?_]
  · rw [Finset.sum_filter, Finset.sum_filter, Finset.sum_range_succ, hz _ (le_refl _)]
    simp
  · ext k
    simp only [Finset.mem_Ico, Finset.mem_filter, Finset.mem_range]
    omega

theorem documented_shrink {x : ℝ} (hx : 2.119 < x) : documented x = shrink x := by
  have h0 : 0 < x := by linarith
  unfold documented shrink
  rw [if_neg (not_le.2 hx)]
  have h1 : 1 + 5.9 / x ≠ 0 := by positivity
  have h2 : x + 5.9 ≠ 0 := by positivity
  field_simp

/-! ### The property -/

/-- **C03 (the formula).**  For a response with a defined FWHM everywhere, the width of the optimal bin at channel `i` is the documented one: with
`N` the counts within half a FWHM of the channel, times 1.314, and `R` the number of resolution elements (plus one), it is the whole part of the
FWHM times the documented factor of `ln (N (1 + 0.2 ln R))`, and at least one channel; with no counts it is the FWHM. -/
theorem C03_formula (fwhm counts : List ℝ) (hpos : ∀ f ∈ fwhm, 0 < f) (hlen : counts.length = fwhm.length) (i : Nat) (f : ℝ)
    (hf : fwhm[i]? = some f) (lo hi : ℤ) (hlo : Rounded (i - f / 2) lo) (hhi : Rounded (i + f / 2) hi) (N c : ℝ)
    (hN : N = 1.314 * near counts lo hi) (hc : c = 1 + 0.2 * Real.log (1 + (fwhm.map fun f => 1 / f).sum)) :
    (calcOptimalBinning fwhm counts)[i]? =
      some (max 1 ⌊f * (if N ≤ 0 then 1 else documented (Real.log (N * c)))⌋).toNat := by
  have hi' : i < fwhm.length := (List.getElem?_eq_some_iff.1 hf).1
  have hfd : fwhm.getD i 0 = f := by simp [List.getD, hf]
  have hR : 1 ≤ 1 + (fwhm.map fun f => 1 / f).sum := by
    have : 0 ≤ (fwhm.map fun f => 1 / f).sum := by
      apply List.sum_nonneg
      intro y hy
      obtain ⟨g, hg, rfl⟩ := List.mem_map.1 hy
      exact (one_div_pos.2 (hpos g hg)).le
    linarith
  have hlog : 0 ≤ Real.log (1 + (fwhm.map fun f => 1 / f).sum) := Real.log_nonneg hR
  have hcpos : 0 < c := by rw [hc]; positivity
  have e1 : roundEven ((i : ℝ) - 0.5 * f) = lo := rounded_unique (rounded_roundEven _) (by
    have : (i : ℝ) - 0.5 * f = i - f / 2 := by ring
    rwa [this])
  have e2 : roundEven ((i : ℝ) + 0.5 * f) = hi := rounded_unique (rounded_roundEven _) (by
    have : (i : ℝ) + 0.5 * f = i + f / 2 := by ring
    rwa [this])
  have hNr : countsPerElement fwhm counts i = N := by
    unfold countsPerElement
    dsimp only
    rw [hfd, e1, e2, near_eq counts lo hi fwhm.length hlen, hN]
  unfold calcOptimalBinning
  simp only [List.getElem?_map, List.getElem?_range hi', Option.map_some, hNr, hfd]
  have hw : channelWidth (1 + (fwhm.map fun f => 1 / f).sum) N f =
      some (f * (if N ≤ 0 then 1 else documented (Real.log (N * c)))) := by
    unfold channelWidth
    rw [if_neg (by linarith), if_neg (by linarith)]
    simp only
    rw [← hc, if_neg hcpos.ne']
    by_cases hbig : Real.exp 2.119 / c < N
    · have h2 : Real.exp 2.119 < N * c := by rwa [div_lt_iff₀ hcpos] at hbig
      have h0 : 0 < N * c := lt_trans (Real.exp_pos _) h2
      have hN0 : 0 < N := lt_trans (by positivity) hbig
      have h3 : 2.119 < Real.log (N * c) := by
        rw [Real.lt_log_iff_exp_lt h0]; exact h2
      rw [if_pos hbig, if_neg (not_le.2 h0), if_neg (by rintro (h | h) <;> linarith), if_neg (not_le.2 hN0), documented_shrink h3]
    · rw [if_neg hbig]
      by_cases hN0 : N ≤ 0
      · rw [if_pos hN0, mul_one]
      · rw [if_neg hN0]
        have h0 : 0 < N * c := mul_pos (not_le.1 hN0) hcpos
        have h2 : N * c ≤ Real.exp 2.119 := by
          rw [← le_div_iff₀ hcpos]; exact not_lt.1 hbig
        have h3 : Real.log (N * c) ≤ 2.119 := by
          rw [Real.log_le_iff_le_exp h0]; exact h2
        unfold documented
        rw [if_pos h3, mul_one]
  rw [hw]
  congr 1
  unfold intWidth
  dsimp only
  split_ifs <;> omega

/-- Non-vacuity: three channels of FWHM 3, 3, 4 with a count each; for the middle one the counts of all of them are used. -/
example : (∀ f ∈ ([3, 3, 4] : List ℝ), 0 < f) ∧ Rounded (((1 : Nat) : ℝ) - 3 / 2) 0 ∧ Rounded (((1 : Nat) : ℝ) + 3 / 2) 2 ∧
    near [5, 6, 7] 0 2 = 18 := by
  refine ⟨by simp, ?_, ?_, ?_⟩
  · norm_num [Rounded, abs_of_neg]
  · refine ⟨by norm_num [abs_of_pos], fun _ => ⟨1, by norm_num⟩⟩
  · norm_num [near, Finset.sum_filter, Finset.sum_range_succ]

/-- **C03 (no jump).**  The documented factor has no visible jump at 2.119: just above it, the factor is within 0.0001 of one; and it decreases from there
towards 0.08, which is its limit for very bright spectra. -/
theorem C03_factor {x : ℝ} (hx : 2.119 ≤ x) : 0.08 < shrink x ∧ shrink x ≤ 1 ∧ 0.9999 < shrink 2.119 ∧
    shrink x - 0.08 ≤ 8 / x := by
  have h0 : 0 < x := by linarith
  refine ⟨?_, (shrink_bounds hx).2, ?_, ?_⟩
  · unfold shrink
    rw [lt_div_iff₀ (by positivity)]
    have : 0 < 1.8 / x := by positivity
    nlinarith
  · unfold shrink; norm_num
  · unfold shrink
    have h1 : 1.8 / x ≤ 0.85 := by rw [div_le_iff₀ h0]; linarith
    rw [sub_le_iff_le_add, div_le_iff₀ (by positivity)]
    have : (8 / x + 0.08) * (x + 5.9) = 8 + 47.2 / x + 0.08 * x + 0.472 := by field_simp; ring
    rw [this]
    have : 0 < 47.2 / x := by positivity
    linarith

example : (2.119 : ℝ) ≤ 10 := by norm_num

end Elisa.Grouping.KB
