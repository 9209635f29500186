import Verif.Grouping.Signif
import Mathlib.Tactic.Linarith
import Mathlib.Tactic.NormNum
import Mathlib.Tactic.Positivity
import Mathlib.Tactic.FieldSimp
import Mathlib.Tactic.Ring

/-!
# Properties C10, C11: the significance formulas

Specification: the radicand is twice the log-likelihood ratio, so it must be non-negative and vanish
only without an excess; the sign must be the sign of the excess.
-/

namespace Elisa.Grouping

open Elisa

/-! ### the basic inequality `n log (n / m) ≥ n - m` -/

theorem mul_log_ge {n m : ℝ} (hn : 0 < n) (hm : 0 < m) : n - m ≤ n * Real.log (n / m) := by
  have h := Real.log_le_sub_one_of_pos (div_pos hm hn)
  have h2 : Real.log (n / m) = - Real.log (m / n) := by rw [← Real.log_inv, inv_div]
  rw [h2]
  have : n * (m / n) = m := by field_simp
  nlinarith

theorem mul_log_gt {n m : ℝ} (hn : 0 < n) (hm : 0 < m) (hne : n ≠ m) :
    n - m < n * Real.log (n / m) := by
  have hne' : m / n ≠ 1 := by
    intro h; rw [div_eq_one_iff_eq hn.ne'] at h; exact hne h.symm
  have h := Real.log_lt_sub_one_of_pos (div_pos hm hn) hne'
  have h2 : Real.log (n / m) = - Real.log (m / n) := by rw [← Real.log_inv, inv_div]
  rw [h2]
  have : n * (m / n) = m := by field_simp
  nlinarith

/-- `n log(n/m)` guarded at `n = 0` is at least `n - m`, with equality only for `n = m`. -/
theorem guarded_log_ge {n m : ℝ} (hn : 0 ≤ n) (hm : 0 < m) :
    n - m ≤ (if 0 < n then xlogy n (n / m) else 0) := by
  by_cases h : 0 < n
  · rw [if_pos h, xlogy, if_neg h.ne']; exact mul_log_ge h hm
  · rw [if_neg h]; linarith

theorem guarded_log_eq {n m : ℝ} (hn : 0 ≤ n) (hm : 0 < m) :
    (if 0 < n then xlogy n (n / m) else 0) = n - m ↔ n = m := by
  by_cases h : 0 < n
  · rw [if_pos h, xlogy, if_neg h.ne']
    constructor
    · intro h2
      by_contra hne
      exact absurd h2 (mul_log_gt h hm hne).ne'
    · rintro rfl; rw [div_self h.ne', Real.log_one]; ring
  · have : n = 0 := by linarith
    subst this
    rw [if_neg h]
    constructor
    · intro h; linarith
    · rintro rfl; exact absurd hm h

/-! ## C10 -/

theorem limaTerms_eq {nOn nOff a : ℝ} (h1 : 0 ≤ nOn) (h2 : 0 ≤ nOff) (ha : 0 < a)
    (hpos : 0 < nOn + nOff) :
    limaTerms nOn nOff a =
      (if 0 < nOn then xlogy nOn (nOn / ((nOn + nOff) * (a / (1 + a)))) else 0) +
      (if 0 < nOff then xlogy nOff (nOff / ((nOn + nOff) * (1 / (1 + a)))) else 0) := by
  unfold limaTerms
  have e1 : (1 + a) / a * nOn / (nOn + nOff) = nOn / ((nOn + nOff) * (a / (1 + a))) := by
    field_simp
  have e2 : (1 + a) * nOff / (nOn + nOff) = nOff / ((nOn + nOff) * (1 / (1 + a))) := by
    field_simp
  rw [e1, e2]

theorem limaTerms_nonneg {nOn nOff a : ℝ} (h1 : 0 ≤ nOn) (h2 : 0 ≤ nOff) (ha : 0 < a) :
    0 ≤ limaTerms nOn nOff a := by
  by_cases hpos : 0 < nOn + nOff
  · rw [limaTerms_eq h1 h2 ha hpos]
    have g1 := guarded_log_ge (m := (nOn + nOff) * (a / (1 + a))) h1 (by positivity)
    have g2 := guarded_log_ge (m := (nOn + nOff) * (1 / (1 + a))) h2 (by positivity)
    have : (nOn + nOff) * (a / (1 + a)) + (nOn + nOff) * (1 / (1 + a)) = nOn + nOff := by
      field_simp; ring
    linarith
  · have z1 : nOn = 0 := by linarith
    have z2 : nOff = 0 := by linarith
    subst z1; subst z2
    simp [limaTerms]

theorem limaTerms_zero_iff {nOn nOff a : ℝ} (h1 : 0 ≤ nOn) (h2 : 0 ≤ nOff) (ha : 0 < a) :
    limaTerms nOn nOff a = 0 ↔ nOn = a * nOff := by
  by_cases hpos : 0 < nOn + nOff
  · rw [limaTerms_eq h1 h2 ha hpos]
    have p1 : 0 < (nOn + nOff) * (a / (1 + a)) := by positivity
    have p2 : 0 < (nOn + nOff) * (1 / (1 + a)) := by positivity
    have g1 := guarded_log_ge (m := (nOn + nOff) * (a / (1 + a))) h1 p1
    have g2 := guarded_log_ge (m := (nOn + nOff) * (1 / (1 + a))) h2 p2
    have hsum : (nOn + nOff) * (a / (1 + a)) + (nOn + nOff) * (1 / (1 + a)) = nOn + nOff := by
      field_simp; ring
    constructor
    · intro h
      have e1 := (guarded_log_eq h1 p1).1 (by linarith)
      have : nOn * (1 + a) = (nOn + nOff) * a := by
        rw [e1]
        have : (1 + a) ≠ 0 := by positivity
        rw [← e1]
        field_simp at e1
        linarith
      linarith
    · intro h
      have q1 : nOn = (nOn + nOff) * (a / (1 + a)) := by
        rw [h]; field_simp; ring
      have q2 : nOff = (nOn + nOff) * (1 / (1 + a)) := by
        rw [h]; field_simp; ring
      rw [(guarded_log_eq h1 p1).2 q1, (guarded_log_eq h2 p2).2 q2]
      linarith
  · have z1 : nOn = 0 := by linarith
    have z2 : nOff = 0 := by linarith
    subst z1; subst z2
    simp [limaTerms]

theorem sign_sqrt {c : Prop} [Decidable c] {r : ℝ} (hr : 0 ≤ r) (z : Prop) (hz : r = 0 ↔ z) :
    let S := (if c then (1 : ℝ) else -1) * Real.sqrt (2 * r)
    (S = 0 ↔ z) ∧ (0 < S ↔ c ∧ ¬ z) ∧ (S < 0 ↔ ¬ c ∧ ¬ z) := by
  intro S
  have h0 : S = 0 ↔ r = 0 := by
    simp only [S]
    rw [mul_eq_zero, Real.sqrt_eq_zero (by linarith)]
    constructor
    · rintro (h | h)
      · split at h <;> norm_num at h
      · linarith
    · intro h; right; linarith
  have hsq : ¬ z → 0 < Real.sqrt (2 * r) := by
    intro h
    apply Real.sqrt_pos.2
    have : r ≠ 0 := fun h' => h (hz.1 h')
    have := lt_of_le_of_ne hr (Ne.symm this)
    linarith
  refine ⟨h0.trans hz, ?_, ?_⟩
  · constructor
    · intro h
      have hz' : ¬ z := fun h' => h.ne' ((h0.trans hz).2 h')
      refine ⟨?_, hz'⟩
      by_contra hc
      simp only [S, if_neg hc] at h
      have := hsq hz'
      linarith
    · rintro ⟨hc, h⟩
      simp only [S, if_pos hc, one_mul]; exact hsq h
  · constructor
    · intro h
      have hz' : ¬ z := fun h' => h.ne ((h0.trans hz).2 h')
      refine ⟨?_, hz'⟩
      intro hc
      simp only [S, if_pos hc] at h
      have := hsq hz'
      linarith
    · rintro ⟨hc, h⟩
      simp only [S, if_neg hc]
      have := hsq h
      linarith

/-- **C10.**  For all non-negative counts and every positive ratio the quantity under the square root
is non-negative (twice it is the square of the significance, so nothing is lost), and the significance
is zero, positive, negative exactly when there is no excess, an excess, a deficit. -/
theorem C10_lima (nOn nOff a : ℝ) (h1 : 0 ≤ nOn) (h2 : 0 ≤ nOff) (ha : 0 < a) :
    0 ≤ limaTerms nOn nOff a ∧
    significanceLima nOn nOff a ^ 2 = 2 * limaTerms nOn nOff a ∧
    (significanceLima nOn nOff a = 0 ↔ nOn = a * nOff) ∧
    (0 < significanceLima nOn nOff a ↔ a * nOff < nOn) ∧
    (significanceLima nOn nOff a < 0 ↔ nOn < a * nOff) := by
  have hr := limaTerms_nonneg h1 h2 ha
  have hs := sign_sqrt (c := a * nOff ≤ nOn) hr (nOn = a * nOff) (limaTerms_zero_iff h1 h2 ha)
  simp only at hs
  refine ⟨hr, ?_, ?_, ?_, ?_⟩
  · unfold significanceLima
    rw [mul_pow, Real.sq_sqrt (by linarith)]
    split <;> norm_num
  · exact hs.1
  · unfold significanceLima
    rw [hs.2.1]
    constructor
    · rintro ⟨h, h'⟩; exact lt_of_le_of_ne h (Ne.symm h')
    · intro h; exact ⟨h.le, h.ne'⟩
  · unfold significanceLima
    rw [hs.2.2]
    constructor
    · rintro ⟨h, _⟩; exact not_le.1 h
    · intro h; exact ⟨not_le.2 h, h.ne⟩

/-- Twice the Li-Ma radicand is the log-likelihood ratio of Li & Ma (1983), eq. 17: the best-fit of
two independent Poisson means against a common background with ratio `a`. -/
theorem C10_lima_likelihood_ratio (nOn nOff a : ℝ) (h1 : 0 < nOn) (h2 : 0 < nOff) (ha : 0 < a) :
    limaTerms nOn nOff a =
      (nOn * Real.log nOn - nOn + (nOff * Real.log nOff - nOff)) -
      (nOn * Real.log (a * ((nOn + nOff) / (1 + a))) - a * ((nOn + nOff) / (1 + a)) +
        (nOff * Real.log ((nOn + nOff) / (1 + a)) - (nOn + nOff) / (1 + a))) := by
  rw [limaTerms_eq h1.le h2.le ha (by linarith), if_pos h1, if_pos h2, xlogy, xlogy, if_neg h1.ne',
    if_neg h2.ne', Real.log_div h1.ne' (by positivity), Real.log_div h2.ne' (by positivity)]
  have e1 : (nOn + nOff) * (a / (1 + a)) = a * ((nOn + nOff) / (1 + a)) := by ring
  have e2 : (nOn + nOff) * (1 / (1 + a)) = (nOn + nOff) / (1 + a) := by ring
  rw [e1, e2]
  have : a * ((nOn + nOff) / (1 + a)) + (nOn + nOff) / (1 + a) = nOn + nOff := by field_simp; ring
  linarith

/-- Non-vacuity: an excess. -/
example : 0 < significanceLima 30 20 (1 / 2) :=
  ((C10_lima 30 20 (1 / 2) (by norm_num) (by norm_num) (by norm_num)).2.2.2.1).2 (by norm_num)

/-! ## C11 -/

/-- Minus the log-likelihood of `n` Poisson counts and a Gaussian background estimate `b ± s`, for a
true background `B` and no source (up to a constant that makes it vanish for a perfect match) (specification, models no code). -/
noncomputable def backLoss (n b s B : ℝ) : ℝ :=
  (if 0 < n then n * Real.log (n / B) else 0) + (B - n) + (b - B) ^ 2 / (2 * s ^ 2)

theorem gvBackground_spec {n b s : ℝ} (hn : 0 ≤ n) (hs : 0 < s) :
    0 ≤ gvBackground n b s ∧ (0 < n → 0 < gvBackground n b s) ∧
    (gvBackground n b s * gvBackground n b s - (b - s * s) * gvBackground n b s - n * (s * s) = 0) ∧
    b - s * s ≤ gvBackground n b s := by
  have hs2 : 0 < s * s := by positivity
  set D := b * b - 2 * b * (s * s) + 4 * n * (s * s) + s * s * (s * s) with hD
  have hDe : D = (b - s * s) ^ 2 + 4 * (n * (s * s)) := by rw [hD]; ring
  have hDn : 0 ≤ D := by rw [hDe]; positivity
  have hq := Real.sq_sqrt hDn
  have hq0 := Real.sqrt_nonneg D
  have hge : |b - s * s| ≤ Real.sqrt D := by
    apply Real.le_sqrt_of_sq_le
    rw [sq_abs, hDe]
    have : 0 ≤ n * (s * s) := by positivity
    linarith
  have h1 := abs_le.1 hge
  have hnn : 0 ≤ 0.5 * (b - s * s + Real.sqrt D) := by
    have := h1.1; norm_num; linarith
  have hval : gvBackground n b s = 0.5 * (b - s * s + Real.sqrt D) := by
    unfold gvBackground
    rw [← hD, max_eq_left hnn]
  rw [hval]
  refine ⟨hnn, ?_, ?_, ?_⟩
  · intro hnp
    have hgt : |b - s * s| < Real.sqrt D := by
      apply Real.lt_sqrt_of_sq_lt
      rw [sq_abs, hDe]
      have : 0 < n * (s * s) := by positivity
      linarith
    have := (abs_lt.1 hgt).1
    norm_num
    linarith
  · have : (0.5 : ℝ) = 1 / 2 := by norm_num
    rw [this]
    nlinarith
  · have := h1.2
    norm_num
    linarith

/-- **C11 (profile).**  The internal background is the non-negative background that minimises the loss,
i.e. maximises the likelihood; the radicand is the minimum. -/
theorem C11_profile (n b s : ℝ) (hn : 0 ≤ n) (hs : 0 < s) :
    0 ≤ gvBackground n b s ∧ gvTerms n b s = backLoss n b s (gvBackground n b s) ∧
    ∀ B, 0 ≤ B → (0 < n → 0 < B) → backLoss n b s (gvBackground n b s) ≤ backLoss n b s B := by
  obtain ⟨h0, hp, heq, hge⟩ := gvBackground_spec (b := b) hn hs
  refine ⟨h0, ?_, ?_⟩
  · unfold gvTerms backLoss
    by_cases h : 0 < n
    · rw [if_pos h, if_pos h, xlogy, if_neg h.ne', sq s]
    · rw [if_neg h, if_neg h, sq s]
  · intro B hB hBp
    set B0 := gvBackground n b s with hB0
    unfold backLoss
    have hs2 : 0 < s ^ 2 := by positivity
    by_cases h : 0 < n
    · rw [if_pos h, if_pos h]
      have hBpos := hBp h
      have hB0pos := hp h
      have hl : n * Real.log (n / B) - n * Real.log (n / B0) = - (n * Real.log (B / B0)) := by
        rw [Real.log_div h.ne' hBpos.ne', Real.log_div h.ne' hB0pos.ne',
          Real.log_div hBpos.ne' hB0pos.ne']
        ring
      have hl2 := Real.log_le_sub_one_of_pos (div_pos hBpos hB0pos)
      have hkey : n * Real.log (B / B0) ≤ n * (B / B0 - 1) := mul_le_mul_of_nonneg_left hl2 h.le
      have hstat : n / B0 = 1 + (B0 - b) / s ^ 2 := by
        field_simp
        nlinarith
      have hlin : n * (B / B0 - 1) = (1 + (B0 - b) / s ^ 2) * (B - B0) := by
        rw [← hstat]; field_simp
      have hsq : (b - B) ^ 2 / (2 * s ^ 2) - (b - B0) ^ 2 / (2 * s ^ 2)
          = (B - B0) ^ 2 / (2 * s ^ 2) + (B0 - b) / s ^ 2 * (B - B0) := by
        field_simp; ring
      have hpos : 0 ≤ (B - B0) ^ 2 / (2 * s ^ 2) := by positivity
      nlinarith
    · have hn0 : n = 0 := by linarith
      subst hn0
      rw [if_neg h, if_neg h]
      -- B0 = 0 or B0 = b - s²
      have hB0c : B0 = 0 ∨ B0 = b - s * s := by
        have : B0 * (B0 - (b - s * s)) = 0 := by nlinarith
        rcases mul_eq_zero.1 this with h | h
        · exact Or.inl h
        · exact Or.inr (by linarith)
      have hsq : (b - B) ^ 2 / (2 * s ^ 2) - (b - B0) ^ 2 / (2 * s ^ 2)
          = (B - B0) ^ 2 / (2 * s ^ 2) + (B0 - b) / s ^ 2 * (B - B0) := by
        field_simp; ring
      have hpos : 0 ≤ (B - B0) ^ 2 / (2 * s ^ 2) := by positivity
      have hgoal : 0 ≤ (B - B0) + (B0 - b) / s ^ 2 * (B - B0) := by
        have hx : (B - B0) + (B0 - b) / s ^ 2 * (B - B0) = (B - B0) * ((B0 - (b - s * s)) / s ^ 2) := by
          field_simp; ring
        rw [hx]
        rcases hB0c with h | h
        · rw [h]
          have : 0 ≤ (0 - (b - s * s)) := by linarith
          have h2 : 0 ≤ (0 - (b - s * s)) / s ^ 2 := div_nonneg this hs2.le
          have : 0 ≤ B - 0 := by linarith
          positivity
        · have : (B0 - (b - s * s)) = 0 := by linarith
          rw [this]; simp
      linarith

example := C11_profile 3 10 2 (by norm_num) (by norm_num)

theorem gvTerms_nonneg_zero {n b s : ℝ} (hn : 0 ≤ n) (hs : 0 < s) :
    0 ≤ gvTerms n b s ∧ (gvTerms n b s = 0 ↔ n = b) := by
  obtain ⟨h0, hp, heq, hge⟩ := gvBackground_spec (b := b) hn hs
  set B0 := gvBackground n b s with hB0
  have hq : 0 ≤ (b - B0) ^ 2 / (2 * (s * s)) := by positivity
  have hk : 0 ≤ (if 0 < n then xlogy n (n / B0) else 0) + (B0 - n) := by
    by_cases h : 0 < n
    · have := guarded_log_ge hn (hp h); linarith
    · rw [if_neg h]; linarith
  have hT : gvTerms n b s = (if 0 < n then xlogy n (n / B0) else 0) + (B0 - n) +
      (b - B0) ^ 2 / (2 * (s * s)) := rfl
  refine ⟨by rw [hT]; linarith, ?_⟩
  constructor
  · intro h
    rw [hT] at h
    have h1 : (b - B0) ^ 2 / (2 * (s * s)) = 0 := by linarith
    have h2 : (if 0 < n then xlogy n (n / B0) else 0) + (B0 - n) = 0 := by linarith
    have hbB : b = B0 := by
      have h3 : 2 * (s * s) ≠ 0 := by positivity
      rcases div_eq_zero_iff.1 h1 with h | h
      · have := pow_eq_zero_iff (two_ne_zero) |>.1 h; linarith
      · exact absurd h h3
    by_cases hnp : 0 < n
    · have := (guarded_log_eq hn (hp hnp)).1 (by linarith)
      linarith
    · rw [if_neg hnp] at h2; linarith
  · rintro rfl
    -- n = b: the background is exactly n
    have hBn : B0 = n := by
      have : (B0 - n) * (B0 + s * s) = 0 := by nlinarith
      rcases mul_eq_zero.1 this with h | h
      · linarith
      · have : 0 < B0 + s * s := by positivity
        linarith
    rw [hT, hBn]
    by_cases hnp : 0 < n
    · rw [if_pos hnp, xlogy, if_neg hnp.ne', div_self hnp.ne', Real.log_one]; simp
    · rw [if_neg hnp]; simp

/-- **C11.**  For all counts, background estimates (negative ones included), positive background errors and ratios the radicand is
non-negative and the significance has the sign of the excess over the scaled background. -/
theorem C11_gv (n b s a : ℝ) (hn : 0 ≤ n) (hs : 0 < s) (ha : 0 < a) :
    0 ≤ gvTerms n (b * a) (s * a) ∧
    significanceGv n b s a ^ 2 = 2 * gvTerms n (b * a) (s * a) ∧
    (significanceGv n b s a = 0 ↔ n = b * a) ∧
    (0 < significanceGv n b s a ↔ b * a < n) ∧
    (significanceGv n b s a < 0 ↔ n < b * a) := by
  obtain ⟨hr, hz⟩ := gvTerms_nonneg_zero (n := n) (b := b * a) (s := s * a) hn
    (by positivity)
  have hs' := sign_sqrt (c := b * a ≤ n) hr (n = b * a) hz
  simp only at hs'
  refine ⟨hr, ?_, hs'.1, ?_, ?_⟩
  · unfold significanceGv
    rw [mul_pow, Real.sq_sqrt (by linarith)]
    split <;> norm_num
  · unfold significanceGv
    rw [hs'.2.1]
    constructor
    · rintro ⟨h, h'⟩; exact lt_of_le_of_ne h (Ne.symm h')
    · intro h; exact ⟨h.le, h.ne'⟩
  · unfold significanceGv
    rw [hs'.2.2]
    constructor
    · rintro ⟨h, _⟩; exact not_le.1 h
    · intro h; exact ⟨not_le.2 h, h.ne⟩

/-- Non-vacuity: a deficit. -/
example : significanceGv 3 10 2 (1 / 2) < 0 :=
  ((C11_gv 3 10 2 (1 / 2) (by norm_num) (by norm_num) (by norm_num)).2.2.2.2).2
    (by norm_num)

end Elisa.Grouping
