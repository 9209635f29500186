import Verif.Infer.LikSpec
import Verif.Grouping.SigValue

/-!
# Properties C22, C23, C24, C25: the fit statistics
-/

namespace Elisa.Infer

open Elisa Elisa.Grouping

/-! ## the Poisson likelihood is log-concave -/

theorem poisLik_pos {n μ : ℝ} (hμ : 0 < μ) : 0 < poisLik n μ :=
  mul_pos (Real.rpow_pos_of_pos hμ n) (Real.exp_pos _)

theorem poisLik_nonneg {n μ : ℝ} (hμ : 0 ≤ μ) : 0 ≤ poisLik n μ :=
  mul_nonneg (Real.rpow_nonneg hμ n) (Real.exp_pos _).le

/-- tangent inequality: for `μ₀ > 0` (or `n = 0`) -/
theorem poisLik_le {n μ μ₀ : ℝ} (hn : 0 ≤ n) (hμ : 0 ≤ μ) (h0 : 0 < μ₀ ∨ n = 0) :
    poisLik n μ ≤ poisLik n μ₀ * Real.exp ((n / μ₀ - 1) * (μ - μ₀)) := by
  unfold poisLik
  rcases hn.eq_or_lt with rfl | hn
  · rw [Real.rpow_zero, Real.rpow_zero, one_mul, one_mul, ← Real.exp_add]
    apply le_of_eq; congr 1; ring
  · have hμ0 : 0 < μ₀ := by
      rcases h0 with h | h
      · exact h
      · exact absurd h hn.ne'
    rcases hμ.eq_or_lt with rfl | hμ
    · rw [Real.zero_rpow hn.ne', zero_mul]
      positivity
    · have hdiv : 0 < μ / μ₀ := by positivity
      have h1 := Real.log_le_sub_one_of_pos hdiv
      have h2 : μ ^ n = μ₀ ^ n * Real.exp (n * Real.log (μ / μ₀)) := by
        rw [Real.rpow_def_of_pos hμ, Real.rpow_def_of_pos hμ0, ← Real.exp_add,
          Real.log_div hμ.ne' hμ0.ne']
        congr 1; ring
      rw [h2, mul_assoc, mul_assoc, ← Real.exp_add, ← Real.exp_add]
      apply mul_le_mul_of_nonneg_left _ (Real.rpow_nonneg hμ0.le n)
      apply Real.exp_le_exp.2
      have : n * Real.log (μ / μ₀) ≤ n * (μ / μ₀ - 1) := mul_le_mul_of_nonneg_left h1 hn.le
      have e : n * (μ / μ₀ - 1) = n / μ₀ * (μ - μ₀) := by field_simp
      rw [e] at this
      linarith

theorem poisLik_lt {n μ μ₀ : ℝ} (hn : 0 < n) (hμ : 0 ≤ μ) (h0 : 0 < μ₀) (hne : μ ≠ μ₀) :
    poisLik n μ < poisLik n μ₀ * Real.exp ((n / μ₀ - 1) * (μ - μ₀)) := by
  unfold poisLik
  rcases hμ.eq_or_lt with rfl | hμ
  · rw [Real.zero_rpow hn.ne', zero_mul]
    have := Real.rpow_pos_of_pos h0 n
    positivity
  · have hdiv : 0 < μ / μ₀ := by positivity
    have h1 := Real.log_lt_sub_one_of_pos hdiv (by
      intro h; rw [div_eq_one_iff_eq h0.ne'] at h; exact hne h)
    have h2 : μ ^ n = μ₀ ^ n * Real.exp (n * Real.log (μ / μ₀)) := by
      rw [Real.rpow_def_of_pos hμ, Real.rpow_def_of_pos h0, ← Real.exp_add,
        Real.log_div hμ.ne' h0.ne']
      congr 1; ring
    rw [h2, mul_assoc, mul_assoc, ← Real.exp_add, ← Real.exp_add]
    apply mul_lt_mul_of_pos_left _ (Real.rpow_pos_of_pos h0 n)
    apply Real.exp_lt_exp.2
    have : n * Real.log (μ / μ₀) < n * (μ / μ₀ - 1) := mul_lt_mul_of_pos_left h1 hn
    have e : n * (μ / μ₀ - 1) = n / μ₀ * (μ - μ₀) := by field_simp
    rw [e] at this
    linarith

/-! ## C22 -/

/-- sufficient condition for the conditional maximum: gradient `g` of the log-likelihood at `b₀` -/
theorem onOff_max {n m s a b₀ b : ℝ} (hs : 0 ≤ s) (hn : 0 ≤ n) (hm : 0 ≤ m) (ha : 0 < a) (hb₀ : 0 ≤ b₀)
    (hb : 0 ≤ b) (h1 : 0 < s + a * b₀ ∨ n = 0) (h2 : 0 < b₀ ∨ m = 0)
    (hg : (a * (n / (s + a * b₀) - 1) + (m / b₀ - 1)) * (b - b₀) ≤ 0)
    (hgs : n = 0 → m = 0 → (a * (n / (s + a * b₀) - 1) + (m / b₀ - 1)) * (b - b₀) < 0 ∨ b = b₀)
    (hne : b ≠ b₀) :
    onOffLik n m s a b < onOffLik n m s a b₀ := by
  unfold onOffLik
  have hμ : 0 ≤ s + a * b := by positivity
  have hμ₀ : 0 ≤ s + a * b₀ := by positivity
  have l1 := poisLik_le hn hμ h1
  have l2 := poisLik_le hm hb h2
  have hprod : poisLik n (s + a * b₀) * poisLik m b₀ *
      Real.exp ((a * (n / (s + a * b₀) - 1) + (m / b₀ - 1)) * (b - b₀)) =
      (poisLik n (s + a * b₀) * Real.exp ((n / (s + a * b₀) - 1) * (s + a * b - (s + a * b₀)))) *
      (poisLik m b₀ * Real.exp ((m / b₀ - 1) * (b - b₀))) := by
    have : Real.exp ((a * (n / (s + a * b₀) - 1) + (m / b₀ - 1)) * (b - b₀)) =
        Real.exp ((n / (s + a * b₀) - 1) * (s + a * b - (s + a * b₀))) *
        Real.exp ((m / b₀ - 1) * (b - b₀)) := by
      rw [← Real.exp_add]; congr 1; ring
    rw [this]; ring
  have p1 : 0 < poisLik n (s + a * b₀) := by
    rcases h1 with h | rfl
    · exact poisLik_pos h
    · unfold poisLik; rw [Real.rpow_zero]; positivity
  have p2 : 0 < poisLik m b₀ := by
    rcases h2 with h | rfl
    · exact poisLik_pos h
    · unfold poisLik; rw [Real.rpow_zero]; positivity
  have hexp : Real.exp ((a * (n / (s + a * b₀) - 1) + (m / b₀ - 1)) * (b - b₀)) ≤ 1 :=
    Real.exp_le_one_iff.2 hg
  by_cases hn0 : n = 0
  · by_cases hm0 : m = 0
    · have hlt := (hgs hn0 hm0).resolve_right hne
      calc _ ≤ _ := mul_le_mul l1 l2 (poisLik_nonneg hb) (by positivity)
        _ = _ := hprod.symm
        _ < poisLik n (s + a * b₀) * poisLik m b₀ * 1 := by
          apply mul_lt_mul_of_pos_left _ (mul_pos p1 p2)
          have := Real.exp_lt_exp.2 hlt
          rwa [Real.exp_zero] at this
        _ = _ := mul_one _
    · have hm' : 0 < m := lt_of_le_of_ne hm (Ne.symm hm0)
      have l2' := poisLik_lt hm' hb (h2.resolve_right hm0) hne
      calc _ ≤ (poisLik n (s + a * b₀) * Real.exp ((n / (s + a * b₀) - 1) * (s + a * b - (s + a * b₀)))) *
            poisLik m b := mul_le_mul_of_nonneg_right l1 (poisLik_nonneg hb)
        _ < _ := mul_lt_mul_of_pos_left l2' (by positivity)
        _ = _ := hprod.symm
        _ ≤ poisLik n (s + a * b₀) * poisLik m b₀ * 1 :=
          mul_le_mul_of_nonneg_left hexp (mul_pos p1 p2).le
        _ = _ := mul_one _
  · have hn' : 0 < n := lt_of_le_of_ne hn (Ne.symm hn0)
    have l1' := poisLik_lt hn' hμ (h1.resolve_right hn0) (by
      intro h
      have : a * b = a * b₀ := by linarith
      exact hne (mul_left_cancel₀ ha.ne' this))
    calc _ ≤ poisLik n (s + a * b) * (poisLik m b₀ * Real.exp ((m / b₀ - 1) * (b - b₀))) :=
          mul_le_mul_of_nonneg_left l2 (poisLik_nonneg hμ)
      _ < _ := mul_lt_mul_of_pos_right l1' (by positivity)
      _ = _ := hprod.symm
      _ ≤ poisLik n (s + a * b₀) * poisLik m b₀ * 1 :=
        mul_le_mul_of_nonneg_left hexp (mul_pos p1 p2).le
      _ = _ := mul_one _

/-- the facts about the closed form that make it the maximiser -/
theorem wstatBackground_facts {s n m a : ℝ} (hs : 0 ≤ s) (hn : 0 ≤ n) (hm : 0 ≤ m) (ha : 0 < a) :
    0 ≤ wstatBackground s n m a ∧ (0 < s + a * wstatBackground s n m a ∨ n = 0) ∧
    (0 < wstatBackground s n m a ∨ m = 0) ∧
    ((a * (n / (s + a * wstatBackground s n m a) - 1) + (m / wstatBackground s n m a - 1) = 0 ∧
        (n ≠ 0 ∨ m ≠ 0)) ∨
      (wstatBackground s n m a = 0 ∧
        a * (n / (s + a * wstatBackground s n m a) - 1) + (m / wstatBackground s n m a - 1) < 0)) := by
  unfold wstatBackground
  by_cases hn0 : n = 0
  · simp only [hn0, if_true]
    by_cases hm0 : m = 0
    · subst hm0
      simp only [zero_div]
      refine ⟨le_refl _, Or.inr trivial, Or.inr trivial, Or.inr ⟨trivial, by linarith⟩⟩
    · have hm' : 0 < m := lt_of_le_of_ne hm (Ne.symm hm0)
      have hp : 0 < m / (1 + a) := by positivity
      refine ⟨hp.le, Or.inr trivial, Or.inl hp, Or.inl ⟨?_, Or.inr hm0⟩⟩
      have : m / (m / (1 + a)) = 1 + a := by field_simp
      rw [this, zero_div]; ring
  · have hn' : 0 < n := lt_of_le_of_ne hn (Ne.symm hn0)
    simp only [hn0, if_false]
    by_cases hm0 : m = 0
    · simp only [hm0, if_true]
      by_cases hle : s ≤ a / (a + 1) * n
      · simp only [hle, if_true]
        have hb : n / (1 + a) - s / a = (a / (a + 1) * n - s) / a := by field_simp; ring
        have hμ : s + a * (n / (1 + a) - s / a) = a * n / (1 + a) := by field_simp; ring
        have hnn : 0 ≤ n / (1 + a) - s / a := by
          rw [hb]; apply div_nonneg _ ha.le; linarith
        have hpos : 0 < a * n / (1 + a) := by positivity
        refine ⟨hnn, Or.inl (by rw [hμ]; exact hpos), Or.inr trivial, Or.inl ⟨?_, Or.inl hn0⟩⟩
        rw [hμ, zero_div]
        field_simp
        ring
      · simp only [hle, if_false]
        push Not at hle
        have hs' : 0 < s := lt_of_le_of_lt (by positivity) hle
        refine ⟨le_refl _, Or.inl (by linarith), Or.inr trivial, Or.inr ⟨trivial, ?_⟩⟩
        rw [mul_zero, add_zero, zero_div]
        have h2 : a * n < (a + 1) * s := by
          have := mul_lt_mul_of_pos_left hle (show 0 < a + 1 by linarith)
          calc a * n = (a + 1) * (a / (a + 1) * n) := by field_simp
            _ < _ := this
        have h3 : a * (n / s) < a + 1 := by
          rw [← mul_div_assoc, div_lt_iff₀ hs']; linarith
        linarith
    · have hm' : 0 < m := lt_of_le_of_ne hm (Ne.symm hm0)
      simp only [hm0, if_false]
      set c := a * (n + m) - (a + 1) * s with hc
      set d := Real.sqrt (c * c + 4 * a * (a + 1) * m * s) with hd
      have hrad : 0 ≤ c * c + 4 * a * (a + 1) * m * s := add_nonneg (mul_self_nonneg _) (by positivity)
      have hd2 : d * d = c * c + 4 * a * (a + 1) * m * s := Real.mul_self_sqrt hrad
      have hd0 : 0 ≤ d := Real.sqrt_nonneg _
      have hcd : 0 < c + d := by
        rcases hs.eq_or_lt with rfl | hs'
        · have : 0 < c := by rw [hc]; nlinarith
          linarith
        · have hpos : 0 < 4 * a * (a + 1) * m * s := by positivity
          by_contra hneg
          push Not at hneg
          nlinarith
      set b := (c + d) / (2 * a * (a + 1)) with hb
      have hbp : 0 < b := by rw [hb]; positivity
      have hquad : a * (a + 1) * b * b - c * b - m * s = 0 := by
        have e : b * (2 * a * (a + 1)) = c + d := by rw [hb]; field_simp
        have h4 : (4 * a * (a + 1)) * (a * (a + 1) * b * b - c * b - m * s) = 0 := by
          have : (b * (2 * a * (a + 1)) - c) * (b * (2 * a * (a + 1)) - c) = d * d := by rw [e]; ring
          rw [hd2] at this
          linarith
        have : (4 * a * (a + 1)) ≠ 0 := by positivity
        exact (mul_eq_zero.1 h4).resolve_left this
      have hμ : 0 < s + a * b := by positivity
      refine ⟨hbp.le, Or.inl hμ, Or.inl hbp, Or.inl ⟨?_, Or.inl hn0⟩⟩
      rw [hc] at hquad
      have hne1 := hμ.ne'
      have hne2 := hbp.ne'
      rw [div_sub_one hne1, div_sub_one hne2]
      field_simp
      nlinarith

/-- **C22.**  The profiled background is non-negative and is the unique maximiser of the joint on/off
Poisson likelihood among all non-negative backgrounds. -/
theorem C22_wstat_background (s nOn nOff a : ℝ) (hs : 0 ≤ s) (hn : 0 ≤ nOn) (hm : 0 ≤ nOff) (ha : 0 < a) :
    0 ≤ wstatBackground s nOn nOff a ∧
    ∀ b, 0 ≤ b → b ≠ wstatBackground s nOn nOff a →
      onOffLik nOn nOff s a b < onOffLik nOn nOff s a (wstatBackground s nOn nOff a) := by
  obtain ⟨h0, h1, h2, h3⟩ := wstatBackground_facts hs hn hm ha
  refine ⟨h0, fun b hb hne => ?_⟩
  refine onOff_max hs hn hm ha h0 hb h1 h2 ?_ ?_ hne
  · rcases h3 with ⟨h, _⟩ | ⟨h, hg⟩
    · rw [h, zero_mul]
    · apply mul_nonpos_of_nonpos_of_nonneg hg.le
      rw [h]; linarith
  · intro e1 e2
    rcases h3 with ⟨_, h | h⟩ | ⟨h, hg⟩
    · exact absurd e1 h
    · exact absurd e2 h
    · left
      apply mul_neg_of_neg_of_pos hg
      rw [h] at hne ⊢
      rw [sub_zero]
      exact lt_of_le_of_ne hb (Ne.symm hne)

example := C22_wstat_background 2 5 3 (1 / 2) (by norm_num) (by norm_num) (by norm_num) (by norm_num)

/-- **C22 (domain).**  For a positive source the two expectations are in the domain of the logarithms
taken of them: the on expectation is positive, the background is positive when off counts were seen. -/
theorem C22_wstat_domain (s nOn nOff a : ℝ) (hs : 0 < s) (hn : 0 ≤ nOn) (hm : 0 ≤ nOff) (ha : 0 < a) :
    0 < s + a * wstatBackground s nOn nOff a ∧ (0 < nOff → 0 < wstatBackground s nOn nOff a) := by
  obtain ⟨h0, _, h2, _⟩ := wstatBackground_facts hs.le hn hm ha
  refine ⟨by positivity, fun h => h2.resolve_right h.ne'⟩

/-- the closed form at work: 5 on counts, 3 off counts, ratio 1/2, source 2 -/
example : wstatBackground 2 5 3 (1/2) = (1 + Real.sqrt 19) * (2 / 3) ∧ 0 < onOffLik 5 3 2 (1/2) 1 := by
  constructor
  · unfold wstatBackground
    norm_num
    ring
  · unfold onOffLik
    exact mul_pos (poisLik_pos (by norm_num)) (poisLik_pos (by norm_num))

/-! ## C23 -/

theorem gauss_step (B σ b b₀ : ℝ) (hσ : 0 < σ) :
    gaussLik B b σ = gaussLik B b₀ σ * Real.exp ((B - b₀) / σ ^ 2 * (b - b₀)) *
      Real.exp (-((b - b₀) ^ 2 / (2 * σ ^ 2))) := by
  unfold gaussLik
  rw [← Real.exp_add, ← Real.exp_add]
  congr 1
  field_simp
  ring

theorem onGauss_max {n B σ s a b₀ b : ℝ} (hs : 0 < s) (hn : 0 ≤ n) (ha : 0 < a) (hσ : 0 < σ) (hb₀ : 0 ≤ b₀)
    (hb : 0 ≤ b) (hg : (a * (n / (s + a * b₀) - 1) + (B - b₀) / σ ^ 2) * (b - b₀) ≤ 0) (hne : b ≠ b₀) :
    onGaussLik n B σ s a b < onGaussLik n B σ s a b₀ := by
  unfold onGaussLik
  have hμ : 0 ≤ s + a * b := by positivity
  have hμ₀ : 0 < s + a * b₀ := by positivity
  have l1 := poisLik_le hn hμ (Or.inl hμ₀)
  have p1 : 0 < poisLik n (s + a * b₀) := poisLik_pos hμ₀
  have p2 : 0 < gaussLik B b₀ σ := Real.exp_pos _
  have hlt : Real.exp (-((b - b₀) ^ 2 / (2 * σ ^ 2))) < 1 := by
    rw [← Real.exp_zero]; apply Real.exp_lt_exp.2
    have : b - b₀ ≠ 0 := sub_ne_zero.2 hne
    have : 0 < (b - b₀) ^ 2 / (2 * σ ^ 2) := by positivity
    linarith
  have hexp : Real.exp ((a * (n / (s + a * b₀) - 1) + (B - b₀) / σ ^ 2) * (b - b₀)) ≤ 1 :=
    Real.exp_le_one_iff.2 hg
  have hsplit : Real.exp ((a * (n / (s + a * b₀) - 1) + (B - b₀) / σ ^ 2) * (b - b₀)) =
      Real.exp ((n / (s + a * b₀) - 1) * (s + a * b - (s + a * b₀))) *
      Real.exp ((B - b₀) / σ ^ 2 * (b - b₀)) := by
    rw [← Real.exp_add]; congr 1; ring
  rw [gauss_step B σ b b₀ hσ]
  calc poisLik n (s + a * b) * (gaussLik B b₀ σ * Real.exp ((B - b₀) / σ ^ 2 * (b - b₀)) *
        Real.exp (-((b - b₀) ^ 2 / (2 * σ ^ 2))))
      ≤ (poisLik n (s + a * b₀) * Real.exp ((n / (s + a * b₀) - 1) * (s + a * b - (s + a * b₀)))) *
        (gaussLik B b₀ σ * Real.exp ((B - b₀) / σ ^ 2 * (b - b₀)) *
        Real.exp (-((b - b₀) ^ 2 / (2 * σ ^ 2)))) := mul_le_mul_of_nonneg_right l1 (by positivity)
    _ = poisLik n (s + a * b₀) * gaussLik B b₀ σ *
        (Real.exp ((a * (n / (s + a * b₀) - 1) + (B - b₀) / σ ^ 2) * (b - b₀))) *
        Real.exp (-((b - b₀) ^ 2 / (2 * σ ^ 2))) := by rw [hsplit]; ring
    _ ≤ poisLik n (s + a * b₀) * gaussLik B b₀ σ * 1 * Real.exp (-((b - b₀) ^ 2 / (2 * σ ^ 2))) := by
        apply mul_le_mul_of_nonneg_right _ (Real.exp_pos _).le
        exact mul_le_mul_of_nonneg_left hexp (mul_pos p1 p2).le
    _ < poisLik n (s + a * b₀) * gaussLik B b₀ σ * 1 * 1 := by
        apply mul_lt_mul_of_pos_left hlt
        rw [mul_one]; exact mul_pos p1 p2
    _ = _ := by ring

theorem pgstatBackground_facts {s n B σ a : ℝ} (hs : 0 < s) (hn : 0 ≤ n) (hσ : 0 < σ) (ha : 0 < a) :
    0 ≤ pgstatBackground s n B σ a ∧
    ((a * (n / (s + a * pgstatBackground s n B σ a) - 1) + (B - pgstatBackground s n B σ a) / σ ^ 2 = 0) ∨
      (pgstatBackground s n B σ a = 0 ∧
        a * (n / (s + a * pgstatBackground s n B σ a) - 1) + (B - pgstatBackground s n B σ a) / σ ^ 2 ≤ 0)) := by
  unfold pgstatBackground
  set e := B - a * (σ * σ) with he
  set f := a * (σ * σ) * n + e * s with hf
  set c := a * e - s with hc
  set d := Real.sqrt (c * c + 4 * a * f) with hd
  have hef : 0 ≤ e → 0 ≤ f := by intro h; rw [hf]; positivity
  by_cases hcond : 0 ≤ e ∨ 0 ≤ f
  · have hf0 : 0 ≤ f := hcond.elim hef id
    rw [if_pos hcond]
    by_cases hn0 : 0 < n
    · rw [if_pos hn0]
      have hrad : 0 ≤ c * c + 4 * a * f := add_nonneg (mul_self_nonneg _) (by positivity)
      have hd2 : d * d = c * c + 4 * a * f := Real.mul_self_sqrt hrad
      have hd0 : 0 ≤ d := Real.sqrt_nonneg _
      have hcd : 0 ≤ c + d := by
        by_contra hneg
        push Not at hneg
        have : 0 ≤ 4 * a * f := by positivity
        nlinarith
      set b := (c + d) / (2 * a) with hb
      have hbn : 0 ≤ b := by rw [hb]; positivity
      have hquad : a * b * b - c * b - f = 0 := by
        have e1 : b * (2 * a) = c + d := by rw [hb]; field_simp
        have h4 : (4 * a) * (a * b * b - c * b - f) = 0 := by
          have : (b * (2 * a) - c) * (b * (2 * a) - c) = d * d := by rw [e1]; ring
          rw [hd2] at this
          linarith
        have : (4 * a) ≠ 0 := by positivity
        exact (mul_eq_zero.1 h4).resolve_left this
      have hμ : 0 < s + a * b := by positivity
      refine ⟨hbn, Or.inl ?_⟩
      rw [hc, hf, he] at hquad
      field_simp
      nlinarith
    · rw [if_neg hn0]
      have hn0' : n = 0 := by linarith
      have he0 : 0 ≤ e := by
        rw [hf, hn0', mul_zero, zero_add] at hf0
        by_contra h
        push Not at h
        nlinarith
      refine ⟨he0, Or.inl ?_⟩
      rw [hn0', zero_div]
      field_simp
      ring
  · rw [if_neg hcond]
    push Not at hcond
    refine ⟨le_refl _, Or.inr ⟨rfl, ?_⟩⟩
    rw [mul_zero, add_zero, sub_zero]
    have h1 : a * (σ * σ) * n + (B - a * (σ * σ)) * s < 0 := hcond.2
    have : a * (n / s - 1) + B / σ ^ 2 = (a * (σ * σ) * n + (B - a * (σ * σ)) * s) / (s * σ ^ 2) := by
      field_simp
      ring
    rw [this]
    exact div_nonpos_of_nonpos_of_nonneg h1.le (by positivity)

/-- **C23.**  The profiled background is non-negative and is the unique maximiser of the joint
Poisson/Gaussian likelihood among all non-negative backgrounds. -/
theorem C23_pgstat_background (s n B σ a : ℝ) (hs : 0 < s) (hn : 0 ≤ n) (hσ : 0 < σ) (ha : 0 < a) :
    0 ≤ pgstatBackground s n B σ a ∧
    ∀ b, 0 ≤ b → b ≠ pgstatBackground s n B σ a →
      onGaussLik n B σ s a b < onGaussLik n B σ s a (pgstatBackground s n B σ a) := by
  obtain ⟨h0, h1⟩ := pgstatBackground_facts (B := B) hs hn hσ ha
  refine ⟨h0, fun b hb hne => onGauss_max hs hn ha hσ h0 hb ?_ hne⟩
  rcases h1 with h | ⟨h, hg⟩
  · rw [h, zero_mul]
  · apply mul_nonpos_of_nonpos_of_nonneg hg
    rw [h]; linarith

/-- both branches occur: an interior maximum and a background pushed to zero -/
example : pgstatBackground 1 0 5 1 1 = 4 ∧ pgstatBackground 1 0 (-3) 1 1 = 0 := by
  constructor <;> · unfold pgstatBackground; norm_num

end Elisa.Infer
