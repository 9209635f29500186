import Verif.Plot.ErrorBars
import Verif.Plot.QuantResProps
import Verif.Infer.BalanceProps
import Mathlib.Topology.Order.IntermediateValue

/-!
# C121: the error bars of on/off counts are likelihood-ratio intervals
-/

namespace Elisa.Plot.ErrBar

open Elisa Elisa.Infer Elisa.Grouping Elisa.Plot.Quant ProbabilityTheory MeasureTheory

/-- `s` source counts are within the likelihood-ratio interval of `delta`: for some background they are at most `exp (-delta / 2)` times
less likely than anything else. -/
def Within (nOn nOff a delta s : ℝ) : Prop :=
  ∃ b, 0 ≤ b ∧ ∀ s' b', 0 ≤ s' → 0 ≤ b' → Real.exp (-delta / 2) * onOffLik nOn nOff s' a b' ≤ onOffLik nOn nOff s a b

/-- The solver finds a root of an equation which has one, if it starts from a finite value. -/
def Exact (solve : Solver) : Prop := ∀ (f : ℝ → ℝ) (x₀ : ℝ), (∃ x, f x = 0) → f (solve f (some x₀)) = 0

section Lemmas

variable {nOn nOff a : ℝ}

/-- one channel with an off measurement -/
noncomputable def oneChannel (nOn nOff a : ℝ) : FitData where
  specCounts := [nOn]
  specErrors := [0]
  netCounts := [nOn - a * nOff]
  netErrors := [0]
  back := some ⟨[nOff], [0], [a]⟩
  matrix := [[1]]
  areaScale := [1]
  exposure := 1
  specPoisson := true
  backPoisson := true

theorem curve_lik (hn : 0 ≤ nOn) (hm : 0 ≤ nOff) (ha : 0 < a) {s : ℝ} (hs : 0 ≤ s) :
    onOffLik nOn nOff s a (wstatBackground s nOn nOff a) = Real.exp (-wstatCurve s nOn nOff a / 2) := by
  obtain ⟨h0, h1, h2, -⟩ := wstatBackground_facts hs hn hm ha
  unfold onOffLik wstatCurve
  have hp : 0 ≤ s + a * wstatBackground s nOn nOff a := by positivity
  rw [poisLik_cost hp h1, poisLik_cost h0 h2, ← Real.exp_add]
  unfold cost
  simp only [xlogy_eq]
  congr 1
  ring

theorem usable_one (hn : 0 ≤ nOn) (hm : 0 ≤ nOff) (ha : 0 < a) : Usable .wstat (oneChannel nOn nOff a) := by
  intro j hj
  have : j = 0 := by simpa [oneChannel, FitData.size] using hj
  subst this
  exact ⟨hn, hm, ha⟩

/-- the saturated term -/
noncomputable def best (nOn nOff : ℝ) : ℝ := 2 * (cost nOn nOn + cost nOff nOff)

theorem curve_dev (hn : 0 ≤ nOn) (hm : 0 ≤ nOff) (ha : 0 < a) {s : ℝ} (hs : 0 ≤ s) :
    IsDeviance .wstat (oneChannel nOn nOff a) 0 s (wstatCurve s nOn nOff a - best nOn nOff) := by
  have e1 : nth (oneChannel nOn nOff a).specCounts 0 = nOn := rfl
  simp only [IsDeviance, oneChannel]
  show IsGreatest {l | ∃ x, 0 ≤ x ∧ l = onOffLik nOn nOff s a x / (poisLik nOn nOn * poisLik nOff nOff)} _
  have hn' : 0 < nOn ∨ nOn = 0 := hn.eq_or_lt.elim (fun h => Or.inr h.symm) Or.inl
  have hm' : 0 < nOff ∨ nOff = 0 := hm.eq_or_lt.elim (fun h => Or.inr h.symm) Or.inl
  have hsat : poisLik nOn nOn * poisLik nOff nOff = Real.exp (-best nOn nOff / 2) := by
    rw [poisLik_cost hn hn', poisLik_cost hm hm', ← Real.exp_add]
    congr 1
    unfold best
    ring
  have hval : Real.exp (-(wstatCurve s nOn nOff a - best nOn nOff) / 2) =
      onOffLik nOn nOff s a (wstatBackground s nOn nOff a) / (poisLik nOn nOn * poisLik nOff nOff) := by
    rw [curve_lik hn hm ha hs, hsat, ← Real.exp_sub]
    congr 1
    ring
  obtain ⟨h0, h1⟩ := C22_wstat_background s nOn nOff a hs hn hm ha
  refine ⟨⟨_, h0, hval⟩, ?_⟩
  rintro _ ⟨x, hx, rfl⟩
  rw [hval]
  have hp : 0 < poisLik nOn nOn * poisLik nOff nOff := by rw [hsat]; exact Real.exp_pos _
  apply div_le_div_of_nonneg_right _ hp.le
  by_cases e : x = wstatBackground s nOn nOff a
  · rw [e]
  · exact (h1 x hx e).le

theorem curve_convex (hn : 0 ≤ nOn) (hm : 0 ≤ nOff) (ha : 0 < a) {s₁ s₂ t : ℝ} (h0 : 0 ≤ t) (h1 : t ≤ 1) (hs₁ : 0 ≤ s₁) (hs₂ : 0 ≤ s₂) :
    wstatCurve ((1 - t) * s₁ + t * s₂) nOn nOff a ≤ (1 - t) * wstatCurve s₁ nOn nOff a + t * wstatCurve s₂ nOn nOff a := by
  have h1' : 0 ≤ 1 - t := by linarith
  have := C119_channel_convex .wstat (oneChannel nOn nOff a) (usable_one hn hm ha) 0 (by simp [oneChannel, FitData.size]) s₁ s₂ t _ _ _ h0 h1 hs₁ hs₂
    (curve_dev hn hm ha hs₁) (curve_dev hn hm ha hs₂) (curve_dev hn hm ha (by positivity))
  linarith

theorem curve_strict (hn : 0 ≤ nOn) (hm : 0 ≤ nOff) (ha : 0 < a) {s₁ s₂ : ℝ} (hs₁ : 0 ≤ s₁) (hs₂ : 0 ≤ s₂)
    (h : (nOn - a * nOff ≤ s₁ ∧ s₁ < s₂) ∨ (s₂ < s₁ ∧ s₁ ≤ nOn - a * nOff)) : wstatCurve s₁ nOn nOff a < wstatCurve s₂ nOn nOff a := by
  have := C119_single_minimum .wstat (oneChannel nOn nOff a) (usable_one hn hm ha) 0 (by simp [oneChannel, FitData.size]) s₁ s₂ _ _ hs₂ hs₁ h
    (curve_dev hn hm ha hs₁) (curve_dev hn hm ha hs₂)
  linarith

theorem curve_min (hn : 0 ≤ nOn) (hm : 0 ≤ nOff) (ha : 0 < a) {s : ℝ} (hs : 0 ≤ s) :
    wstatCurve (max (nOn - a * nOff) 0) nOn nOff a ≤ wstatCurve s nOn nOff a := by
  rcases lt_trichotomy s (max (nOn - a * nOff) 0) with h | h | h
  · have hp : 0 < nOn - a * nOff := by
      rcases lt_max_iff.1 h with h' | h'
      · linarith
      · linarith
    rw [max_eq_left hp.le] at h ⊢
    exact (curve_strict hn hm ha hp.le hs (Or.inr ⟨h, le_refl _⟩)).le
  · rw [h]
  · exact (curve_strict hn hm ha (le_max_right _ _) hs (Or.inl ⟨le_max_left _ _, h⟩)).le

theorem within_iff (hn : 0 ≤ nOn) (hm : 0 ≤ nOff) (ha : 0 < a) (delta : ℝ) {s : ℝ} (hs : 0 ≤ s) :
    Within nOn nOff a delta s ↔ wstatCurve s nOn nOff a ≤ wstatCurve (max (nOn - a * nOff) 0) nOn nOff a + delta := by
  have hle : ∀ s b, 0 ≤ s → 0 ≤ b → onOffLik nOn nOff s a b ≤ Real.exp (-wstatCurve s nOn nOff a / 2) := by
    intro s b hs hb
    rw [← curve_lik hn hm ha hs]
    by_cases e : b = wstatBackground s nOn nOff a
    · rw [e]
    · exact ((C22_wstat_background s nOn nOff a hs hn hm ha).2 b hb e).le
  constructor
  · rintro ⟨b, hb, h⟩
    have h0 := h (max (nOn - a * nOff) 0) _ (le_max_right _ _) (C22_wstat_background _ nOn nOff a (le_max_right (nOn - a * nOff) 0) hn hm ha).1
    rw [curve_lik hn hm ha (le_max_right _ _), ← Real.exp_add] at h0
    have := Real.exp_le_exp.1 (h0.trans (hle s b hs hb))
    linarith
  · intro h
    refine ⟨_, (C22_wstat_background s nOn nOff a hs hn hm ha).1, fun s' b' hs' hb' => ?_⟩
    rw [curve_lik hn hm ha hs]
    refine (mul_le_mul_of_nonneg_left (hle s' b' hs' hb') (Real.exp_pos _).le).trans ?_
    rw [← Real.exp_add, Real.exp_le_exp]
    have := curve_min hn hm ha hs'
    linarith

theorem background_continuous (hn : 0 ≤ nOn) (ha : 0 < a) : Continuous fun s => wstatBackground s nOn nOff a := by
  unfold wstatBackground
  by_cases h1 : nOn = 0
  · simp only [h1, if_true]
    exact continuous_const
  · simp only [h1, if_false]
    by_cases h2 : nOff = 0
    · simp only [h2, if_true]
      refine (Continuous.max ((continuous_const (y := nOn / (1 + a))).sub (continuous_id.div_const a)) (continuous_const (y := (0 : ℝ)))).congr ?_
      intro s
      have ha1 : (0 : ℝ) < 1 + a := by linarith
      have key : nOn / (1 + a) - s / a = (a / (a + 1) * nOn - s) / a := by field_simp; ring
      show max (nOn / (1 + a) - s / a) 0 = _
      split
      · rename_i h
        apply max_eq_left
        rw [key]
        exact div_nonneg (by linarith) ha.le
      · rename_i h
        apply max_eq_right
        rw [key]
        exact div_nonpos_of_nonpos_of_nonneg (by linarith) ha.le
    · simp only [h2, if_false]
      fun_prop

theorem curve_continuous (hn : 0 ≤ nOn) (hm : 0 ≤ nOff) (ha : 0 < a) : ContinuousOn (fun s => wstatCurve s nOn nOff a) (Set.Ici 0) := by
  have hb := (background_continuous (nOff := nOff) hn ha).continuousOn (s := Set.Ici 0)
  have hM : ContinuousOn (fun s => s + a * wstatBackground s nOn nOff a) (Set.Ici 0) := continuousOn_id.add (hb.const_smul a)
  have h1 : ContinuousOn (fun s => xlogy nOn (s + a * wstatBackground s nOn nOff a)) (Set.Ici 0) := by
    by_cases h : nOn = 0
    · simp only [xlogy, h, if_true]
      exact continuousOn_const
    · simp only [xlogy, h, if_false]
      refine continuousOn_const.mul (hM.log fun s hs => ?_)
      exact ((wstatBackground_facts hs hn hm ha).2.1.resolve_right h).ne'
  have h2 : ContinuousOn (fun s => xlogy nOff (wstatBackground s nOn nOff a)) (Set.Ici 0) := by
    by_cases h : nOff = 0
    · simp only [xlogy, h, if_true]
      exact continuousOn_const
    · simp only [xlogy, h, if_false]
      refine continuousOn_const.mul (hb.log fun s hs => ?_)
      exact ((wstatBackground_facts hs hn hm ha).2.2.1.resolve_right h).ne'
  exact continuousOn_const.mul (((hM.sub h1).add hb).sub h2)

/-- above the best value the curve reaches every higher level -/
theorem reach_up (hn : 0 ≤ nOn) (hm : 0 ≤ nOff) (ha : 0 < a) {delta : ℝ} (hd : 0 < delta) :
    ∃ x : ℝ, wstatCurve (max (nOn - a * nOff) 0 + Real.exp x) nOn nOff a = wstatCurve (max (nOn - a * nOff) 0) nOn nOff a + delta := by
  set s := max (nOn - a * nOff) 0 with hs
  have hs0 : 0 ≤ s := le_max_right _ _
  set W := fun s => wstatCurve s nOn nOff a with hW
  have hg : 0 < W (s + 1) - W s := by
    have := curve_strict hn hm ha hs0 (by linarith : (0 : ℝ) ≤ s + 1) (Or.inl ⟨le_max_left _ _, by linarith⟩)
    simp only [hW]
    linarith
  set g := W (s + 1) - W s
  set l := 1 + delta / g with hl
  have hl1 : 1 ≤ l := by have : 0 < delta / g := by positivity
                         linarith
  have hl0 : 0 < l := by linarith
  have hbig : W s + delta ≤ W (s + l) := by
    have := curve_convex (nOn := nOn) (nOff := nOff) (a := a) hn hm ha (s₁ := s) (s₂ := s + l) (t := 1 / l) (by positivity) (by rw [div_le_one hl0]; exact hl1) hs0 (by linarith)
    have e : (1 - 1 / l) * s + 1 / l * (s + l) = s + 1 := by field_simp; ring
    rw [e] at this
    have h2 : g * l ≤ W (s + l) - W s := by
      have h3 : W (s + 1) - W s ≤ 1 / l * (W (s + l) - W s) := by simp only [hW]; linarith
      have h4 := mul_le_mul_of_nonneg_right h3 hl0.le
      have h5 : 1 / l * (W (s + l) - W s) * l = W (s + l) - W s := by field_simp
      linarith
    have h6 : g * l = g + delta := by rw [hl]; field_simp
    linarith
  have hc : ContinuousOn W (Set.Icc s (s + l)) := (curve_continuous hn hm ha).mono fun y hy => le_trans hs0 hy.1
  obtain ⟨y, hy, hyW⟩ := intermediate_value_Icc (by linarith) hc ⟨(by linarith : W s ≤ W s + delta), hbig⟩
  have hne : s < y := by
    rcases hy.1.eq_or_lt with e | e
    · rw [← e] at hyW; linarith
    · exact e
  refine ⟨Real.log (y - s), ?_⟩
  rw [Real.exp_log (by linarith), add_sub_cancel]
  exact hyW

theorem sigmoid_log {y s : ℝ} (h0 : 0 < y) (h1 : y < s) : sigmoid (Real.log (y / (s - y))) s = y := by
  unfold sigmoid
  have h2 : 0 < s - y := by linarith
  rw [Real.exp_neg, Real.exp_log (by positivity)]
  field_simp
  ring

theorem sigmoid_range {s : ℝ} (hs : 0 < s) (x : ℝ) : 0 < sigmoid x s ∧ sigmoid x s < s := by
  unfold sigmoid
  have := Real.exp_pos (-x)
  refine ⟨by positivity, ?_⟩
  have h1 : 1 / (1 + Real.exp (-x)) < 1 := by rw [div_lt_one (by linarith)]; linarith
  nlinarith

theorem reach_down (hn : 0 ≤ nOn) (hm : 0 ≤ nOff) (ha : 0 < a) (hs : 0 < nOn - a * nOff)
    (h : wstatCurve (nOn - a * nOff) nOn nOff a + 1 < wstatCurve 0 nOn nOff a) :
    ∃ x : ℝ, wstatCurve (sigmoid x (nOn - a * nOff)) nOn nOff a = wstatCurve (nOn - a * nOff) nOn nOff a + 1 := by
  set s := nOn - a * nOff
  have hc : ContinuousOn (fun s => wstatCurve s nOn nOff a) (Set.Icc 0 s) := (curve_continuous hn hm ha).mono fun y hy => hy.1
  obtain ⟨y, hy, hyW⟩ := intermediate_value_Icc' hs.le hc ⟨(by linarith : wstatCurve s nOn nOff a ≤ wstatCurve s nOn nOff a + 1), h.le⟩
  simp only at hyW
  have h0 : 0 < y := by
    rcases hy.1.eq_or_lt with e | e
    · rw [← e] at hyW; linarith
    · exact e
  have h1 : y < s := by
    rcases hy.2.eq_or_lt with e | e
    · rw [e] at hyW; linarith
    · exact e
  exact ⟨_, by rw [sigmoid_log h0 h1]; exact hyW⟩

/-- The gain of the best value over no source is at most the squared net counts over the expected squared error. -/
theorem gain_le (hn : 0 < nOn) (hm : 0 ≤ nOff) (ha : 0 < a) (hs : 0 < nOn - a * nOff) :
    wstatCurve 0 nOn nOff a - wstatCurve (nOn - a * nOff) nOn nOff a ≤ 2 * (nOn - a * nOff) ^ 2 / (a * (nOn + nOff)) := by
  have hN : 0 < nOn + nOff := by linarith
  have ha1 : 0 < 1 + a := by linarith
  -- the backgrounds
  have hb0 : ∀ b, 0 ≤ b → onOffLik nOn nOff 0 a b ≤ Real.exp (-wstatCurve 0 nOn nOff a / 2) := by
    intro b hb
    rw [← curve_lik hn.le hm ha (le_refl _)]
    by_cases e : b = wstatBackground 0 nOn nOff a
    · rw [e]
    · exact ((C22_wstat_background 0 nOn nOff a (le_refl _) hn.le hm ha).2 b hb e).le
  have h0 := hb0 ((nOn + nOff) / (1 + a)) (by positivity)
  have hm' : 0 < nOff ∨ nOff = 0 := hm.eq_or_lt.elim (fun h => Or.inr h.symm) Or.inl
  have hup : Real.exp (-wstatCurve (nOn - a * nOff) nOn nOff a / 2) ≤ Real.exp (-best nOn nOff / 2) := by
    rw [← curve_lik hn.le hm ha hs.le]
    unfold onOffLik
    have hsat : Real.exp (-best nOn nOff / 2) = poisLik nOn nOn * poisLik nOff nOff := by
      rw [poisLik_cost hn.le (Or.inl hn), poisLik_cost hm hm', ← Real.exp_add]
      congr 1
      unfold best
      ring
    rw [hsat]
    have hw := wstatBackground_facts hs.le hn.le hm ha
    have hp : 0 ≤ nOn - a * nOff + a * wstatBackground (nOn - a * nOff) nOn nOff a := by
      have := hw.1
      positivity
    exact mul_le_mul (poisLik_le_self hn.le hp) (poisLik_le_self hm hw.1) (poisLik_nonneg hw.1) (poisLik_nonneg hn.le)
  rw [Real.exp_le_exp] at hup
  rw [onOffLik, zero_add, poisLik_cost (by positivity) (Or.inl (by positivity)), poisLik_cost (by positivity) (Or.inl (by positivity)),
    ← Real.exp_add, Real.exp_le_exp] at h0
  -- the logarithms
  have l1 : Real.log nOn - Real.log (a * ((nOn + nOff) / (1 + a))) ≤ nOn / (a * ((nOn + nOff) / (1 + a))) - 1 := by
    rw [← Real.log_div (by positivity) (by positivity)]
    exact Real.log_le_sub_one_of_pos (by positivity)
  have l2 : nOff * (Real.log nOff - Real.log ((nOn + nOff) / (1 + a))) ≤ nOff * (nOff / ((nOn + nOff) / (1 + a)) - 1) := by
    rcases hm' with h | h
    · rw [← Real.log_div (by positivity) (by positivity)]
      exact mul_le_mul_of_nonneg_left (Real.log_le_sub_one_of_pos (by positivity)) hm
    · rw [h]; simp
  have l1' := mul_le_mul_of_nonneg_left l1 hn.le
  have key : 2 * (nOn - a * nOff) ^ 2 / (a * (nOn + nOff)) =
      2 * (nOn * (nOn / (a * ((nOn + nOff) / (1 + a))) - 1) + nOff * (nOff / ((nOn + nOff) / (1 + a)) - 1)) := by
    field_simp
    ring
  rw [key]
  unfold best at hup
  unfold cost at hup h0
  have hsum : a * ((nOn + nOff) / (1 + a)) + (nOn + nOff) / (1 + a) = nOn + nOff := by field_simp; ring
  nlinarith

/-- A net signal which needs a lower error bar exceeds half a count. -/
theorem signal_large (hn : 1 ≤ nOn) (hm : 0 ≤ nOff) (ha : 0 < a) (hs : 0 < nOn - a * nOff)
    (h : 1 < wstatCurve 0 nOn nOff a - wstatCurve (nOn - a * nOff) nOn nOff a) : 1 / 2 < nOn - a * nOff := by
  have h1 := h.trans_le (gain_le (by linarith) hm ha hs)
  have hN : 0 < a * (nOn + nOff) := by positivity
  rw [lt_div_iff₀ hN] at h1
  set s := nOn - a * nOff with hsd
  have e : a * (nOn + nOff) = nOn - s + a * nOn := by rw [hsd]; ring
  rw [e] at h1
  by_contra hle
  push Not at hle
  nlinarith

end Lemmas

/-! ### The levels -/

theorem sigma_exact {cl : ℝ} (h0 : 0 < cl) (h1 : cl < 1) : ∃ r : ℝ, getSigma cl = r ∧ 0 < r ∧ normSf r = (1 - cl) / 2 ∧ ∀ x, r ≤ x ↔ normSf x ≤ (1 - cl) / 2 := by
  obtain ⟨r, hr⟩ := normPpf_finite (p := 1 / 2 - 1 / 2 * cl) (by linarith) (by linarith)
  have e : getSigma cl = ((-r : ℝ) : EReal) := by unfold getSigma normIsf; rw [hr]; rfl
  have hiff : ∀ x : ℝ, -r ≤ x ↔ normSf x ≤ (1 - cl) / 2 := by
    intro x
    have := normIsf_le_iff (1 / 2 - 1 / 2 * cl) x
    rw [show normIsf (1 / 2 - 1 / 2 * cl) = ((-r : ℝ) : EReal) from e, EReal.coe_le_coe_iff] at this
    rw [this]
    constructor <;> intro h <;> linarith
  have hle : normSf (-r) ≤ (1 - cl) / 2 := (hiff _).1 (le_refl _)
  have hge : (1 - cl) / 2 ≤ normSf (-r) := by
    have := normPpf_le_iff (1 / 2 - 1 / 2 * cl) r
    rw [hr] at this
    have h2 := this.1 (le_refl _)
    have h3 := normSf_neg (-r)
    rw [neg_neg] at h3
    linarith
  refine ⟨-r, e, ?_, le_antisymm hle hge, hiff⟩
  by_contra hneg
  push Not at hneg
  have h4 := normSf_strictAnti.antitone hneg
  have h5 : normSf 0 = 1 / 2 := by
    have := normSf_neg 0
    rw [neg_zero] at this
    linarith
  linarith

theorem square_prob {x : ℝ} (hx : 0 ≤ x) : (gaussianReal 0 1).real {z | z ^ 2 ≤ x} = 1 - 2 * normSf (Real.sqrt x) := by
  rw [central_prob (Real.sqrt_nonneg x)]
  congr 1
  ext z
  simp only [Set.mem_ofPred_eq, Set.mem_Icc]
  rw [← abs_le, Real.le_sqrt (abs_nonneg z) hx, sq_abs]

/-- **C121 (levels).**  `get_delta` is the threshold of a likelihood-ratio interval at confidence level `cl`: the square of a standard normal variable stays below it with
probability `cl`; it is the square of `get_sigma`, and the standard normal variable itself stays within plus or minus `get_sigma` with probability `cl`. -/
theorem C121_levels (cl : ℝ) (h0 : 0 < cl) (h1 : cl < 1) : 0 < getDelta cl ∧ (gaussianReal 0 1).real {z | z ^ 2 ≤ getDelta cl} = cl ∧
    ∃ r : ℝ, getSigma cl = r ∧ 0 < r ∧ getDelta cl = r ^ 2 ∧ (gaussianReal 0 1).real (Set.Icc (-r) r) = cl := by
  obtain ⟨r, hr, hpos, hex, hiff⟩ := sigma_exact h0 h1
  have hset : {x : ℝ | 0 ≤ x ∧ cl ≤ (gaussianReal 0 1).real {z | z ^ 2 ≤ x}} = Set.Ici (r ^ 2) := by
    ext x
    simp only [Set.mem_ofPred_eq, Set.mem_Ici]
    constructor
    · rintro ⟨hx, h⟩
      rw [square_prob hx] at h
      have := (hiff (Real.sqrt x)).2 (by linarith)
      rwa [Real.le_sqrt hpos.le hx] at this
    · intro h
      have hx : 0 ≤ x := (sq_nonneg r).trans h
      refine ⟨hx, ?_⟩
      rw [square_prob hx]
      have := (hiff (Real.sqrt x)).1 ((Real.le_sqrt hpos.le hx).2 h)
      linarith
  have hd : getDelta cl = r ^ 2 := by
    unfold getDelta
    rw [hset, csInf_Ici]
  refine ⟨by rw [hd]; positivity, ?_, r, hr, hpos, hd, ?_⟩
  · rw [hd, square_prob (sq_nonneg r), Real.sqrt_sq hpos.le, hex]
    ring
  · have := central_prob hpos.le
    rw [← this, hex]
    ring

/-- **C121 (error bars).**  A channel with whole on counts and some counts at all, and a solver which finds the roots: the lower and upper ends `wstat_errors` reports are exactly
the ends of the likelihood-ratio interval of the non-negative source counts, the background being free: of threshold 1 when the net counts are positive, and of the threshold of the
confidence level of upper limits when they are not, in which case the channel is flagged and its lower end is zero. -/
theorem C121_interval (solve : Solver) (hsolve : Exact solve) (nOn nOff a uplim : ℝ) (hn : nOn = 0 ∨ 1 ≤ nOn) (hm : 0 ≤ nOff) (hc : 0 < nOn + nOff) (ha : 0 < a)
    (hu0 : 0 < uplim) (hu1 : uplim < 1) :
    ((wstatErrors solve nOn nOff a uplim).uplim = true ↔ nOn ≤ a * nOff) ∧
    ∀ s, (wstatErrors solve nOn nOff a uplim).lower ≤ s ∧ s ≤ (wstatErrors solve nOn nOff a uplim).upper ↔
      0 ≤ s ∧ Within nOn nOff a (if nOn ≤ a * nOff then getDelta uplim else 1) s := by
  have hn0 : 0 ≤ nOn := by rcases hn with h | h <;> linarith
  obtain ⟨d0, -, r, hr, hr0, -, -⟩ := C121_levels uplim hu0 hu1
  have herr : 0 < Real.sqrt (nOn + a * a * nOff) := by
    apply Real.sqrt_pos.2
    rcases hm.eq_or_lt with e | e
    · rw [← e] at hc ⊢
      simpa using hc
    · positivity
  have hz : max (nOn - a * nOff) 0 = 0 ↔ nOn ≤ a * nOff := by
    rw [max_eq_right_iff]
    constructor <;> intro h <;> linarith
  refine ⟨by simp only [wstatErrors, decide_eq_true_eq, hz], ?_⟩
  set delta := if nOn ≤ a * nOff then getDelta uplim else 1 with hdelta
  have hdpos : 0 < delta := by
    rw [hdelta]
    split
    · exact d0
    · exact one_pos
  set s₀ := max (nOn - a * nOff) 0 with hs₀
  have hs₀0 : 0 ≤ s₀ := le_max_right _ _
  -- the upper end
  obtain ⟨up, hupper, hup⟩ : ∃ up : ℝ, (wstatErrors solve nOn nOff a uplim).upper = up ∧ s₀ < up ∧ wstatCurve up nOn nOff a = wstatCurve s₀ nOn nOff a + delta := by
    refine ⟨_, rfl, ?_⟩
    obtain ⟨x, hx⟩ := reach_up hn0 hm ha hdpos
    have hguess : ∃ g, @ite _ (s₀ = 0) (Classical.propDecidable _) (logGuess ((getSigma uplim).toReal * Real.sqrt (nOn + a * a * nOff))) (logGuess (Real.sqrt (nOn + a * a * nOff))) = some g := by
      rw [hr, EReal.toReal_coe]
      unfold logGuess
      rw [if_pos herr, if_pos (mul_pos hr0 herr)]
      split <;> exact ⟨_, rfl⟩
    obtain ⟨g, hg⟩ := hguess
    have hde : @ite _ (s₀ = 0) (Classical.propDecidable _) (getDelta uplim) 1 = delta := by
      rw [hdelta]
      by_cases h : nOn ≤ a * nOff
      · rw [if_pos h]; exact if_pos (hz.2 h)
      · rw [if_neg h]; exact if_neg fun h' => h (hz.1 h')
    simp only [wstatErrors, ← hs₀, hg, hde]
    have := hsolve (fun x => wstatCurve (s₀ + Real.exp x) nOn nOff a - (wstatCurve s₀ nOn nOff a + delta)) g ⟨x, by rw [hx]; ring⟩
    exact ⟨by linarith [Real.exp_pos (solve (fun x => wstatCurve (s₀ + Real.exp x) nOn nOff a - (wstatCurve s₀ nOn nOff a + delta)) (some g))], by linarith⟩
  rw [hupper]
  -- the lower end
  obtain ⟨lo, hlower, hlo0, hlo1, hlo2⟩ : ∃ lo : ℝ, (wstatErrors solve nOn nOff a uplim).lower = lo ∧ 0 ≤ lo ∧ lo ≤ s₀ ∧
      ((lo = 0 ∧ wstatCurve 0 nOn nOff a ≤ wstatCurve s₀ nOn nOff a + delta) ∨ (0 < lo ∧ wstatCurve lo nOn nOff a = wstatCurve s₀ nOn nOff a + delta ∧ 0 < nOn - a * nOff)) := by
    by_cases hzl : wstatCurve 0 nOn nOff a - wstatCurve s₀ nOn nOff a ≤ 1
    · refine ⟨0, ?_, le_refl _, hs₀0, Or.inl ⟨rfl, ?_⟩⟩
      · simp only [wstatErrors, ← hs₀]
        exact if_pos hzl
      · by_cases h : nOn ≤ a * nOff
        · rw [hz.2 h]; linarith
        · rw [hdelta, if_neg h]; linarith
    · push Not at hzl
      have hpos : 0 < nOn - a * nOff := by
        by_contra hneg
        have : s₀ = 0 := hz.2 (by linarith)
        rw [this] at hzl
        linarith
      have hse : s₀ = nOn - a * nOff := max_eq_left hpos.le
      have hd1 : delta = 1 := by rw [hdelta, if_neg (by linarith)]
      rw [hse] at hzl
      have hn1 : 1 ≤ nOn := by
        rcases hn with h | h
        · rw [h] at hpos
          have : 0 ≤ a * nOff := by positivity
          linarith
        · exact h
      have hlarge := signal_large hn1 hm ha hpos hzl
      obtain ⟨x, hx⟩ := reach_down hn0 hm ha hpos (by linarith)
      have hguess : ∃ g, invSigmoid (max (s₀ - Real.sqrt (nOn + a * a * nOff)) 1e-3) s₀ = some g := by
        unfold invSigmoid
        rw [if_pos]
        · exact ⟨_, rfl⟩
        · have hs0 : 0 < s₀ := by rw [hse]; exact hpos
          have ht : (0 : ℝ) < 1e-3 := by norm_num
          refine ⟨div_pos (lt_max_of_lt_right ht) hs0, ?_⟩
          rw [div_lt_one hs0, max_lt_iff]
          refine ⟨by linarith, ?_⟩
          rw [hse]
          have : (1e-3 : ℝ) < 1 / 2 := by norm_num
          linarith
      obtain ⟨g, hg⟩ := hguess
      have hroot := hsolve (fun x => wstatCurve (sigmoid x s₀) nOn nOff a - (wstatCurve s₀ nOn nOff a + 1)) g ⟨x, by rw [hse, hx]; ring⟩
      have hrange := sigmoid_range (s := s₀) (by rw [hse]; exact hpos) (solve (fun x => wstatCurve (sigmoid x s₀) nOn nOff a - (wstatCurve s₀ nOn nOff a + 1)) (some g))
      refine ⟨_, ?_, hrange.1.le, hrange.2.le, Or.inr ⟨hrange.1, ?_, hpos⟩⟩
      · simp only [wstatErrors, ← hs₀, hg]
        exact if_neg (by rw [hse]; linarith)
      · rw [hd1]; linarith
  rw [hlower]
  intro s
  have hup0 : 0 ≤ up := hs₀0.trans hup.1.le
  constructor
  · rintro ⟨h1, h2⟩
    have hs : 0 ≤ s := hlo0.trans h1
    refine ⟨hs, (within_iff hn0 hm ha _ hs).2 ?_⟩
    rw [← hs₀]
    rcases le_total s s₀ with h | h
    · -- below the best value
      rcases hlo2 with ⟨e, h3⟩ | ⟨h3, h4, h5⟩
      · rcases h.eq_or_lt with h' | h'
        · rw [h']; linarith
        · have hse : s₀ = nOn - a * nOff := by
            rw [hs₀]
            apply max_eq_left
            by_contra hneg
            have : s₀ = 0 := hz.2 (by linarith)
            linarith
          rcases hs.eq_or_lt with h'' | h''
          · rw [← h'']; exact h3
          · exact (curve_strict hn0 hm ha hs (le_refl _) (Or.inr ⟨h'', by rw [← hse]; exact h⟩)).le.trans h3
      · have hse : s₀ = nOn - a * nOff := max_eq_left h5.le
        rcases h1.eq_or_lt with h' | h'
        · rw [← h', h4]
        · rw [← h4]
          exact (curve_strict hn0 hm ha hs hlo0 (Or.inr ⟨h', by rw [← hse]; exact h⟩)).le
    · rcases h2.eq_or_lt with h' | h'
      · rw [h', hup.2]
      · rw [← hup.2]
        exact (curve_strict hn0 hm ha hs hup0 (Or.inl ⟨(le_max_left _ _).trans h, h'⟩)).le
  · rintro ⟨hs, hw⟩
    have hw := (within_iff hn0 hm ha _ hs).1 hw
    rw [← hs₀] at hw
    constructor
    · by_contra hlt
      push Not at hlt
      rcases hlo2 with ⟨e, -⟩ | ⟨h3, h4, h5⟩
      · linarith
      · have hse : s₀ = nOn - a * nOff := max_eq_left h5.le
        have := curve_strict hn0 hm ha hlo0 hs (Or.inr ⟨hlt, by rw [← hse]; exact hlo1⟩)
        linarith
    · by_contra hlt
      push Not at hlt
      have := curve_strict hn0 hm ha hup0 hs (Or.inl ⟨(le_max_left _ _).trans hup.1.le, hlt⟩)
      linarith

/-- **C121 (empty channels).**  A channel without any counts gives the solver no finite starting value for its upper end. -/
theorem C121_empty : ∃ nOn nOff a uplim : ℝ, 0 ≤ nOn ∧ 0 ≤ nOff ∧ 0 < a ∧ 0 < uplim ∧ uplim < 1 ∧
    ∃ f : ℝ → ℝ, ∀ solve : Solver, (wstatErrors solve nOn nOff a uplim).upper = 0 + Real.exp (solve f none) := by
  refine ⟨0, 0, 1, 1 / 2, le_refl _, le_refl _, one_pos, by norm_num, by norm_num, fun x => wstatCurve (0 + Real.exp x) 0 0 1 - (wstatCurve 0 0 0 1 + getDelta (1 / 2)), fun solve => ?_⟩
  have e : max ((0 : ℝ) - 1 * 0) 0 = 0 := by norm_num
  simp only [wstatErrors, e]
  have e2 : logGuess ((getSigma (1 / 2)).toReal * Real.sqrt (0 + 1 * 1 * 0)) = none := by
    unfold logGuess
    simp
  rw [e2, if_true, if_true]

/-- Such a solver exists, and the hypotheses are met by 5 on counts and 3 off counts at ratio 1/2. -/
example : ∃ solve : Solver, Exact solve ∧ (wstatErrors solve 5 3 (1 / 2) (95 / 100)).uplim = false ∧
    (wstatErrors solve 5 3 (1 / 2) (95 / 100)).lower ≤ 7 / 2 ∧ 7 / 2 ≤ (wstatErrors solve 5 3 (1 / 2) (95 / 100)).upper := by
  classical
  have : ∃ solve : Solver, Exact solve := ⟨fun f _ => if h : ∃ x, f x = 0 then h.choose else 0, fun f x₀ h => by dsimp only; rw [dif_pos h]; exact h.choose_spec⟩
  obtain ⟨solve, hs⟩ := this
  have h := C121_interval solve hs 5 3 (1 / 2) (95 / 100) (Or.inr (by norm_num)) (by norm_num) (by norm_num) (by norm_num) (by norm_num) (by norm_num)
  refine ⟨solve, hs, ?_, ?_⟩
  · have := h.1
    rw [Bool.eq_false_iff]
    intro ht
    have := this.1 ht
    norm_num at this
  · refine (h.2 (7 / 2)).2 ⟨by norm_num, ?_⟩
    rw [within_iff (by norm_num) (by norm_num) (by norm_num) _ (by norm_num), if_neg (by norm_num)]
    have e : max ((5 : ℝ) - 1 / 2 * 3) 0 = 7 / 2 := by norm_num
    rw [e]
    linarith

/-- **C121** (start of the search).  The search for the lower end starts at the value asked for: the two transformations are inverse to
each other, and the start is defined exactly for values strictly between 0 and the estimate. -/
theorem C121_start (y s : ℝ) (hs : 0 < s) :
    (∀ g, invSigmoid y s = some g → sigmoid g s = y) ∧ ((invSigmoid y s).isSome ↔ 0 < y ∧ y < s) := by
  have h1 : 0 < y / s ↔ 0 < y := by rw [div_pos_iff_of_pos_right hs]
  have h2 : y / s < 1 ↔ y < s := div_lt_one hs
  unfold invSigmoid
  by_cases h : 0 < y / s ∧ y / s < 1
  · rw [if_pos h]
    refine ⟨fun g hg => ?_, by simpa using ⟨h1.1 h.1, h2.1 h.2⟩⟩
    have e := Option.some.inj hg
    subst e
    have h3 : 0 < 1 - y / s := by linarith [h.2]
    have h4 : 1 - y / s ≠ 0 := h3.ne'
    have h5 : y / s ≠ 0 := h.1.ne'
    unfold sigmoid
    rw [Real.exp_neg, Real.exp_log (div_pos h.1 h3), inv_div]
    have h6 : 1 + (1 - y / s) / (y / s) = 1 / (y / s) := by
      generalize y / s = t at *
      field_simp
      ring
    rw [h6, one_div_one_div, div_mul_cancel₀ _ hs.ne']
  · rw [if_neg h]
    refine ⟨fun g hg => by simp at hg, ?_⟩
    rw [h1, h2] at h
    simp only [Option.isSome_none, Bool.false_eq_true, false_iff]
    exact h

example : ∃ g, invSigmoid 2 5 = some g ∧ sigmoid g 5 = 2 := by
  obtain ⟨h1, h2⟩ := C121_start 2 5 (by norm_num)
  obtain ⟨g, hg⟩ := Option.isSome_iff_exists.1 (h2.2 ⟨by norm_num, by norm_num⟩)
  exact ⟨g, hg, h1 g hg⟩

end Elisa.Plot.ErrBar
