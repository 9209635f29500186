import Verif.Infer.StatProps
import Mathlib.Analysis.Convex.Extrema
import Mathlib.Analysis.MeanInequalities
import Mathlib.Tactic

/-!
# C119: the fit statistics are convex in the source counts

The statistic of a channel is a convex function of the expected source counts, with a single minimum at the net counts; so is the total statistic of a fit as a function of the
amplitudes of the components, whose local minima are therefore global.
-/

namespace Elisa.Infer

open Elisa

section Lemmas

theorem poisLik_mix {n x y t : ℝ} (hn : 0 ≤ n) (hx : 0 ≤ x) (hy : 0 ≤ y) (h0 : 0 ≤ t) (h1 : t ≤ 1) :
    poisLik n x ^ (1 - t) * poisLik n y ^ t ≤ poisLik n ((1 - t) * x + t * y) := by
  unfold poisLik
  have g := Real.geom_mean_le_arith_mean2_weighted (by linarith : 0 ≤ 1 - t) h0 hx hy (by ring)
  have e1 : (x ^ n * Real.exp (-x)) ^ (1 - t) * (y ^ n * Real.exp (-y)) ^ t =
      (x ^ (1 - t) * y ^ t) ^ n * Real.exp (-((1 - t) * x + t * y)) := by
    rw [Real.mul_rpow (by positivity) (by positivity), Real.mul_rpow (by positivity) (by positivity),
      Real.mul_rpow (by positivity) (by positivity), ← Real.rpow_mul hx, ← Real.rpow_mul hy, ← Real.rpow_mul hx, ← Real.rpow_mul hy,
      ← Real.exp_mul, ← Real.exp_mul]
    have : Real.exp (-((1 - t) * x + t * y)) = Real.exp (-x * (1 - t)) * Real.exp (-y * t) := by
      rw [← Real.exp_add]; ring_nf
    rw [this, mul_comm n (1 - t), mul_comm n t]
    ring
  rw [e1]
  apply mul_le_mul_of_nonneg_right _ (Real.exp_pos _).le
  exact Real.rpow_le_rpow (by positivity) g hn

theorem gaussLik_mix {B x y σ t : ℝ} (h0 : 0 ≤ t) (h1 : t ≤ 1) :
    gaussLik B x σ ^ (1 - t) * gaussLik B y σ ^ t ≤ gaussLik B ((1 - t) * x + t * y) σ := by
  unfold gaussLik
  rw [← Real.exp_mul, ← Real.exp_mul, ← Real.exp_add, Real.exp_le_exp]
  have key : (B - ((1 - t) * x + t * y)) ^ 2 ≤ (1 - t) * (B - x) ^ 2 + t * (B - y) ^ 2 := by
    have : (1 - t) * (B - x) ^ 2 + t * (B - y) ^ 2 - (B - ((1 - t) * x + t * y)) ^ 2 = t * (1 - t) * (x - y) ^ 2 := by ring
    have h : 0 ≤ t * (1 - t) * (x - y) ^ 2 := by
      have : 0 ≤ 1 - t := by linarith
      positivity
    linarith
  have hs : (0 : ℝ) ≤ 2 * σ ^ 2 := by positivity
  have := div_le_div_of_nonneg_right key hs
  have e : ((1 - t) * (B - x) ^ 2 + t * (B - y) ^ 2) / (2 * σ ^ 2) = (1 - t) * ((B - x) ^ 2 / (2 * σ ^ 2)) + t * ((B - y) ^ 2 / (2 * σ ^ 2)) := by
    ring
  rw [e] at this
  linarith

/-- Two log-concave factors. -/
theorem mul_mix {a₁ a₂ a b₁ b₂ b t : ℝ} (ha₁ : 0 ≤ a₁) (ha₂ : 0 ≤ a₂) (hb₁ : 0 ≤ b₁) (hb₂ : 0 ≤ b₂)
    (ha : a₁ ^ (1 - t) * a₂ ^ t ≤ a) (hb : b₁ ^ (1 - t) * b₂ ^ t ≤ b) : (a₁ * b₁) ^ (1 - t) * (a₂ * b₂) ^ t ≤ a * b := by
  rw [Real.mul_rpow ha₁ hb₁, Real.mul_rpow ha₂ hb₂]
  calc a₁ ^ (1 - t) * b₁ ^ (1 - t) * (a₂ ^ t * b₂ ^ t) = (a₁ ^ (1 - t) * a₂ ^ t) * (b₁ ^ (1 - t) * b₂ ^ t) := by ring
    _ ≤ a * b := mul_le_mul ha hb (by positivity) (le_trans (by positivity) ha)

/-- Normalised log-concave functions. -/
theorem div_mix {a₁ a₂ a c t : ℝ} (ha₁ : 0 ≤ a₁) (ha₂ : 0 ≤ a₂) (hc : 0 < c) (ha : a₁ ^ (1 - t) * a₂ ^ t ≤ a) :
    (a₁ / c) ^ (1 - t) * (a₂ / c) ^ t ≤ a / c := by
  rw [Real.div_rpow ha₁ hc.le, Real.div_rpow ha₂ hc.le, div_mul_div_comm, ← Real.rpow_add hc]
  have : 1 - t + t = 1 := by ring
  rw [this, Real.rpow_one]
  exact div_le_div_of_nonneg_right ha hc.le

/-- From likelihoods to deviances. -/
theorem dev_mix {D₁ D₂ D t : ℝ} (h : Real.exp (-D₁ / 2) ^ (1 - t) * Real.exp (-D₂ / 2) ^ t ≤ Real.exp (-D / 2)) :
    D ≤ (1 - t) * D₁ + t * D₂ := by
  rw [← Real.exp_mul, ← Real.exp_mul, ← Real.exp_add, Real.exp_le_exp] at h
  nlinarith

theorem gaussLik_nonneg (B x σ : ℝ) : 0 ≤ gaussLik B x σ := (Real.exp_pos _).le

theorem onOffLik_mix {n m s₁ s₂ a x y t : ℝ} (hn : 0 ≤ n) (hm : 0 ≤ m) (hx : 0 ≤ x) (hy : 0 ≤ y) (h1' : 0 ≤ s₁ + a * x)
    (h2' : 0 ≤ s₂ + a * y) (h0 : 0 ≤ t) (h1 : t ≤ 1) :
    onOffLik n m s₁ a x ^ (1 - t) * onOffLik n m s₂ a y ^ t ≤ onOffLik n m ((1 - t) * s₁ + t * s₂) a ((1 - t) * x + t * y) := by
  unfold onOffLik
  have e : (1 - t) * s₁ + t * s₂ + a * ((1 - t) * x + t * y) = (1 - t) * (s₁ + a * x) + t * (s₂ + a * y) := by ring
  rw [e]
  exact mul_mix (poisLik_nonneg h1') (poisLik_nonneg h2') (poisLik_nonneg hx) (poisLik_nonneg hy) (poisLik_mix hn h1' h2' h0 h1)
    (poisLik_mix hm hx hy h0 h1)

theorem onGaussLik_mix {n B σ s₁ s₂ a x y t : ℝ} (hn : 0 ≤ n) (h1' : 0 ≤ s₁ + a * x)
    (h2' : 0 ≤ s₂ + a * y) (h0 : 0 ≤ t) (h1 : t ≤ 1) :
    onGaussLik n B σ s₁ a x ^ (1 - t) * onGaussLik n B σ s₂ a y ^ t ≤ onGaussLik n B σ ((1 - t) * s₁ + t * s₂) a ((1 - t) * x + t * y) := by
  unfold onGaussLik
  have e : (1 - t) * s₁ + t * s₂ + a * ((1 - t) * x + t * y) = (1 - t) * (s₁ + a * x) + t * (s₂ + a * y) := by ring
  rw [e]
  exact mul_mix (poisLik_nonneg h1') (poisLik_nonneg h2') (gaussLik_nonneg _ _ _) (gaussLik_nonneg _ _ _) (poisLik_mix hn h1' h2' h0 h1)
    (gaussLik_mix h0 h1)

end Lemmas

/-- **C119 (one channel, convex).**  Whatever the statistic, the deviance of a channel is a convex function of the expected source counts. -/
theorem C119_channel_convex (stat : Stat) (d : FitData) (hu : Usable stat d) (j : Nat) (hj : j < d.size) (s₁ s₂ t D₁ D₂ D : ℝ)
    (h0 : 0 ≤ t) (h1 : t ≤ 1) (hs₁ : 0 ≤ expected stat d j s₁) (hs₂ : 0 ≤ expected stat d j s₂)
    (hD₁ : IsDeviance stat d j s₁ D₁) (hD₂ : IsDeviance stat d j s₂ D₂) (hD : IsDeviance stat d j ((1 - t) * s₁ + t * s₂) D) :
    D ≤ (1 - t) * D₁ + t * D₂ := by
  apply dev_mix
  unfold IsDeviance Usable expected at *
  cases stat with
  | chi2 =>
    simp only at hD₁ hD₂ hD
    rw [hD₁, hD₂, hD]
    exact gaussLik_mix h0 h1
  | cstat =>
    simp only at hD₁ hD₂ hD hu hs₁ hs₂
    rw [hD₁, hD₂, hD]
    exact div_mix (poisLik_nonneg hs₁) (poisLik_nonneg hs₂) (poisLik_self_pos (hu j hj)) (poisLik_mix (hu j hj) hs₁ hs₂ h0 h1)
  | pstat =>
    cases hb : d.back with
    | none => simp only [hb] at hu
    | some b =>
      simp only [hb] at hD₁ hD₂ hD hu hs₁ hs₂
      rw [hD₁, hD₂, hD]
      have e : (1 - t) * s₁ + t * s₂ + nth b.ratio j * nth b.counts j =
          (1 - t) * (s₁ + nth b.ratio j * nth b.counts j) + t * (s₂ + nth b.ratio j * nth b.counts j) := by ring
      rw [e]
      exact div_mix (poisLik_nonneg hs₁) (poisLik_nonneg hs₂) (poisLik_self_pos (hu j hj)) (poisLik_mix (hu j hj) hs₁ hs₂ h0 h1)
  | pgstat =>
    cases hb : d.back with
    | none => simp only [hb] at hu
    | some b =>
      simp only [hb] at hD₁ hD₂ hD hu hs₁ hs₂
      obtain ⟨hn, -, ha⟩ := hu j hj
      obtain ⟨x, hx, ex⟩ := hD₁.1
      obtain ⟨y, hy, ey⟩ := hD₂.1
      have p1 : 0 ≤ s₁ + nth b.ratio j * x := by positivity
      have p2 : 0 ≤ s₂ + nth b.ratio j * y := by positivity
      have hz : 0 ≤ (1 - t) * x + t * y := by
        have : 0 ≤ 1 - t := by linarith
        positivity
      refine le_trans ?_ (hD.2 ⟨_, hz, rfl⟩)
      rw [ex, ey]
      exact div_mix (mul_nonneg (poisLik_nonneg p1) (gaussLik_nonneg _ _ _)) (mul_nonneg (poisLik_nonneg p2) (gaussLik_nonneg _ _ _))
        (poisLik_self_pos hn) (onGaussLik_mix hn p1 p2 h0 h1)
  | wstat =>
    cases hb : d.back with
    | none => simp only [hb] at hu
    | some b =>
      simp only [hb] at hD₁ hD₂ hD hu hs₁ hs₂
      obtain ⟨hn, hm, ha⟩ := hu j hj
      obtain ⟨x, hx, ex⟩ := hD₁.1
      obtain ⟨y, hy, ey⟩ := hD₂.1
      have p1 : 0 ≤ s₁ + nth b.ratio j * x := by positivity
      have p2 : 0 ≤ s₂ + nth b.ratio j * y := by positivity
      have hz : 0 ≤ (1 - t) * x + t * y := by
        have : 0 ≤ 1 - t := by linarith
        positivity
      refine le_trans ?_ (hD.2 ⟨_, hz, rfl⟩)
      rw [ex, ey]
      exact div_mix (mul_nonneg (poisLik_nonneg p1) (poisLik_nonneg hx)) (mul_nonneg (poisLik_nonneg p2) (poisLik_nonneg hy))
        (mul_pos (poisLik_self_pos hn) (poisLik_self_pos hm)) (onOffLik_mix hn hm hx hy p1 p2 h0 h1)

/-- The source counts that fit channel `j` best: the net counts. (With a negative Gaussian background estimate `pgstat` uses a background of zero.) -/
noncomputable def bestCounts (stat : Stat) (d : FitData) (j : Nat) : ℝ :=
  match stat, d.back with
  | .chi2, _ => nth d.netCounts j
  | .pstat, some b => nth d.specCounts j - nth b.ratio j * nth b.counts j
  | .pgstat, some b => nth d.specCounts j - nth b.ratio j * max (nth b.counts j) 0
  | .wstat, some b => nth d.specCounts j - nth b.ratio j * nth b.counts j
  | _, _ => nth d.specCounts j

section Strict

theorem gaussLik_le_max (B x σ : ℝ) (hx : 0 ≤ x) : gaussLik B x σ ≤ gaussLik B (max B 0) σ := by
  unfold gaussLik
  apply Real.exp_le_exp.2
  apply neg_le_neg
  apply div_le_div_of_nonneg_right _ (by positivity)
  rcases le_total B 0 with h | h
  · rw [max_eq_right h]; nlinarith
  · rw [max_eq_left h]; nlinarith [sq_nonneg (B - x)]

theorem gaussLik_eq_max (B x σ : ℝ) (hσ : 0 < σ) (hx : 0 ≤ x) (he : gaussLik B x σ = gaussLik B (max B 0) σ) : x = max B 0 := by
  unfold gaussLik at he
  have h1 := Real.exp_injective he
  have h2 : (B - x) ^ 2 = (B - max B 0) ^ 2 := by
    have hs : (2 * σ ^ 2) ≠ 0 := by positivity
    have h3 := neg_injective h1
    field_simp at h3
    linarith
  rcases le_total B 0 with h | h
  · rw [max_eq_right h] at h2 ⊢
    nlinarith
  · rw [max_eq_left h] at h2 ⊢
    have : (B - x) ^ 2 = 0 := by rw [h2]; ring
    have : B - x = 0 := by simpa using this
    linarith

/-- A point strictly between the best point and another one is strictly better than the latter. -/
theorem strict_step {L L₁ L₂ t : ℝ} (h0 : 0 < t) (h1 : t < 1) (hL2 : 0 < L₂) (hlt : L₂ < L) (h : L ^ (1 - t) * L₂ ^ t ≤ L₁) : L₂ < L₁ := by
  refine lt_of_lt_of_le ?_ h
  have e : L₂ = L₂ ^ (1 - t) * L₂ ^ t := by
    rw [← Real.rpow_add hL2]
    have : 1 - t + t = 1 := by ring
    rw [this, Real.rpow_one]
  conv_lhs => rw [e]
  exact mul_lt_mul_of_pos_right (Real.rpow_lt_rpow hL2.le hlt (by linarith)) (Real.rpow_pos_of_pos hL2 _)

/-- The mixing parameter of a point between `m` and `s₂`. -/
theorem between {m s₁ s₂ : ℝ} (h : (m ≤ s₁ ∧ s₁ < s₂) ∨ (s₂ < s₁ ∧ s₁ ≤ m)) : ∃ t, 0 ≤ t ∧ t < 1 ∧ s₁ = (1 - t) * m + t * s₂ ∧ s₂ ≠ m ∧ (t = 0 → s₁ = m) := by
  have hne : s₂ - m ≠ 0 := by rcases h with h | h <;> intro e <;> linarith [h.1, h.2]
  refine ⟨(s₁ - m) / (s₂ - m), ?_, ?_, ?_, fun e => hne (by linarith), ?_⟩
  · rcases h with ⟨h1, h2⟩ | ⟨h1, h2⟩
    · exact div_nonneg (by linarith) (by linarith)
    · exact div_nonneg_of_nonpos (by linarith) (by linarith)
  · rcases h with ⟨h1, h2⟩ | ⟨h1, h2⟩
    · rw [div_lt_one (by linarith)]; linarith
    · rw [div_lt_one_of_neg (by linarith)]; linarith
  · field_simp; ring
  · intro e
    rw [div_eq_zero_iff] at e
    rcases e with e | e
    · linarith
    · exact absurd e hne

end Strict

/-- **C119 (one channel, single minimum).**  The deviance of a channel grows strictly on either side of the net counts: of two values of the source counts on the same side,
the one further away has the larger deviance. In particular there is no other minimum. -/
theorem C119_single_minimum (stat : Stat) (d : FitData) (hu : Usable stat d) (j : Nat) (hj : j < d.size) (s₁ s₂ D₁ D₂ : ℝ)
    (hs₂ : 0 ≤ expected stat d j s₂) (hs₁ : 0 ≤ expected stat d j s₁)
    (h : (bestCounts stat d j ≤ s₁ ∧ s₁ < s₂) ∨ (s₂ < s₁ ∧ s₁ ≤ bestCounts stat d j))
    (hD₁ : IsDeviance stat d j s₁ D₁) (hD₂ : IsDeviance stat d j s₂ D₂) : D₁ < D₂ := by
  obtain ⟨t, t0, t1, e1, hne, -⟩ := between h
  suffices hlt : Real.exp (-D₂ / 2) < Real.exp (-D₁ / 2) by
    rw [Real.exp_lt_exp] at hlt
    linarith
  have hpos := Real.exp_pos (-D₂ / 2)
  -- the case t = 0 and the case t > 0 together
  have step : ∀ L, Real.exp (-D₂ / 2) < L → L ^ (1 - t) * Real.exp (-D₂ / 2) ^ t ≤ Real.exp (-D₁ / 2) → Real.exp (-D₂ / 2) < Real.exp (-D₁ / 2) := by
    intro L hL hle
    rcases t0.eq_or_lt with e | t0'
    · rw [← e] at hle
      simp at hle
      linarith
    · exact strict_step t0' t1 hpos hL hle
  unfold IsDeviance Usable expected bestCounts at *
  cases stat with
  | chi2 =>
    simp only at hD₁ hD₂ hu hs₁ hs₂ e1 hne
    apply step (gaussLik (nth d.netCounts j) (nth d.netCounts j) (nth d.netErrors j))
    · have e : gaussLik (nth d.netCounts j) (nth d.netCounts j) (nth d.netErrors j) = 1 := by unfold gaussLik; simp
      rw [hD₂, e]
      unfold gaussLik
      rw [Real.exp_lt_one_iff]
      have := hu j hj
      have : 0 < (nth d.netCounts j - s₂) ^ 2 := by
        apply sq_pos_of_ne_zero
        intro e
        exact hne (by linarith)
      have : 0 < (nth d.netCounts j - s₂) ^ 2 / (2 * nth d.netErrors j ^ 2) := by positivity
      linarith
    · rw [hD₁, hD₂, e1]
      exact gaussLik_mix t0 t1.le
  | cstat =>
    simp only at hD₁ hD₂ hu hs₁ hs₂ e1 hne
    have hn := hu j hj
    have hp := poisLik_self_pos hn
    apply step (poisLik (nth d.specCounts j) (nth d.specCounts j) / poisLik (nth d.specCounts j) (nth d.specCounts j))
    · rw [hD₂, div_self hp.ne', div_lt_one hp]
      exact lt_of_le_of_ne (poisLik_le_self hn hs₂) (fun e => hne ((poisLik_eq_self hn hs₂).1 e))
    · rw [hD₁, hD₂, e1]
      exact div_mix hp.le (poisLik_nonneg hs₂) hp (poisLik_mix hn hn hs₂ t0 t1.le)
  | pstat =>
    cases hb : d.back with
    | none => simp only [hb] at hu
    | some b =>
      simp only [hb] at hD₁ hD₂ hu hs₁ hs₂ e1 hne
      have hn := hu j hj
      have hp := poisLik_self_pos hn
      apply step (poisLik (nth d.specCounts j) (nth d.specCounts j) / poisLik (nth d.specCounts j) (nth d.specCounts j))
      · rw [hD₂, div_self hp.ne', div_lt_one hp]
        exact lt_of_le_of_ne (poisLik_le_self hn hs₂) (fun e => hne (by have := (poisLik_eq_self hn hs₂).1 e; linarith))
      · have e2 : s₁ + nth b.ratio j * nth b.counts j = (1 - t) * nth d.specCounts j + t * (s₂ + nth b.ratio j * nth b.counts j) := by
          rw [e1]; ring
        rw [hD₁, hD₂, e2]
        exact div_mix hp.le (poisLik_nonneg hs₂) hp (poisLik_mix hn hn hs₂ t0 t1.le)
  | pgstat =>
    cases hb : d.back with
    | none => simp only [hb] at hu
    | some b =>
      simp only [hb] at hD₁ hD₂ hu hs₁ hs₂ e1 hne
      obtain ⟨hn, hσ, ha⟩ := hu j hj
      have hp := poisLik_self_pos hn
      obtain ⟨y, hy, ey⟩ := hD₂.1
      have p2 : 0 ≤ s₂ + nth b.ratio j * y := by positivity
      have hm : 0 ≤ max (nth b.counts j) 0 := le_max_right _ _
      have eq0 : nth d.specCounts j - nth b.ratio j * max (nth b.counts j) 0 + nth b.ratio j * max (nth b.counts j) 0 = nth d.specCounts j := by ring
      apply step (onGaussLik (nth d.specCounts j) (nth b.counts j) (nth b.errors j)
        (nth d.specCounts j - nth b.ratio j * max (nth b.counts j) 0) (nth b.ratio j) (max (nth b.counts j) 0) / poisLik (nth d.specCounts j) (nth d.specCounts j))
      · rw [ey]
        apply div_lt_div_of_pos_right _ hp
        unfold onGaussLik
        rw [eq0]
        rcases (poisLik_le_self hn p2).lt_or_eq with hlt | heq
        · calc poisLik (nth d.specCounts j) (s₂ + nth b.ratio j * y) * gaussLik (nth b.counts j) y (nth b.errors j)
              < poisLik (nth d.specCounts j) (nth d.specCounts j) * gaussLik (nth b.counts j) y (nth b.errors j) :=
                mul_lt_mul_of_pos_right hlt (Real.exp_pos _)
            _ ≤ _ := mul_le_mul_of_nonneg_left (gaussLik_le_max _ _ _ hy) hp.le
        · have e3 := (poisLik_eq_self hn p2).1 heq
          rw [heq]
          apply mul_lt_mul_of_pos_left _ hp
          refine lt_of_le_of_ne (gaussLik_le_max _ _ _ hy) (fun e => hne ?_)
          have := gaussLik_eq_max _ _ _ hσ hy e
          rw [← this]
          linarith
      · have hz : 0 ≤ (1 - t) * max (nth b.counts j) 0 + t * y := by
          have : 0 ≤ 1 - t := by linarith
          positivity
        refine le_trans ?_ (hD₁.2 ⟨_, hz, rfl⟩)
        rw [ey, e1]
        refine div_mix ?_ (mul_nonneg (poisLik_nonneg p2) (gaussLik_nonneg _ _ _)) hp (onGaussLik_mix hn (by rw [eq0]; exact hn) p2 t0 t1.le)
        unfold onGaussLik
        rw [eq0]
        exact mul_nonneg hp.le (gaussLik_nonneg _ _ _)
  | wstat =>
    cases hb : d.back with
    | none => simp only [hb] at hu
    | some b =>
      simp only [hb] at hD₁ hD₂ hu hs₁ hs₂ e1 hne
      obtain ⟨hn, hm, ha⟩ := hu j hj
      have hp := poisLik_self_pos hn
      have hq := poisLik_self_pos hm
      obtain ⟨y, hy, ey⟩ := hD₂.1
      have p2 : 0 ≤ s₂ + nth b.ratio j * y := by positivity
      have eq0 : nth d.specCounts j - nth b.ratio j * nth b.counts j + nth b.ratio j * nth b.counts j = nth d.specCounts j := by ring
      apply step ((poisLik (nth d.specCounts j) (nth d.specCounts j) * poisLik (nth b.counts j) (nth b.counts j)) /
        (poisLik (nth d.specCounts j) (nth d.specCounts j) * poisLik (nth b.counts j) (nth b.counts j)))
      · rw [ey, div_self (mul_pos hp hq).ne', div_lt_one (mul_pos hp hq)]
        unfold onOffLik
        rcases (poisLik_le_self hn p2).lt_or_eq with hlt | heq
        · calc poisLik (nth d.specCounts j) (s₂ + nth b.ratio j * y) * poisLik (nth b.counts j) y
              ≤ poisLik (nth d.specCounts j) (s₂ + nth b.ratio j * y) * poisLik (nth b.counts j) (nth b.counts j) :=
                mul_le_mul_of_nonneg_left (poisLik_le_self hm hy) (poisLik_nonneg p2)
            _ < _ := mul_lt_mul_of_pos_right hlt hq
        · have e3 := (poisLik_eq_self hn p2).1 heq
          rw [heq]
          apply mul_lt_mul_of_pos_left _ hp
          refine lt_of_le_of_ne (poisLik_le_self hm hy) (fun e => hne ?_)
          have := (poisLik_eq_self hm hy).1 e
          rw [← this]
          linarith
      · have hz : 0 ≤ (1 - t) * nth b.counts j + t * y := by
          have : 0 ≤ 1 - t := by linarith
          positivity
        refine le_trans ?_ (hD₁.2 ⟨_, hz, rfl⟩)
        rw [ey, e1]
        have hs : onOffLik (nth d.specCounts j) (nth b.counts j) (nth d.specCounts j - nth b.ratio j * nth b.counts j) (nth b.ratio j) (nth b.counts j) =
            poisLik (nth d.specCounts j) (nth d.specCounts j) * poisLik (nth b.counts j) (nth b.counts j) := by
          unfold onOffLik
          rw [eq0]
        refine div_mix (mul_pos hp hq).le (mul_nonneg (poisLik_nonneg p2) (poisLik_nonneg hy)) (mul_pos hp hq) ?_
        rw [← hs]
        exact onOffLik_mix hn hm hm hy (by rw [eq0]; exact hn) p2 t0 t1.le

section Total

/-- The deviance of one data set, as the code computes it (0 if it cannot). -/
noncomputable def devOf (x : Stat × FitData × List ℝ) : ℝ :=
  match likelihood x.1 x.2.1 x.2.2 with
  | .ok s => -2 * s.loglike.sum
  | .error _ => 0

theorem fitSites_total (ds : List (Stat × FitData × List ℝ)) (sites : List Sites) (h : fitSites ds = .ok sites) :
    (deviance (getLoglike sites)).total = (ds.map devOf).sum := by
  have key : ∀ (ds : List (Stat × FitData × List ℝ)) (sites : List Sites), fitSites ds = .ok sites →
      -2 * ((sites.map (·.loglike)).flatten).sum = (ds.map devOf).sum := by
    intro ds
    induction ds with
    | nil =>
      intro sites h
      obtain rfl : [] = sites := Except.ok.inj h
      simp
    | cons x ds ih =>
      intro sites h
      unfold fitSites at h ih
      rw [List.mapM_cons] at h
      cases hx : likelihood x.1 x.2.1 x.2.2 with
      | error e => rw [hx] at h; exact absurd h (by simp [bind, Except.bind])
      | ok s =>
        cases hr : (ds.mapM fun x => likelihood x.1 x.2.1 x.2.2) with
        | error e => rw [hx, hr] at h; exact absurd h (by simp [bind, Except.bind])
        | ok r =>
          rw [hx, hr] at h
          obtain rfl : s :: r = sites := Except.ok.inj h
          have := ih r hr
          simp only [List.map_cons, List.flatten_cons, List.sum_append, List.sum_cons, devOf, hx]
          rw [← this]
          ring
  have := key ds sites h
  simpa [deviance, getLoglike] using this

/-- `um` is the mixture of `u₁` and `u₂`, energy bin by energy bin. -/
def Mixed (n : Nat) (t : ℝ) (u₁ u₂ um : List ℝ) : Prop := ∀ r < n, nth um r = (1 - t) * nth u₁ r + t * nth u₂ r

theorem folded_mix {d : FitData} {t : ℝ} {u₁ u₂ um : List ℝ} (h : Mixed d.matrix.length t u₁ u₂ um) (j : Nat) :
    d.folded um j = (1 - t) * d.folded u₁ j + t * d.folded u₂ j := by
  unfold FitData.folded
  have : ∑ r ∈ Finset.range d.matrix.length, nth (d.matrix.getD r []) j * nth um r =
      (1 - t) * ∑ r ∈ Finset.range d.matrix.length, nth (d.matrix.getD r []) j * nth u₁ r +
      t * ∑ r ∈ Finset.range d.matrix.length, nth (d.matrix.getD r []) j * nth u₂ r := by
    rw [Finset.mul_sum, Finset.mul_sum, ← Finset.sum_add_distrib]
    apply Finset.sum_congr rfl
    intro r hr
    rw [h r (Finset.mem_range.1 hr)]
    ring
  rw [this]
  ring

theorem expected_mix (stat : Stat) (d : FitData) (j : Nat) (t s₁ s₂ : ℝ) :
    expected stat d j ((1 - t) * s₁ + t * s₂) = (1 - t) * expected stat d j s₁ + t * expected stat d j s₂ := by
  unfold expected
  cases stat <;> cases d.back <;> simp only <;> ring

theorem mix_bounds {t a b lo hi : ℝ} (h0 : 0 ≤ t) (h1 : t ≤ 1) (ha : lo ≤ a ∧ a ≤ hi) (hb : lo ≤ b ∧ b ≤ hi) :
    lo ≤ (1 - t) * a + t * b ∧ (1 - t) * a + t * b ≤ hi := by
  have h2 : 0 ≤ 1 - t := by linarith
  constructor <;> nlinarith [mul_le_mul_of_nonneg_left ha.1 h2, mul_le_mul_of_nonneg_left ha.2 h2, mul_le_mul_of_nonneg_left hb.1 h0,
    mul_le_mul_of_nonneg_left hb.2 h0]

theorem inRange_mix {stat : Stat} {d : FitData} {t : ℝ} {u₁ u₂ um : List ℝ} (h0 : 0 ≤ t) (h1 : t ≤ 1) (hm : Mixed d.matrix.length t u₁ u₂ um)
    (hr₁ : InRange stat d u₁ (d.folded u₁)) (hr₂ : InRange stat d u₂ (d.folded u₂)) : InRange stat d um (d.folded um) := by
  refine ⟨?_, ?_⟩
  · intro r hr
    rw [hm r hr]
    exact mix_bounds h0 h1 (hr₁.1 r hr) (hr₂.1 r hr)
  · intro j hj
    refine ⟨rfl, ?_⟩
    rw [folded_mix hm j, expected_mix]
    exact mix_bounds h0 h1 (hr₁.2 j hj).2 (hr₂.2 j hj).2

theorem nth_sum (l : List ℝ) : l.sum = ∑ j ∈ Finset.range l.length, nth l j := by
  unfold nth
  induction l using List.reverseRecOn with
  | nil => simp
  | append_singleton l x ih =>
    rw [List.sum_append, List.length_append, List.length_singleton, Finset.sum_range_succ, ih]
    congr 1
    · apply Finset.sum_congr rfl
      intro j hj
      rw [List.getD_eq_getElem?_getD, List.getD_eq_getElem?_getD, List.getElem?_append_left (Finset.mem_range.1 hj)]
    · simp

theorem devOf_mix {stat : Stat} {d : FitData} {t : ℝ} {u₁ u₂ um : List ℝ} (hu : Usable stat d) (h0 : 0 ≤ t) (h1 : t ≤ 1)
    (hm : Mixed d.matrix.length t u₁ u₂ um) (hr₁ : InRange stat d u₁ (d.folded u₁)) (hr₂ : InRange stat d u₂ (d.folded u₂)) :
    devOf (stat, d, um) ≤ (1 - t) * devOf (stat, d, u₁) + t * devOf (stat, d, u₂) := by
  obtain ⟨x₁, a1, a2, a3⟩ := C25_channel_deviance stat d u₁ _ hu hr₁
  obtain ⟨x₂, b1, b2, b3⟩ := C25_channel_deviance stat d u₂ _ hu hr₂
  obtain ⟨x, c1, c2, c3⟩ := C25_channel_deviance stat d um _ hu (inRange_mix h0 h1 hm hr₁ hr₂)
  unfold devOf
  simp only [a1, b1, c1]
  rw [nth_sum, nth_sum, nth_sum, a2, b2, c2, Finset.mul_sum, Finset.mul_sum, Finset.mul_sum, Finset.mul_sum, Finset.mul_sum,
    ← Finset.sum_add_distrib]
  apply Finset.sum_le_sum
  intro j hj
  have hj' := Finset.mem_range.1 hj
  obtain ⟨D₁, e1, -, i1⟩ := a3 j hj'
  obtain ⟨D₂, e2, -, i2⟩ := b3 j hj'
  obtain ⟨D, e3, -, i3⟩ := c3 j hj'
  rw [e1, e2, e3]
  rw [folded_mix hm j] at i3
  refine C119_channel_convex stat d hu j hj' _ _ t D₁ D₂ D h0 h1 ?_ ?_ i1 i2 i3
  · exact le_trans (by norm_num) (hr₁.2 j hj').2.1
  · exact le_trans (by norm_num) (hr₂.2 j hj').2.1

end Total

/-- A data set of a fit together with the bin fluxes of the components of its model at unit amplitude. -/
structure Part where
  stat : Stat
  data : FitData
  comps : List (List ℝ)

/-- Bin fluxes of the model for the amplitudes `K` of its components. -/
noncomputable def Part.fluxes (p : Part) (K : Nat → ℝ) : List ℝ :=
  (List.range p.data.matrix.length).map fun r => ∑ c ∈ Finset.range p.comps.length, K c * nth (p.comps.getD c []) r

/-- The amplitudes for which nothing is clipped. -/
def Allowed (parts : List Part) : Set (Nat → ℝ) :=
  {K | ∀ p ∈ parts, InRange p.stat p.data (p.fluxes K) (p.data.folded (p.fluxes K))}

/-- The fit statistic that the code computes, as a function of the amplitudes. -/
noncomputable def fitStatistic (parts : List Part) (K : Nat → ℝ) : ℝ :=
  match fitSites (parts.map fun p => (p.stat, p.data, p.fluxes K)) with
  | .ok sites => (deviance (getLoglike sites)).total
  | .error _ => 0

theorem fluxes_mix (p : Part) (t : ℝ) (K L : Nat → ℝ) :
    Mixed p.data.matrix.length t (p.fluxes K) (p.fluxes L) (p.fluxes ((1 - t) • K + t • L)) := by
  intro r hr
  unfold Part.fluxes
  rw [nth_map hr, nth_map hr, nth_map hr, Finset.mul_sum, Finset.mul_sum, ← Finset.sum_add_distrib]
  apply Finset.sum_congr rfl
  intro c _
  simp only [Pi.add_apply, Pi.smul_apply, smul_eq_mul]
  ring

theorem fitStatistic_eq (parts : List Part) (hu : ∀ p ∈ parts, Usable p.stat p.data) (K : Nat → ℝ) (hK : K ∈ Allowed parts) :
    fitStatistic parts K = (parts.map fun p => devOf (p.stat, p.data, p.fluxes K)).sum ∧
    ∃ sites, fitSites (parts.map fun p => (p.stat, p.data, p.fluxes K)) = .ok sites := by
  obtain ⟨sites, h1, -⟩ := C25_fit (parts.map fun p => (p.stat, p.data, p.fluxes K))
    (fun i => ((parts.map fun p => (p.stat, p.data, p.fluxes K))[i]?.map fun x => x.2.1.folded x.2.2).getD (fun _ => 0)) (by
      intro i hi
      have hi' : i < parts.length := by simpa using hi
      have hp : parts[i] ∈ parts := List.getElem_mem hi'
      simp only [List.getElem_map, List.getElem?_map, List.getElem?_eq_getElem hi', Option.map_some, Option.getD_some]
      exact ⟨hu _ hp, hK _ hp⟩)
  refine ⟨?_, sites, h1⟩
  unfold fitStatistic
  simp only [h1]
  rw [fitSites_total _ _ h1, List.map_map]
  rfl

/-- **C119 (whole fit, convex).**  The total fit statistic, of any number of data sets with any statistics, is a convex function of the amplitudes of the components of the
model, over all amplitudes for which nothing is clipped. -/
theorem C119_fit_convex (parts : List Part) (hu : ∀ p ∈ parts, Usable p.stat p.data) : ConvexOn ℝ (Allowed parts) (fitStatistic parts) := by
  have hconv : Convex ℝ (Allowed parts) := by
    intro K hK L hL a b ha hb hab
    obtain rfl : a = 1 - b := by linarith
    intro p hp
    exact inRange_mix hb (by linarith) (fluxes_mix p b K L) (hK p hp) (hL p hp)
  refine ⟨hconv, ?_⟩
  intro K hK L hL a b ha hb hab
  obtain rfl : a = 1 - b := by linarith
  have hM := hconv hK hL ha hb hab
  rw [(fitStatistic_eq parts hu _ hM).1, (fitStatistic_eq parts hu K hK).1, (fitStatistic_eq parts hu L hL).1]
  simp only [smul_eq_mul]
  clear hM hconv
  induction parts with
  | nil => simp
  | cons p ps ih =>
    simp only [List.map_cons, List.sum_cons]
    have h1 := devOf_mix (hu p (by simp)) hb (by linarith) (fluxes_mix p b K L) (hK p (by simp)) (hL p (by simp))
    have h2 := ih (fun q hq => hu q (by simp [hq])) (fun q hq => hK q (by simp [hq])) (fun q hq => hL q (by simp [hq]))
    linarith

/-- **C119 (no local minima).**  If no amplitudes nearby have a smaller fit statistic, none have: a local minimum in the amplitudes is a global one. -/
theorem C119_no_local_minima (parts : List Part) (hu : ∀ p ∈ parts, Usable p.stat p.data) (K : Nat → ℝ) (hK : K ∈ Allowed parts)
    (h : IsLocalMinOn (fitStatistic parts) (Allowed parts) K) : ∀ L ∈ Allowed parts, fitStatistic parts K ≤ fitStatistic parts L :=
  fun L hL => IsMinOn.of_isLocalMinOn_of_convexOn hK h (C119_fit_convex parts hu) hL

end Elisa.Infer

namespace Elisa.Infer

set_option exponentiation.threshold 400 in
/-- The hypotheses are met: for every statistic, the example data set with a model of two components; amplitudes `(1, 0)` and `(0, 1)` and all mixtures of them are allowed. -/
example (stat : Stat) (t : ℝ) (h0 : 0 ≤ t) (h1 : t ≤ 1) :
    fitStatistic [⟨stat, exFit, [[2], [4]]⟩] (fun c => if c = 0 then 1 - t else t) ≤
      (1 - t) * fitStatistic [⟨stat, exFit, [[2], [4]]⟩] (fun c => if c = 0 then 1 else 0) +
      t * fitStatistic [⟨stat, exFit, [[2], [4]]⟩] (fun c => if c = 0 then 0 else 1) := by
  have hc := C119_fit_convex [⟨stat, exFit, [[2], [4]]⟩] (by intro p hp; obtain rfl := List.mem_singleton.1 hp; exact exFit_usable stat)
  have k1 : (fun c => if c = 0 then (1 : ℝ) else 0) ∈ Allowed [⟨stat, exFit, [[2], [4]]⟩] := by
    intro p hp
    obtain rfl := List.mem_singleton.1 hp
    refine ⟨?_, ?_⟩
    · intro r hr
      have hr' : r = 0 := by simpa [exFit] using hr
      subst hr'
      simp [Part.fluxes, nth, exFit, Finset.sum_range_succ]
      norm_num
    · intro j hj
      have hj' : j = 0 := by simpa [exFit, FitData.size] using hj
      subst hj'
      refine ⟨rfl, ?_⟩
      cases stat <;> simp [Part.fluxes, nth, exFit, FitData.folded, expected, Finset.sum_range_succ] <;> norm_num
  have k2 : (fun c => if c = 0 then (0 : ℝ) else 1) ∈ Allowed [⟨stat, exFit, [[2], [4]]⟩] := by
    intro p hp
    obtain rfl := List.mem_singleton.1 hp
    refine ⟨?_, ?_⟩
    · intro r hr
      have hr' : r = 0 := by simpa [exFit] using hr
      subst hr'
      simp [Part.fluxes, nth, exFit, Finset.sum_range_succ]
      norm_num
    · intro j hj
      have hj' : j = 0 := by simpa [exFit, FitData.size] using hj
      subst hj'
      refine ⟨rfl, ?_⟩
      cases stat <;> simp [Part.fluxes, nth, exFit, FitData.folded, expected, Finset.sum_range_succ] <;> norm_num
  have := hc.2 k1 k2 (by linarith : 0 ≤ 1 - t) h0 (by ring)
  have e : ((1 - t) • (fun c : Nat => if c = 0 then (1 : ℝ) else 0) + t • (fun c : Nat => if c = 0 then (0 : ℝ) else 1)) =
      fun c => if c = 0 then 1 - t else t := by
    funext c
    by_cases h : c = 0 <;> simp [h]
  rw [e] at this
  simpa using this

/-- The net counts of the example are 3.5: three source counts fit better than two. -/
example : ∃ D₂ D₃ : ℝ, IsDeviance .cstat exFit 0 2 D₂ ∧ IsDeviance .cstat exFit 0 3 D₃ ∧ D₃ < D₂ := by
  have mk : ∀ s : ℝ, 0 < s → ∃ D, IsDeviance .cstat exFit 0 s D := by
    intro s hs
    refine ⟨-2 * Real.log (poisLik 5 s / poisLik 5 5), ?_⟩
    have : 0 < poisLik 5 s / poisLik 5 5 := div_pos (poisLik_pos hs) (poisLik_pos (by norm_num))
    show Real.exp (-(-2 * Real.log (poisLik 5 s / poisLik 5 5)) / 2) = poisLik 5 s / poisLik 5 5
    rw [show -(-2 * Real.log (poisLik 5 s / poisLik 5 5)) / 2 = Real.log (poisLik 5 s / poisLik 5 5) by ring, Real.exp_log this]
  obtain ⟨D₂, h2⟩ := mk 2 (by norm_num)
  obtain ⟨D₃, h3⟩ := mk 3 (by norm_num)
  refine ⟨D₂, D₃, h2, h3, C119_single_minimum .cstat exFit (exFit_usable _) 0 (by simp [exFit, FitData.size]) 3 2 D₃ D₂ ?_ ?_ (Or.inr ⟨by norm_num, ?_⟩) h3 h2⟩
  · norm_num [expected, exFit]
  · norm_num [expected, exFit]
  · norm_num [bestCounts, exFit, nth]

end Elisa.Infer
