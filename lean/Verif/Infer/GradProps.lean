import Verif.Infer.BalanceProps

/-!
# Property C124: the gradient of the fit statistic
-/

namespace Elisa.Infer.Grad

open Elisa Elisa.Grouping Elisa.Infer Topology

/-- Slope of the deviance of a channel in its source counts, from the sites the code records: observed and expected counts, and the error. -/
noncomputable def slope (stat : Stat) (d : FitData) (s : Sites) (j : ℕ) : ℝ :=
  if stat = .chi2 then 2 * (nth s.onModel j - nth s.onData j) / nth d.netErrors j ^ 2 else 2 * (1 - nth s.onData j / nth s.onModel j)

section Lemmas

/-- A function between two that touch it and have the same slope. -/
theorem squeeze {f F G : ℝ → ℝ} {x g : ℝ} (hF : HasDerivAt F g x) (hG : HasDerivAt G g x) (h1 : F x = f x) (h2 : G x = f x)
    (h : ∀ᶠ y in 𝓝 x, G y ≤ f y ∧ f y ≤ F y) : HasDerivAt f g x := by
  rw [hasDerivAt_iff_isLittleO] at *
  have hs := hF.norm_left.add hG.norm_left
  refine Asymptotics.IsBigO.trans_isLittleO (Asymptotics.IsBigO.of_bound 1 ?_) hs
  filter_upwards [h] with y hy
  rw [one_mul, h1, h2]
  simp only [Real.norm_eq_abs]
  have a1 := abs_nonneg (F y - f x - (y - x) • g)
  have a2 := abs_nonneg (G y - f x - (y - x) • g)
  have b1 := le_abs_self (F y - f x - (y - x) • g)
  have b2 := neg_abs_le (G y - f x - (y - x) • g)
  rw [abs_of_nonneg (by linarith : 0 ≤ |F y - f x - (y - x) • g| + |G y - f x - (y - x) • g|), abs_le]
  constructor <;> linarith [hy.1, hy.2]

theorem cost_slope {n x κ : ℝ} (h : 0 < x + κ) : HasDerivAt (fun s => cost n (s + κ)) (1 - n / (x + κ)) x := by
  unfold cost
  have h1 : HasDerivAt (fun s : ℝ => s + κ) 1 x := (hasDerivAt_id x).add_const κ
  have h2 : HasDerivAt (fun s : ℝ => Real.log (s + κ)) (1 / (x + κ)) x := h1.log h.ne'
  refine (h1.sub (h2.const_mul n)).congr_deriv ?_
  ring

theorem pois_or {n : ℝ} (hn : 0 ≤ n) : 0 < n ∨ n = 0 := hn.eq_or_lt.elim (fun h => Or.inr h.symm) Or.inl

theorem dev_of_ratio {n μ D : ℝ} (hn : 0 ≤ n) (hμ : 0 < μ) (h : Real.exp (-D / 2) = poisLik n μ / poisLik n n) : D = 2 * (cost n μ - cost n n) := by
  rw [poisLik_cost hμ.le (Or.inl hμ), poisLik_cost hn (pois_or hn), ← Real.exp_sub] at h
  have := Real.exp_injective h
  linarith

theorem tangent_onOff {n m s s₀ a b b₀ : ℝ} (hn : 0 ≤ n) (hm : 0 ≤ m) (ha : 0 < a) (hs : 0 ≤ s) (hb : 0 ≤ b) (hb₀ : 0 ≤ b₀)
    (h1 : 0 < s₀ + a * b₀ ∨ n = 0) (h2 : 0 < b₀ ∨ m = 0) (hμ : 0 ≤ s₀ + a * b₀)
    (hg : (a * (n / (s₀ + a * b₀) - 1) + (m / b₀ - 1)) * (b - b₀) ≤ 0) :
    onOffLik n m s a b ≤ onOffLik n m s₀ a b₀ * Real.exp ((n / (s₀ + a * b₀) - 1) * (s - s₀)) := by
  unfold onOffLik
  have l1 := poisLik_le hn (by positivity : 0 ≤ s + a * b) h1
  have l2 := poisLik_le hm hb h2
  refine (mul_le_mul l1 l2 (poisLik_nonneg hb) (mul_nonneg (poisLik_nonneg hμ) (Real.exp_pos _).le)).trans ?_
  have e : Real.exp ((n / (s₀ + a * b₀) - 1) * (s + a * b - (s₀ + a * b₀))) * Real.exp ((m / b₀ - 1) * (b - b₀)) ≤
      Real.exp ((n / (s₀ + a * b₀) - 1) * (s - s₀)) := by
    rw [← Real.exp_add, Real.exp_le_exp]
    linarith
  calc _ = poisLik n (s₀ + a * b₀) * poisLik m b₀ *
        (Real.exp ((n / (s₀ + a * b₀) - 1) * (s + a * b - (s₀ + a * b₀))) * Real.exp ((m / b₀ - 1) * (b - b₀))) := by ring
    _ ≤ _ := mul_le_mul_of_nonneg_left e (mul_nonneg (poisLik_nonneg hμ) (poisLik_nonneg hb₀))

theorem tangent_onGauss {n B σ s s₀ a b b₀ : ℝ} (hn : 0 ≤ n) (hσ : 0 < σ) (ha : 0 < a) (hs : 0 ≤ s) (hb : 0 ≤ b)
    (hμ : 0 < s₀ + a * b₀) (hg : (a * (n / (s₀ + a * b₀) - 1) + (B - b₀) / σ ^ 2) * (b - b₀) ≤ 0) :
    onGaussLik n B σ s a b ≤ onGaussLik n B σ s₀ a b₀ * Real.exp ((n / (s₀ + a * b₀) - 1) * (s - s₀)) := by
  unfold onGaussLik
  have l1 := poisLik_le hn (by positivity : 0 ≤ s + a * b) (Or.inl hμ)
  have l2 := gauss_step B σ b b₀ hσ
  have l3 : Real.exp (-((b - b₀) ^ 2 / (2 * σ ^ 2))) ≤ 1 := Real.exp_le_one_iff.2 (by
    have : 0 ≤ (b - b₀) ^ 2 / (2 * σ ^ 2) := by positivity
    linarith)
  have p : 0 < gaussLik B b₀ σ := Real.exp_pos _
  have l4 : gaussLik B b σ ≤ gaussLik B b₀ σ * Real.exp ((B - b₀) / σ ^ 2 * (b - b₀)) := by
    rw [l2]
    exact mul_le_of_le_one_right (by positivity) l3
  refine (mul_le_mul l1 l4 (Real.exp_pos _).le (mul_nonneg (poisLik_nonneg hμ.le) (Real.exp_pos _).le)).trans ?_
  have e : Real.exp ((n / (s₀ + a * b₀) - 1) * (s + a * b - (s₀ + a * b₀))) * Real.exp ((B - b₀) / σ ^ 2 * (b - b₀)) ≤
      Real.exp ((n / (s₀ + a * b₀) - 1) * (s - s₀)) := by
    rw [← Real.exp_add, Real.exp_le_exp]
    linarith
  calc _ = poisLik n (s₀ + a * b₀) * gaussLik B b₀ σ *
        (Real.exp ((n / (s₀ + a * b₀) - 1) * (s + a * b - (s₀ + a * b₀))) * Real.exp ((B - b₀) / σ ^ 2 * (b - b₀))) := by ring
    _ ≤ _ := mul_le_mul_of_nonneg_left e (mul_nonneg (poisLik_nonneg hμ.le) p.le)

/-- linear functions have their slope -/
theorem line_deriv (D g x : ℝ) : HasDerivAt (fun s => D + g * (s - x)) g x := by
  refine ((((hasDerivAt_id x).sub_const x).const_mul g).const_add D).congr_deriv ?_
  ring

/-- The deviance of a channel touches two functions of the source counts with the slope of the channel. -/
theorem channel {stat : Stat} {d : FitData} {u : List ℝ} (hu : Usable stat d) (hr : InRange stat d u (d.folded u)) :
    ∃ sites, likelihood stat d u = .ok sites ∧ ∀ j < d.size, ∃ F G : ℝ → ℝ, HasDerivAt F (slope stat d sites j) (d.folded u j) ∧
      HasDerivAt G (slope stat d sites j) (d.folded u j) ∧ F (d.folded u j) = -2 * nth sites.loglike j ∧ G (d.folded u j) = -2 * nth sites.loglike j ∧
      ∀ s D, 1e-30 ≤ expected stat d j s → IsDeviance stat d j s D → G s ≤ D ∧ D ≤ F s := by
  obtain ⟨sites, h1, h2, h3⟩ := C25_channel_deviance stat d u _ hu hr
  have tiny : (0 : ℝ) < 1e-30 := by norm_num
  refine ⟨sites, h1, fun j hj => ?_⟩
  obtain ⟨D₀, hD, -, hdev⟩ := h3 j hj
  rw [hD]
  cases stat with
  | chi2 =>
    have hsc := sourceCounts_eq (by decide) hr j hj
    have hσ : 0 < nth d.netErrors j := hu j hj
    simp only [likelihood, Except.ok.injEq] at h1
    subst h1
    have key : ∀ s D, IsDeviance .chi2 d j s D → D = (nth d.netCounts j - s) ^ 2 / nth d.netErrors j ^ 2 := by
      intro s D h
      have h' : Real.exp (-D / 2) = gaussLik (nth d.netCounts j) s (nth d.netErrors j) := h
      unfold gaussLik at h'
      have := Real.exp_injective h'
      field_simp at this ⊢
      linarith
    have hd : HasDerivAt (fun s => (nth d.netCounts j - s) ^ 2 / nth d.netErrors j ^ 2) (2 * (d.folded u j - nth d.netCounts j) / nth d.netErrors j ^ 2)
        (d.folded u j) := by
      refine ((((hasDerivAt_id (d.folded u j)).const_sub (nth d.netCounts j)).pow 2).div_const _).congr_deriv ?_
      simp
      ring
    refine ⟨_, _, ?_, ?_, (key _ _ hdev).symm, (key _ _ hdev).symm, fun s D _ h => ⟨(key s D h).ge, (key s D h).le⟩⟩ <;>
    · refine hd.congr_deriv ?_
      unfold slope
      rw [if_pos rfl, nth_map hj, hsc.1]
  | cstat =>
    have hsc := sourceCounts_eq (by decide) hr j hj
    have hn : 0 ≤ nth d.specCounts j := hu j hj
    simp only [likelihood, Except.ok.injEq] at h1
    subst h1
    have key : ∀ s D, 0 < s → IsDeviance .cstat d j s D → D = 2 * (cost (nth d.specCounts j) (s + 0) - cost (nth d.specCounts j) (nth d.specCounts j)) := by
      intro s D hs h
      rw [add_zero]
      exact dev_of_ratio hn hs h
    have hd := ((cost_slope (n := nth d.specCounts j) (κ := 0) (by rw [add_zero]; exact hsc.2)).sub_const (cost (nth d.specCounts j) (nth d.specCounts j))).const_mul 2
    refine ⟨fun s => 2 * (cost (nth d.specCounts j) (s + 0) - cost (nth d.specCounts j) (nth d.specCounts j)),
      fun s => 2 * (cost (nth d.specCounts j) (s + 0) - cost (nth d.specCounts j) (nth d.specCounts j)), ?_, ?_, (key _ _ hsc.2 hdev).symm, (key _ _ hsc.2 hdev).symm, fun s D he h => ?_⟩
    · refine hd.congr_deriv ?_
      unfold slope
      rw [if_neg (by decide), nth_map hj, hsc.1, add_zero]
    · refine hd.congr_deriv ?_
      unfold slope
      rw [if_neg (by decide), nth_map hj, hsc.1, add_zero]
    · have he' : (1e-30 : ℝ) ≤ s := he
      have := key s D (by linarith) h
      exact ⟨this.ge, this.le⟩
  | pstat =>
    cases hb : d.back with
    | none => simp [Usable, hb] at hu
    | some b =>
      have hn : 0 ≤ nth d.specCounts j := by simp only [Usable, hb] at hu; exact hu j hj
      obtain ⟨e1, e2, e3⟩ := hr.rate j hj
      have he : ∀ s, expected .pstat d j s = s + nth b.ratio j * nth b.counts j := fun s => by unfold expected; rw [hb]
      rw [he] at e2 e3
      simp only [likelihood, hb, Except.ok.injEq] at h1
      subst h1
      have key : ∀ s D, 1e-30 ≤ s + nth b.ratio j * nth b.counts j → IsDeviance .pstat d j s D →
          D = 2 * (cost (nth d.specCounts j) (s + nth b.ratio j * nth b.counts j) - cost (nth d.specCounts j) (nth d.specCounts j)) := by
        intro s D hs h
        simp only [IsDeviance, hb] at h
        exact dev_of_ratio hn (by linarith) h
      have hd := ((cost_slope (n := nth d.specCounts j) (κ := nth b.ratio j * nth b.counts j) (x := d.folded u j) (by linarith)).sub_const
        (cost (nth d.specCounts j) (nth d.specCounts j))).const_mul 2
      refine ⟨fun s => 2 * (cost (nth d.specCounts j) (s + nth b.ratio j * nth b.counts j) - cost (nth d.specCounts j) (nth d.specCounts j)),
        fun s => 2 * (cost (nth d.specCounts j) (s + nth b.ratio j * nth b.counts j) - cost (nth d.specCounts j) (nth d.specCounts j)), ?_, ?_, (key _ _ e2 hdev).symm, (key _ _ e2 hdev).symm, fun s D h' h => ?_⟩
      · refine hd.congr_deriv ?_
        unfold slope
        rw [if_neg (by decide), nth_map hj, e1, clip_id e2 e3]
      · refine hd.congr_deriv ?_
        unfold slope
        rw [if_neg (by decide), nth_map hj, e1, clip_id e2 e3]
      · rw [he] at h'
        have := key s D h' h
        exact ⟨this.ge, this.le⟩
  | pgstat =>
    have hsc := sourceCounts_eq (by decide) hr j hj
    cases hb : d.back with
    | none => simp [Usable, hb] at hu
    | some b =>
      obtain ⟨u1, u2, u3⟩ : 0 ≤ nth d.specCounts j ∧ 0 < nth b.errors j ∧ 0 < nth b.ratio j := by simp only [Usable, hb] at hu; exact hu j hj
      simp only [likelihood, hb, Except.ok.injEq] at h1
      subst h1
      set n := nth d.specCounts j with hn
      set a := nth b.ratio j with ha
      set B := nth b.counts j with hB
      set σ := nth b.errors j with hσ
      set s₀ := d.folded u j with hs₀
      obtain ⟨f0, f1⟩ := pgstatBackground_facts (B := B) hsc.2 u1 u2 u3
      set b₀ := pgstatBackground s₀ n B σ a with hb₀
      have hμ : 0 < s₀ + a * b₀ := by have := hsc.2; positivity
      have hsl' : ∀ x y z w, slope .pgstat d ⟨d.specCounts, (List.range d.size).map fun j => d.sourceCounts u j + nth b.ratio j *
          nth ((List.range d.size).map fun j => pgstatBackground (d.sourceCounts u j) (nth d.specCounts j) (nth b.counts j) (nth b.errors j) (nth b.ratio j)) j,
          x, y, z⟩ j = w ↔ 2 * (1 - n / (s₀ + a * b₀)) = w := by
        intro x y z w
        unfold slope
        rw [if_neg (by decide)]
        simp only [nth_map hj, hsc.1]
        rfl
      have hlik : Real.exp (-D₀ / 2) = onGaussLik n B σ s₀ a b₀ / poisLik n n := by
        simp only [IsDeviance, hb] at hdev
        have hg := C23_pgstat_background s₀ n B σ a hsc.2 u1 u2 u3
        apply le_antisymm
        · obtain ⟨y, hy, e⟩ := hdev.1
          rw [e]
          apply div_le_div_of_nonneg_right _ (poisLik_self_pos u1).le
          by_cases hxe : y = b₀
          · rw [hxe]
          · exact (hg.2 y hy hxe).le
        · exact hdev.2 ⟨b₀, f0, rfl⟩
      have hF : ∀ s D, 0 < s → IsDeviance .pgstat d j s D → D ≤ 2 * (cost n (s + a * b₀) - cost n n) + (B - b₀) ^ 2 / σ ^ 2 := by
        intro s D hs h
        simp only [IsDeviance, hb] at h
        have := h.2 ⟨b₀, f0, rfl⟩
        unfold onGaussLik gaussLik at this
        rw [poisLik_cost (by positivity) (Or.inl (by positivity)), poisLik_cost u1 (pois_or u1), ← Real.exp_add, ← Real.exp_sub, Real.exp_le_exp] at this
        have e : (B - b₀) ^ 2 / (2 * σ ^ 2) = ((B - b₀) ^ 2 / σ ^ 2) / 2 := by field_simp
        rw [← hB, e] at this
        linarith
      have hF0 : 2 * (cost n (s₀ + a * b₀) - cost n n) + (B - b₀) ^ 2 / σ ^ 2 = D₀ := by
        have := hlik
        unfold onGaussLik gaussLik at this
        rw [poisLik_cost hμ.le (Or.inl hμ), poisLik_cost u1 (pois_or u1), ← Real.exp_add, ← Real.exp_sub] at this
        have := Real.exp_injective this
        have e : (B - b₀) ^ 2 / (2 * σ ^ 2) = ((B - b₀) ^ 2 / σ ^ 2) / 2 := by field_simp
        rw [e] at this
        linarith
      refine ⟨fun s => 2 * (cost n (s + a * b₀) - cost n n) + (B - b₀) ^ 2 / σ ^ 2, fun s => D₀ + 2 * (1 - n / (s₀ + a * b₀)) * (s - s₀), ?_, ?_, hF0, by ring,
        fun s D he h => ⟨?_, ?_⟩⟩
      · refine ((((cost_slope hμ).sub_const (cost n n)).const_mul 2).add_const _).congr_deriv ?_
        exact ((hsl' _ _ _ _).2 rfl).symm
      · refine (line_deriv _ _ _).congr_deriv ?_
        exact ((hsl' _ _ _ _).2 rfl).symm
      · have he' : (1e-30 : ℝ) ≤ s := by simpa [expected, hb] using he
        simp only [IsDeviance, hb] at h
        obtain ⟨y, hy, e⟩ := h.1
        have t := tangent_onGauss (s := s) (s₀ := s₀) (b := y) (b₀ := b₀) (B := B) u1 u2 u3 (by linarith) hy hμ (by
          rcases f1 with f | ⟨f, g⟩
          · rw [f, zero_mul]
          · apply mul_nonpos_of_nonpos_of_nonneg g
            rw [f]; linarith)
        have : Real.exp (-D / 2) ≤ Real.exp (-D₀ / 2) * Real.exp ((n / (s₀ + a * b₀) - 1) * (s - s₀)) := by
          rw [e, hlik, div_mul_eq_mul_div]
          exact div_le_div_of_nonneg_right t (poisLik_self_pos u1).le
        rw [← Real.exp_add, Real.exp_le_exp] at this
        linarith
      · have he' : (1e-30 : ℝ) ≤ s := by simpa [expected, hb] using he
        exact hF s D (by linarith) h
  | wstat =>
    have hsc := sourceCounts_eq (by decide) hr j hj
    cases hb : d.back with
    | none => simp [Usable, hb] at hu
    | some b =>
      obtain ⟨u1, u2, u3⟩ : 0 ≤ nth d.specCounts j ∧ 0 ≤ nth b.counts j ∧ 0 < nth b.ratio j := by simp only [Usable, hb] at hu; exact hu j hj
      simp only [likelihood, hb, Except.ok.injEq] at h1
      subst h1
      set n := nth d.specCounts j with hn
      set a := nth b.ratio j with ha
      set m := nth b.counts j with hm
      set s₀ := d.folded u j with hs₀
      obtain ⟨f0, -, f2, f1⟩ := wstatBackground_facts hsc.2.le u1 u2 u3
      set b₀ := wstatBackground s₀ n m a with hb₀
      have hμ : 0 < s₀ + a * b₀ := by have := hsc.2; positivity
      have hsl' : ∀ x y z w, slope .wstat d ⟨d.specCounts, (List.range d.size).map fun j => d.sourceCounts u j + nth b.ratio j *
          nth ((List.range d.size).map fun j => wstatBackground (d.sourceCounts u j) (nth d.specCounts j) (nth b.counts j) (nth b.ratio j)) j,
          x, y, z⟩ j = w ↔ 2 * (1 - n / (s₀ + a * b₀)) = w := by
        intro x y z w
        unfold slope
        rw [if_neg (by decide)]
        simp only [nth_map hj, hsc.1]
        rfl
      have hlik : Real.exp (-D₀ / 2) = onOffLik n m s₀ a b₀ / (poisLik n n * poisLik m m) := by
        simp only [IsDeviance, hb] at hdev
        have hg := C22_wstat_background s₀ n m a hsc.2.le u1 u2 u3
        apply le_antisymm
        · obtain ⟨y, hy, e⟩ := hdev.1
          rw [e]
          apply div_le_div_of_nonneg_right _ (mul_pos (poisLik_self_pos u1) (poisLik_self_pos u2)).le
          by_cases hxe : y = b₀
          · rw [hxe]
          · exact (hg.2 y hy hxe).le
        · exact hdev.2 ⟨b₀, f0, rfl⟩
      have hF : ∀ s D, 0 < s → IsDeviance .wstat d j s D → D ≤ 2 * (cost n (s + a * b₀) - cost n n) + 2 * (cost m b₀ - cost m m) := by
        intro s D hs h
        simp only [IsDeviance, hb] at h
        have := h.2 ⟨b₀, f0, rfl⟩
        unfold onOffLik at this
        rw [poisLik_cost (by positivity) (Or.inl (by positivity)), poisLik_cost u1 (pois_or u1), poisLik_cost f0 f2, poisLik_cost u2 (pois_or u2),
          ← Real.exp_add, ← Real.exp_add, ← Real.exp_sub, Real.exp_le_exp] at this
        linarith
      have hF0 : 2 * (cost n (s₀ + a * b₀) - cost n n) + 2 * (cost m b₀ - cost m m) = D₀ := by
        have := hlik
        unfold onOffLik at this
        rw [poisLik_cost hμ.le (Or.inl hμ), poisLik_cost u1 (pois_or u1), poisLik_cost f0 f2, poisLik_cost u2 (pois_or u2),
          ← Real.exp_add, ← Real.exp_add, ← Real.exp_sub] at this
        have := Real.exp_injective this
        linarith
      refine ⟨fun s => 2 * (cost n (s + a * b₀) - cost n n) + 2 * (cost m b₀ - cost m m), fun s => D₀ + 2 * (1 - n / (s₀ + a * b₀)) * (s - s₀), ?_, ?_, hF0, by ring,
        fun s D he h => ⟨?_, ?_⟩⟩
      · refine ((((cost_slope hμ).sub_const (cost n n)).const_mul 2).add_const _).congr_deriv ?_
        exact ((hsl' _ _ _ _).2 rfl).symm
      · refine (line_deriv _ _ _).congr_deriv ?_
        exact ((hsl' _ _ _ _).2 rfl).symm
      · have he' : (1e-30 : ℝ) ≤ s := by simpa [expected, hb] using he
        simp only [IsDeviance, hb] at h
        obtain ⟨y, hy, e⟩ := h.1
        have t := tangent_onOff (s := s) (s₀ := s₀) (b := y) (b₀ := b₀) u1 u2 u3 (by linarith) hy f0 (Or.inl hμ) f2 hμ.le (by
          rcases f1 with ⟨f, -⟩ | ⟨f, g⟩
          · rw [f, zero_mul]
          · apply mul_nonpos_of_nonpos_of_nonneg g.le
            rw [f]; linarith)
        have : Real.exp (-D / 2) ≤ Real.exp (-D₀ / 2) * Real.exp ((n / (s₀ + a * b₀) - 1) * (s - s₀)) := by
          rw [e, hlik, div_mul_eq_mul_div]
          exact div_le_div_of_nonneg_right t (mul_pos (poisLik_self_pos u1) (poisLik_self_pos u2)).le
        rw [← Real.exp_add, Real.exp_le_exp] at this
        linarith
      · have he' : (1e-30 : ℝ) ≤ s := by simpa [expected, hb] using he
        exact hF s D (by linarith) h

theorem folded_deriv {d : FitData} {u : ℝ → List ℝ} {v : List ℝ} {t : ℝ} (h : ∀ r < d.matrix.length, HasDerivAt (fun x => nth (u x) r) (nth v r) t) (j : ℕ) :
    HasDerivAt (fun x => d.folded (u x) j) (d.folded v j) t := by
  unfold FitData.folded
  apply HasDerivAt.const_mul
  apply HasDerivAt.fun_sum
  intro r hr
  exact (h r (Finset.mem_range.1 hr)).const_mul _

/-- One data set. -/
theorem dataset {stat : Stat} {d : FitData} {u : ℝ → List ℝ} {v : List ℝ} {t : ℝ} (hu : Usable stat d)
    (hv : ∀ r < d.matrix.length, HasDerivAt (fun x => nth (u x) r) (nth v r) t) (hr : ∀ᶠ x in 𝓝 t, InRange stat d (u x) (d.folded (u x))) :
    ∃ sites, likelihood stat d (u t) = .ok sites ∧
      HasDerivAt (fun x => devOf (stat, d, u x)) (∑ j ∈ Finset.range d.size, slope stat d sites j * d.folded v j) t := by
  obtain ⟨sites, h1, h2⟩ := channel hu hr.self_of_nhds
  refine ⟨sites, h1, ?_⟩
  choose! F G hF hG eF eG hb using h2
  have hval : ∀ x, InRange stat d (u x) (d.folded (u x)) → ∃ s, likelihood stat d (u x) = .ok s ∧ devOf (stat, d, u x) = ∑ j ∈ Finset.range d.size, -2 * nth s.loglike j ∧
      ∀ j < d.size, G j (d.folded (u x) j) ≤ -2 * nth s.loglike j ∧ -2 * nth s.loglike j ≤ F j (d.folded (u x) j) := by
    intro x hx
    obtain ⟨s, e1, e2, e3⟩ := C25_channel_deviance stat d (u x) _ hu hx
    refine ⟨s, e1, ?_, ?_⟩
    · unfold devOf
      simp only [e1]
      rw [nth_sum, Finset.mul_sum, e2]
    · intro j hj
      obtain ⟨D, hD, -, hdev⟩ := e3 j hj
      rw [hD]
      exact hb j hj _ _ (hx.2 j hj).2.1 hdev
  obtain ⟨s, a1, a2, -⟩ := hval t hr.self_of_nhds
  obtain rfl : s = sites := by rw [h1] at a1; simpa using a1.symm
  have comp : ∀ H : ℕ → ℝ → ℝ, (∀ j < d.size, HasDerivAt (H j) (slope stat d s j) (d.folded (u t) j)) →
      HasDerivAt (fun x => ∑ j ∈ Finset.range d.size, H j (d.folded (u x) j)) (∑ j ∈ Finset.range d.size, slope stat d s j * d.folded v j) t := by
    intro H hH
    apply HasDerivAt.fun_sum
    intro j hj
    exact (hH j (Finset.mem_range.1 hj)).comp t (folded_deriv hv j)
  refine squeeze (comp F hF) (comp G hG) ?_ ?_ ?_
  · show (∑ j ∈ Finset.range d.size, F j (d.folded (u t) j)) = devOf (stat, d, u t)
    rw [a2]
    exact Finset.sum_congr rfl fun j hj => eF j (Finset.mem_range.1 hj)
  · show (∑ j ∈ Finset.range d.size, G j (d.folded (u t) j)) = devOf (stat, d, u t)
    rw [a2]
    exact Finset.sum_congr rfl fun j hj => eG j (Finset.mem_range.1 hj)
  · filter_upwards [hr] with x hx
    obtain ⟨s', -, b2, b3⟩ := hval x hx
    rw [b2]
    exact ⟨Finset.sum_le_sum fun j hj => (b3 j (Finset.mem_range.1 hj)).1, Finset.sum_le_sum fun j hj => (b3 j (Finset.mem_range.1 hj)).2⟩

end Lemmas

/-- A data set of a fit: its statistic, its data, and the fluxes of the energy bins as a function of one parameter of the model. -/
structure Member where
  stat : Stat
  data : FitData
  flux : ℝ → List ℝ

/-- The fit statistic as the code computes it, at the value `x` of the parameter. -/
noncomputable def statistic (ms : List Member) (x : ℝ) : ℝ :=
  match fitSites (ms.map fun m => (m.stat, m.data, m.flux x)) with
  | .ok sites => (deviance (getLoglike sites)).total
  | .error _ => 0

/-- Near `x` no flux and no expected counts are clipped, and the fluxes of member `m` change at the rates `v`. -/
def Smooth (m : Member) (v : List ℝ) (x : ℝ) : Prop :=
  Usable m.stat m.data ∧ (∀ r < m.data.matrix.length, HasDerivAt (fun y => nth (m.flux y) r) (nth v r) x) ∧
    ∀ᶠ y in 𝓝 x, InRange m.stat m.data (m.flux y) (m.data.folded (m.flux y))

/-- Sum over all channels of all data sets of the slope of the channel times the rate at which its source counts change. -/
noncomputable def gradient (ms : List Member) (vs : List (List ℝ)) (sites : List Sites) : ℝ :=
  ((ms.zip (vs.zip sites)).map fun z => ∑ j ∈ Finset.range z.1.data.size, slope z.1.stat z.1.data z.2.2 j * z.1.data.folded z.2.1 j).sum

theorem sites_cons {x : Stat × FitData × List ℝ} {xs : List (Stat × FitData × List ℝ)} {s : Sites} {ss : List Sites}
    (h1 : likelihood x.1 x.2.1 x.2.2 = .ok s) (h2 : fitSites xs = .ok ss) : fitSites (x :: xs) = .ok (s :: ss) := by
  unfold fitSites at *
  rw [List.mapM_cons]
  simp only [h1, h2]
  rfl

theorem statistic_eq {ms : List Member} {x : ℝ} (h : ∀ m ∈ ms, Usable m.stat m.data ∧ InRange m.stat m.data (m.flux x) (m.data.folded (m.flux x))) :
    statistic ms x = (ms.map fun m => devOf (m.stat, m.data, m.flux x)).sum := by
  have : ∃ sites, fitSites (ms.map fun m => (m.stat, m.data, m.flux x)) = .ok sites := by
    induction ms with
    | nil => exact ⟨[], rfl⟩
    | cons m ms ih =>
      obtain ⟨ss, h2⟩ := ih fun m hm => h m (List.mem_cons_of_mem _ hm)
      obtain ⟨h3, h4⟩ := h m List.mem_cons_self
      obtain ⟨s, h1, -⟩ := C25_channel_deviance m.stat m.data (m.flux x) _ h3 h4
      exact ⟨s :: ss, sites_cons h1 h2⟩
  obtain ⟨sites, hs⟩ := this
  unfold statistic
  simp only [hs]
  rw [fitSites_total _ _ hs, List.map_map]
  rfl

/-- **C124 (gradient).**  Any number of data sets, each with any statistic: where the fluxes depend differentiably on a parameter and nothing is clipped, so does the fit
statistic, profiled backgrounds included, and its derivative is the sum over the channels of the slope of the channel (twice the difference of expected and observed counts,
divided by the expected counts, or for chi2 by the variance) times the rate of change of the folded source counts. -/
theorem C124_gradient (ms : List Member) (vs : List (List ℝ)) (x : ℝ) (hl : vs.length = ms.length)
    (h : ∀ (i : ℕ) m v, ms[i]? = some m → vs[i]? = some v → Smooth m v x) :
    ∃ sites, fitSites (ms.map fun m => (m.stat, m.data, m.flux x)) = .ok sites ∧ sites.length = ms.length ∧
      HasDerivAt (statistic ms) (gradient ms vs sites) x := by
  have key : ∃ sites, fitSites (ms.map fun m => (m.stat, m.data, m.flux x)) = .ok sites ∧ sites.length = ms.length ∧
      HasDerivAt (fun y => (ms.map fun m => devOf (m.stat, m.data, m.flux y)).sum) (gradient ms vs sites) x := by
    induction ms generalizing vs with
    | nil => exact ⟨[], rfl, rfl, by simpa [gradient] using hasDerivAt_const x (0 : ℝ)⟩
    | cons m ms ih =>
      cases vs with
      | nil => simp at hl
      | cons v vs =>
        obtain ⟨ss, h1, h2, h3⟩ := ih vs (by simpa using hl) fun i m' v' hm hv => h (i + 1) m' v' (by simpa using hm) (by simpa using hv)
        obtain ⟨a1, a2, a3⟩ := h 0 m v rfl rfl
        obtain ⟨s, b1, b2⟩ := dataset a1 a2 a3
        refine ⟨s :: ss, sites_cons b1 h1, by simp [h2], ?_⟩
        simp only [List.map_cons, List.sum_cons, gradient, List.zip_cons_cons]
        exact b2.add h3
  obtain ⟨sites, h1, h2, h3⟩ := key
  refine ⟨sites, h1, h2, h3.congr_of_eventuallyEq ?_⟩
  have hall : ∀ᶠ y in 𝓝 x, ∀ m ∈ ms, Usable m.stat m.data ∧ InRange m.stat m.data (m.flux y) (m.data.folded (m.flux y)) := by
    have : ∀ m ∈ ms, ∀ᶠ y in 𝓝 x, Usable m.stat m.data ∧ InRange m.stat m.data (m.flux y) (m.data.folded (m.flux y)) := by
      intro m hm
      obtain ⟨i, hi⟩ := List.getElem?_of_mem hm
      have hlt : i < vs.length := by rw [hl]; exact (List.getElem?_eq_some_iff.1 hi).1
      obtain ⟨a1, -, a3⟩ := h i m _ hi (List.getElem?_eq_getElem hlt)
      filter_upwards [a3] with y hy
      exact ⟨a1, hy⟩
    have hf := (List.finite_toSet ms).eventually_all (l := 𝓝 x) (p := fun m y => Usable m.stat m.data ∧ InRange m.stat m.data (m.flux y) (m.data.folded (m.flux y)))
    exact hf.2 this
  filter_upwards [hall] with y hy
  exact statistic_eq hy

/-- **C124 (best fit).**  At a best-fit value of a parameter, not at a bound, that sum vanishes. -/
theorem C124_stationary (ms : List Member) (vs : List (List ℝ)) (x : ℝ) (hl : vs.length = ms.length)
    (h : ∀ (i : ℕ) m v, ms[i]? = some m → vs[i]? = some v → Smooth m v x) (hm : IsLocalMin (statistic ms) x) :
    ∃ sites, fitSites (ms.map fun m => (m.stat, m.data, m.flux x)) = .ok sites ∧ gradient ms vs sites = 0 := by
  obtain ⟨sites, h1, -, h3⟩ := C124_gradient ms vs x hl h
  exact ⟨sites, h1, hm.hasDerivAt_eq_zero h3⟩

/-- **C124 (components).**  If changing the amplitude of component `c` alone does not improve the fit, then the source counts of that component, weighted with the slopes
of the channels, sum to zero: for Poisson data the component expects as many counts as the observed counts, shared in proportion, assign to it. -/
theorem C124_component (parts : List Part) (hu : ∀ p ∈ parts, Usable p.stat p.data) (K : ℕ → ℝ) (c : ℕ) (hc : ∀ p ∈ parts, c < p.comps.length)
    (hK : ∀ᶠ x in 𝓝 (0 : ℝ), K + x • Pi.single c 1 ∈ Allowed parts ∧ fitStatistic parts K ≤ fitStatistic parts (K + x • Pi.single c 1)) :
    ∃ sites, fitSites (parts.map fun p => (p.stat, p.data, p.fluxes K)) = .ok sites ∧
      ((parts.zip sites).map fun z => ∑ j ∈ Finset.range z.1.data.size, slope z.1.stat z.1.data z.2 j * z.1.data.folded (z.1.comps.getD c []) j).sum = 0 := by
  set ms : List Member := parts.map fun p => ⟨p.stat, p.data, fun x => p.fluxes (K + x • Pi.single c 1)⟩ with hms
  have hst : ∀ x, statistic ms x = fitStatistic parts (K + x • Pi.single c 1) := by
    intro x
    unfold statistic fitStatistic
    rw [hms, List.map_map]
    rfl
  have h0 : K + (0 : ℝ) • Pi.single c (1 : ℝ) = K := by simp
  obtain ⟨sites, h1, h2⟩ := C124_stationary ms (parts.map fun p => p.comps.getD c []) 0 (by simp [hms]) (by
    intro i m v hm hv
    rw [hms, List.getElem?_map] at hm
    rw [List.getElem?_map] at hv
    cases hp : parts[i]? with
    | none => rw [hp] at hm; simp at hm
    | some p =>
      rw [hp] at hm hv
      simp only [Option.map_some, Option.some.injEq] at hm hv
      subst hm
      subst hv
      have hmem := List.mem_of_getElem? hp
      refine ⟨hu p hmem, ?_, ?_⟩
      · intro r hr
        have e : (fun y : ℝ => nth (p.fluxes (K + y • Pi.single c 1)) r) = fun y => nth (p.fluxes K) r + y * nth (p.comps.getD c []) r := by
          funext y
          have hr' : r < p.data.matrix.length := hr
          unfold Part.fluxes
          rw [nth_map hr', nth_map hr']
          simp only [Pi.add_apply, Pi.smul_apply, smul_eq_mul, add_mul, Finset.sum_add_distrib, add_right_inj]
          rw [Finset.sum_eq_single c]
          · rw [Pi.single_eq_same, mul_one]
          · intro k _ hk
            rw [Pi.single_eq_of_ne hk]
            ring
          · intro hn
            exact absurd (Finset.mem_range.2 (hc p hmem)) hn
        show HasDerivAt (fun y : ℝ => nth (p.fluxes (K + y • Pi.single c 1)) r) _ 0
        rw [e]
        refine (((hasDerivAt_id (0 : ℝ)).mul_const _).const_add _).congr_deriv ?_
        ring
      · filter_upwards [hK] with y hy
        exact hy.1 p hmem) (by
    show ∀ᶠ x in 𝓝 (0 : ℝ), statistic ms 0 ≤ statistic ms x
    filter_upwards [hK] with x hx
    rw [hst, hst, h0]
    exact hx.2)
  have e1 : (ms.map fun m => (m.stat, m.data, m.flux 0)) = parts.map fun p => (p.stat, p.data, p.fluxes K) := by
    rw [hms, List.map_map]
    simp only [Function.comp_def, h0]
  rw [e1] at h1
  refine ⟨sites, h1, ?_⟩
  rw [← h2]
  unfold gradient
  rw [hms]
  congr 1
  have : ∀ (ps : List Part) (ss : List Sites), ((ps.zip ss).map fun z => ∑ j ∈ Finset.range z.1.data.size, slope z.1.stat z.1.data z.2 j * z.1.data.folded (z.1.comps.getD c []) j) =
      (((ps.map fun p => (⟨p.stat, p.data, fun x => p.fluxes (K + x • Pi.single c 1)⟩ : Member)).zip ((ps.map fun p => p.comps.getD c []).zip ss)).map
        fun z => ∑ j ∈ Finset.range z.1.data.size, slope z.1.stat z.1.data z.2.2 j * z.1.data.folded z.2.1 j) := by
    intro ps
    induction ps with
    | nil => intro ss; rfl
    | cons p ps ih =>
      intro ss
      cases ss with
      | nil => rfl
      | cons s ss => simp only [List.zip_cons_cons, List.map_cons, ih]
  exact this parts sites

set_option exponentiation.threshold 400 in
/-- the example data set with the flux itself as parameter: the hypotheses hold for every statistic -/
theorem smooth_ex (stat : Stat) : Smooth ⟨stat, exFit, fun x => [x]⟩ [1] 4 := by
  refine ⟨exFit_usable stat, ?_, ?_⟩
  · intro r hr
    obtain rfl : r = 0 := by simpa [exFit] using hr
    exact hasDerivAt_id' (4 : ℝ)
  · have hn : Set.Icc (3 : ℝ) 5 ∈ 𝓝 (4 : ℝ) := Icc_mem_nhds (by norm_num) (by norm_num)
    filter_upwards [hn] with y hy
    obtain ⟨y1, y2⟩ := hy
    refine ⟨?_, ?_⟩
    · intro r hr
      obtain rfl : r = 0 := by simpa [exFit] using hr
      simp only [nth, List.getD_cons_zero]
      constructor
      · exact le_trans (by norm_num) y1
      · exact le_trans y2 (by norm_num)
    · intro j hj
      obtain rfl : j = 0 := by simpa [exFit, FitData.size] using hj
      refine ⟨rfl, ?_⟩
      cases stat <;> simp [nth, exFit, FitData.folded, expected] <;> constructor <;> linarith

example (stat : Stat) : ∃ sites, fitSites [(stat, exFit, [4])] = .ok sites ∧ HasDerivAt (statistic [⟨stat, exFit, fun x => [x]⟩])
    (gradient [⟨stat, exFit, fun x => [x]⟩] [[1]] sites) 4 := by
  obtain ⟨sites, h1, -, h2⟩ := C124_gradient [⟨stat, exFit, fun x => [x]⟩] [[1]] 4 rfl (by
    intro i m v hm hv
    match i, hm, hv with
    | 0, hm, hv =>
      simp only [List.getElem?_cons_zero, Option.some.injEq] at hm hv
      subst hm; subst hv
      exact smooth_ex stat
    | i + 1, hm, _ => simp at hm)
  exact ⟨sites, h1, h2⟩

set_option exponentiation.threshold 400 in
/-- five counts, and a component with amplitude five: the hypotheses of the last theorem hold at this perfect fit -/
example : ∀ᶠ x in 𝓝 (0 : ℝ), (fun _ => 5 : ℕ → ℝ) + x • Pi.single 0 1 ∈ Allowed [⟨.cstat, exFit, [[1]]⟩] ∧
    fitStatistic [⟨.cstat, exFit, [[1]]⟩] (fun _ => 5) ≤ fitStatistic [⟨.cstat, exFit, [[1]]⟩] ((fun _ => 5 : ℕ → ℝ) + x • Pi.single 0 1) := by
  have mem : ∀ x : ℝ, -1 ≤ x → x ≤ 1 → (fun _ => 5 : ℕ → ℝ) + x • Pi.single 0 1 ∈ Allowed [⟨.cstat, exFit, [[1]]⟩] := by
    intro x x1 x2 p hp
    obtain rfl := List.mem_singleton.1 hp
    refine ⟨?_, ?_⟩
    · intro r hr
      obtain rfl : r = 0 := by simpa [exFit] using hr
      simp [Part.fluxes, nth, exFit, Finset.sum_range_succ]
      constructor
      · exact le_trans (by norm_num : (1e-300 : ℝ) ≤ 1) (by linarith)
      · exact le_trans (by linarith : 5 + x ≤ 6) (by norm_num)
    · intro j hj
      obtain rfl : j = 0 := by simpa [exFit, FitData.size] using hj
      refine ⟨rfl, ?_⟩
      simp [Part.fluxes, nth, exFit, FitData.folded, expected, Finset.sum_range_succ]
      constructor <;> linarith
  have husable : ∀ p ∈ [(⟨.cstat, exFit, [[1]]⟩ : Part)], Usable p.stat p.data := by
    intro p hp
    obtain rfl := List.mem_singleton.1 hp
    exact exFit_usable _
  have hn : Set.Icc (-1 : ℝ) 1 ∈ 𝓝 (0 : ℝ) := Icc_mem_nhds (by norm_num) (by norm_num)
  have nonneg : ∀ K ∈ Allowed [(⟨.cstat, exFit, [[1]]⟩ : Part)], 0 ≤ fitStatistic [⟨.cstat, exFit, [[1]]⟩] K := by
    intro K hK
    rw [(fitStatistic_eq _ husable K hK).1]
    obtain ⟨s, h1, h2, h3⟩ := C25_channel_deviance .cstat exFit _ _ (exFit_usable _) (hK _ (List.mem_singleton.2 rfl))
    simp only [List.map_cons, List.map_nil, List.sum_cons, List.sum_nil, add_zero]
    unfold devOf
    simp only [h1]
    rw [nth_sum, Finset.mul_sum, h2]
    apply Finset.sum_nonneg
    intro j hj
    obtain ⟨D, e, h0, -⟩ := h3 j (Finset.mem_range.1 hj)
    rw [e]
    exact h0
  filter_upwards [hn] with x hx
  refine ⟨mem x hx.1 hx.2, ?_⟩
  refine le_trans (le_of_eq ?_) (nonneg _ (mem x hx.1 hx.2))
  have h5 : (fun _ => 5 : ℕ → ℝ) ∈ Allowed [(⟨.cstat, exFit, [[1]]⟩ : Part)] := by simpa using mem 0 (by norm_num) (by norm_num)
  rw [(fitStatistic_eq _ husable _ h5).1]
  obtain ⟨s, h1, h2, h3⟩ := C25_channel_deviance .cstat exFit _ _ (exFit_usable _) (h5 _ (List.mem_singleton.2 rfl))
  simp only [List.map_cons, List.map_nil, List.sum_cons, List.sum_nil, add_zero]
  unfold devOf
  simp only [h1]
  rw [nth_sum, Finset.mul_sum, h2, show exFit.size = 1 from rfl, Finset.sum_range_one]
  obtain ⟨D, e, -, hd⟩ := h3 0 (by simp [exFit, FitData.size])
  rw [e]
  have hf : exFit.folded ((⟨.cstat, exFit, [[1]]⟩ : Part).fluxes fun _ => 5) 0 = 5 := by
    simp [Part.fluxes, nth, exFit, FitData.folded]
  rw [hf] at hd
  have := dev_of_ratio (n := 5) (μ := 5) (by norm_num) (by norm_num) hd
  linarith

end Elisa.Infer.Grad
