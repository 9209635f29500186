import Verif.Plot.Residual
import Verif.Infer.LevelProps
import Verif.Infer.FitProps

/-!
# C53 (deviance residuals) and C57 (probability integral transform)
-/

namespace Elisa.Plot

open Elisa Elisa.Infer Elisa.Grouping

theorem poissonDeviance_eq {k lam : ℝ} (hk : 0 ≤ k) (hl : 0 < lam) :
    poissonDeviance k lam = -2 * poissonLogProb k lam := by
  have h := logp_nonpos hk hl.le (.inl hl)
  have e : poissonLogProb k lam = xlogy k lam - lam - (xlogy k k - k) := min_eq_left h
  rw [e]
  unfold poissonDeviance
  rcases hk.eq_or_lt with rfl | h0
  · simp [xlogy]
  · unfold xlogy
    rw [if_neg h0.ne', Real.log_div h0.ne' hl.ne']
    simp only [h0.ne', if_false]
    ring

theorem poissonDeviance_facts {k lam : ℝ} (hk : 0 ≤ k) (hl : 0 < lam) :
    0 ≤ poissonDeviance k lam ∧ (poissonDeviance k lam = 0 ↔ k = lam) ∧
      Real.exp (-poissonDeviance k lam / 2) = poisLik k lam / poisLik k k := by
  obtain ⟨h1, h2, h3, _⟩ := C24_poisson k lam hk hl.le (.inl hl)
  rw [poissonDeviance_eq hk hl]
  refine ⟨by linarith, ⟨fun h => (h3.1 (by linarith)).symm, fun h => by rw [h3.2 h.symm]; simp⟩, ?_⟩
  rw [← h1]
  congr 1; ring

/-- **C53** (one Poisson datum).  For every count `k ≥ 0` and model `λ > 0` the square of the deviance residual is
the deviance (twice the log of the likelihood ratio of a perfect model to the model), and its sign is the
sign of data minus model. -/
theorem C53_poisson (k lam : ℝ) (hk : 0 ≤ k) (hl : 0 < lam) :
    Real.exp (-(devResPoisson k lam ^ 2) / 2) = poisLik k lam / poisLik k k ∧
    (0 < devResPoisson k lam ↔ lam < k) ∧ (devResPoisson k lam < 0 ↔ k < lam) ∧
    (devResPoisson k lam = 0 ↔ k = lam) := by
  obtain ⟨h0, h1, h2⟩ := poissonDeviance_facts hk hl
  have hsq : devResPoisson k lam ^ 2 = poissonDeviance k lam := by
    unfold devResPoisson signOf
    split <;> rw [mul_pow, Real.sq_sqrt h0] <;> norm_num
  have hz : devResPoisson k lam = 0 ↔ k = lam := by
    rw [← h1, ← hsq]; exact (pow_eq_zero_iff (by norm_num)).symm
  have hs := Real.sqrt_nonneg (poissonDeviance k lam)
  refine ⟨by rw [hsq]; exact h2, ?_, ?_, hz⟩
  · constructor
    · intro h
      have hne : k ≠ lam := fun e => h.ne' (hz.2 e)
      by_contra hc
      have : k < lam := lt_of_le_of_ne (not_lt.1 hc) hne
      unfold devResPoisson signOf at h
      rw [if_neg (not_le.2 this)] at h
      linarith
    · intro h
      refine lt_of_le_of_ne ?_ (fun e => h.ne' (hz.1 e.symm))
      unfold devResPoisson signOf
      rw [if_pos h.le]; linarith
  · constructor
    · intro h
      by_contra hc
      unfold devResPoisson signOf at h
      rw [if_pos (not_lt.1 hc)] at h
      linarith
    · intro h
      refine lt_of_le_of_ne ?_ (fun e => h.ne (hz.1 e))
      unfold devResPoisson signOf
      rw [if_neg (not_le.2 h)]; linarith

example : 0 < devResPoisson 5 3 ∧ devResPoisson 0 3 < 0 := by
  refine ⟨((C53_poisson 5 3 (by norm_num) (by norm_num)).2.1).2 (by norm_num), ?_⟩
  exact ((C53_poisson 0 3 (by norm_num) (by norm_num)).2.2.1).2 (by norm_num)

/-- **C53** (on/off pairs, one degree of freedom).  With a sign `±1` the residual squares to the joint deviance
of the two data, carries the given sign, and vanishes only at a perfect fit of both. -/
theorem C53_pair (k1 k2 lam1 lam2 ε : ℝ) (hk1 : 0 ≤ k1) (hk2 : 0 ≤ k2) (h1 : 0 < lam1) (h2 : 0 < lam2)
    (hε : ε = 1 ∨ ε = -1) :
    Real.exp (-(devResPoissonPoisson k1 k2 lam1 lam2 (some ε) ^ 2) / 2) =
      (poisLik k1 lam1 / poisLik k1 k1) * (poisLik k2 lam2 / poisLik k2 k2) ∧
    0 ≤ ε * devResPoissonPoisson k1 k2 lam1 lam2 (some ε) ∧
    (devResPoissonPoisson k1 k2 lam1 lam2 (some ε) = 0 ↔ k1 = lam1 ∧ k2 = lam2) ∧
    devResPoissonPoisson k1 k2 lam1 lam2 none = |devResPoissonPoisson k1 k2 lam1 lam2 (some ε)| := by
  obtain ⟨a0, a1, a2⟩ := poissonDeviance_facts hk1 h1
  obtain ⟨b0, b1, b2⟩ := poissonDeviance_facts hk2 h2
  have hs := Real.sqrt_nonneg (poissonDeviance k1 lam1 + poissonDeviance k2 lam2)
  have he : ε * ε = 1 := by rcases hε with rfl | rfl <;> norm_num
  have ha : |ε| = 1 := by rcases hε with rfl | rfl <;> norm_num
  have hsq : devResPoissonPoisson k1 k2 lam1 lam2 (some ε) ^ 2 = poissonDeviance k1 lam1 + poissonDeviance k2 lam2 := by
    simp only [devResPoissonPoisson, withSign]
    rw [mul_pow, sq_abs, Real.sq_sqrt (by linarith), sq, he, one_mul]
  refine ⟨?_, ?_, ?_, ?_⟩
  · rw [hsq, ← a2, ← b2, ← Real.exp_add]; congr 1; ring
  · simp only [devResPoissonPoisson, withSign]
    rw [← mul_assoc, he, one_mul]; exact abs_nonneg _
  · rw [← a1, ← b1, ← pow_eq_zero_iff (two_ne_zero), hsq]
    constructor
    · intro h; constructor <;> linarith
    · rintro ⟨h, h'⟩; linarith
  · simp only [devResPoissonPoisson, withSign]
    rw [abs_mul, ha, one_mul, abs_abs, abs_of_nonneg hs]

/-- **C53** (Poisson datum with Gaussian background estimate, one degree of freedom). -/
theorem C53_pair_normal (k lam v mu sigma ε : ℝ) (hk : 0 ≤ k) (hl : 0 < lam) (hσ : 0 < sigma)
    (hε : ε = 1 ∨ ε = -1) :
    Real.exp (-(devResPoissonNormal k lam v mu sigma (some ε) ^ 2) / 2) =
      (poisLik k lam / poisLik k k) * gaussLik v mu sigma ∧
    0 ≤ ε * devResPoissonNormal k lam v mu sigma (some ε) ∧
    (devResPoissonNormal k lam v mu sigma (some ε) = 0 ↔ k = lam ∧ v = mu) := by
  obtain ⟨a0, a1, a2⟩ := poissonDeviance_facts hk hl
  have hq := mul_self_nonneg ((v - mu) / sigma)
  have he : ε * ε = 1 := by rcases hε with rfl | rfl <;> norm_num
  have hsq : devResPoissonNormal k lam v mu sigma (some ε) ^ 2 =
      poissonDeviance k lam + (v - mu) / sigma * ((v - mu) / sigma) := by
    simp only [devResPoissonNormal, withSign]
    rw [mul_pow, sq_abs, Real.sq_sqrt (by linarith), sq, he, one_mul]
  refine ⟨?_, ?_, ?_⟩
  · rw [hsq, ← a2, gaussLik, ← Real.exp_add]; congr 1; field_simp
    ring
  · simp only [devResPoissonNormal, withSign]
    rw [← mul_assoc, he, one_mul]; exact abs_nonneg _
  · rw [← a1, ← pow_eq_zero_iff (two_ne_zero), hsq]
    constructor
    · intro h
      refine ⟨by linarith, ?_⟩
      have : (v - mu) / sigma * ((v - mu) / sigma) = 0 := by linarith
      have := mul_self_eq_zero.1 this
      rw [div_eq_zero_iff] at this
      rcases this with h' | h'
      · linarith
      · exact absurd h' hσ.ne'
    · rintro ⟨h, rfl⟩; rw [h]; simp

/-- **C53** fails for the functions on pairs of data with their default degrees of freedom and a sign: whenever the
fit is perfect (`d = 0`, and every chi-square distribution function vanishes at `0`), the residual is infinite. -/
theorem C53_default_dof_refuted (cdf : ℝ → ℝ) (h0 : cdf 0 = 0) (k1 k2 : ℝ) (hk1 : 0 < k1) (hk2 : 0 < k2) :
    poissonDeviance k1 k1 + poissonDeviance k2 k2 = 0 ∧
    devResPairDof cdf (poissonDeviance k1 k1 + poissonDeviance k2 k2) (some 1) = ⊤ ∧
    devResPairDof cdf (poissonDeviance k1 k1 + poissonDeviance k2 k2) (some (-1)) = ⊥ := by
  have hd : poissonDeviance k1 k1 + poissonDeviance k2 k2 = 0 := by
    rw [((poissonDeviance_facts hk1.le hk1).2.1).2 rfl, ((poissonDeviance_facts hk2.le hk2).2.1).2 rfl]
    norm_num
  have hp : normPpf 0 = ⊥ := by
    unfold normPpf
    have : {x : ℝ | 0 ≤ 1 - normSf x} = Set.univ := by
      ext x
      simp only [Set.mem_ofPred_eq, Set.mem_univ, iff_true, sub_nonneg]
      exact MeasureTheory.measureReal_le_one
    rw [this, EReal.eq_bot_iff_forall_lt]
    intro y
    rw [sInf_lt_iff]
    exact ⟨_, ⟨y - 1, trivial, rfl⟩, EReal.coe_lt_coe_iff.2 (by linarith)⟩
  refine ⟨hd, ?_, ?_⟩
  · rw [hd, devResPairDof, h0, hp]; simp
  · rw [hd, devResPairDof, h0, hp]; simp

/-! ## Residuals of a fit -/

/-- The net counts of a dataset are what the package computes: on minus ratio times off (base.py:353-369). -/
def NetConsistent (d : FitData) : Prop :=
  ∀ j < d.size, nth d.netCounts j =
    nth d.specCounts j - (match d.back with | none => 0 | some b => nth b.ratio j * nth b.counts j)

theorem ratio_le_one {n μ : ℝ} (hn : 0 ≤ n) (hμ : 0 ≤ μ) : poisLik n μ / poisLik n n ≤ 1 :=
  (div_le_one (poisLik_self_pos hn)).2 (poisLik_le_self hn hμ)

theorem gaussLik_le_one (x μ σ : ℝ) : gaussLik x μ σ ≤ 1 := by
  unfold gaussLik
  rw [Real.exp_le_one_iff, neg_nonpos]; positivity

theorem gaussLik_eq_one {x μ σ : ℝ} (hσ : 0 < σ) : gaussLik x μ σ = 1 ↔ x = μ := by
  unfold gaussLik
  rw [Real.exp_eq_one_iff, neg_eq_zero, div_eq_zero_iff]
  constructor
  · rintro (h | h)
    · have := pow_eq_zero_iff (two_ne_zero) |>.1 h; linarith
    · exact absurd h (by positivity)
  · rintro rfl; left; simp

theorem mul_eq_one_of_le {x y : ℝ} (hx0 : 0 ≤ x) (hx : x ≤ 1) (hy : y ≤ 1) (h : x * y = 1) : x = 1 ∧ y = 1 := by
  have hx1 : x = 1 := by
    apply le_antisymm hx
    nlinarith
  rw [hx1, one_mul] at h
  exact ⟨hx1, h⟩

/-- the deviance of a channel vanishes only if the net data are fitted perfectly, and then it does (for a
non-negative background estimate) -/
theorem deviance_zero {stat : Stat} {d : FitData} {j : Nat} {s D : ℝ} (hj : j < d.size) (hu : Usable stat d)
    (hb : stat = .cstat → d.back = none) (hn : NetConsistent d) (hs : 0 < s) (hs' : 0 < expected stat d j s)
    (hD : IsDeviance stat d j s D) :
    (D = 0 → nth d.netCounts j = s) ∧
    (nth d.netCounts j = s → (∀ b, stat = .pgstat → d.back = some b → 0 ≤ nth b.counts j) → 0 ≤ D → D = 0) := by
  have hnj := hn j hj
  have hone : D = 0 ↔ Real.exp (-D / 2) = 1 := by
    rw [Real.exp_eq_one_iff]; constructor <;> intro h <;> linarith
  have hge : 0 ≤ D → 1 ≤ Real.exp (-D / 2) → D = 0 := by
    intro h0 h1
    rw [Real.one_le_exp_iff] at h1; linarith
  unfold Usable at hu
  unfold IsDeviance at hD
  cases stat with
  | chi2 =>
    simp only at hD hu
    have hσ := hu j hj
    rw [hone, hD, gaussLik_eq_one hσ]
    exact ⟨id, fun h _ _ => h⟩
  | cstat =>
    rw [hb rfl] at hnj hD hu
    simp only [sub_zero] at hnj hD hu
    rw [hone, hD, div_eq_one_iff_eq (poisLik_self_pos (hu j hj)).ne', poisLik_eq_self (hu j hj) hs.le, hnj]
    exact ⟨Eq.symm, fun h _ _ => h.symm⟩
  | pstat =>
    cases hbk : d.back with
    | none => rw [hbk] at hu; exact hu.elim
    | some b =>
      rw [hbk] at hu hD hnj
      simp only at hu hD hnj
      have he : expected .pstat d j s = s + nth b.ratio j * nth b.counts j := by unfold expected; rw [hbk]
      rw [he] at hs'
      rw [hone, hD, div_eq_one_iff_eq (poisLik_self_pos (hu j hj)).ne', poisLik_eq_self (hu j hj) hs'.le, hnj]
      constructor
      · intro h; linarith
      · intro h _ _; linarith
  | pgstat =>
    cases hbk : d.back with
    | none => rw [hbk] at hu; exact hu.elim
    | some b =>
      rw [hbk] at hu hD hnj
      simp only at hu hD hnj
      obtain ⟨u1, u2, u3⟩ := hu j hj
      constructor
      · intro h
        rw [hone] at h
        obtain ⟨x, hx, hl⟩ := hD.1
        rw [h] at hl
        have hpos : 0 < s + nth b.ratio j * x := by positivity
        have hl' : (poisLik (nth d.specCounts j) (s + nth b.ratio j * x) /
            poisLik (nth d.specCounts j) (nth d.specCounts j)) * gaussLik (nth b.counts j) x (nth b.errors j) = 1 := by
          rw [hl, onGaussLik]; ring
        obtain ⟨e1, e2⟩ := mul_eq_one_of_le (div_nonneg (poisLik_nonneg hpos.le) (poisLik_self_pos u1).le)
          (ratio_le_one u1 hpos.le) (gaussLik_le_one _ _ _) hl'
        rw [div_eq_one_iff_eq (poisLik_self_pos u1).ne', poisLik_eq_self u1 hpos.le] at e1
        rw [gaussLik_eq_one u2] at e2
        rw [hnj, e2]; linarith
      · intro h hB h0
        have hB := hB b rfl rfl
        apply hge h0
        apply hD.2
        refine ⟨nth b.counts j, hB, ?_⟩
        have e : s + nth b.ratio j * nth b.counts j = nth d.specCounts j := by linarith
        rw [onGaussLik, e, (gaussLik_eq_one u2).2 rfl, mul_one, div_self (poisLik_self_pos u1).ne']
  | wstat =>
    cases hbk : d.back with
    | none => rw [hbk] at hu; exact hu.elim
    | some b =>
      rw [hbk] at hu hD hnj
      simp only at hu hD hnj
      obtain ⟨u1, u2, u3⟩ := hu j hj
      constructor
      · intro h
        rw [hone] at h
        obtain ⟨x, hx, hl⟩ := hD.1
        rw [h] at hl
        have hpos : 0 < s + nth b.ratio j * x := by positivity
        have hl' : (poisLik (nth d.specCounts j) (s + nth b.ratio j * x) /
            poisLik (nth d.specCounts j) (nth d.specCounts j)) *
            (poisLik (nth b.counts j) x / poisLik (nth b.counts j) (nth b.counts j)) = 1 := by
          rw [hl, onOffLik, div_mul_div_comm]
        obtain ⟨e1, e2⟩ := mul_eq_one_of_le (div_nonneg (poisLik_nonneg hpos.le) (poisLik_self_pos u1).le)
          (ratio_le_one u1 hpos.le) (ratio_le_one u2 hx) hl'
        rw [div_eq_one_iff_eq (poisLik_self_pos u1).ne', poisLik_eq_self u1 hpos.le] at e1
        rw [div_eq_one_iff_eq (poisLik_self_pos u2).ne', poisLik_eq_self u2 hx] at e2
        rw [hnj, ← e2]; linarith
      · intro h _ h0
        apply hge h0
        apply hD.2
        refine ⟨nth b.counts j, u2, ?_⟩
        have e : s + nth b.ratio j * nth b.counts j = nth d.specCounts j := by linarith
        rw [onOffLik, e, div_self (mul_pos (poisLik_self_pos u1) (poisLik_self_pos u2)).ne']

theorem modelSpectrum_le {d : FitData} {width unfold : List ℝ} {j : Nat} {s : ℝ} (hexp : 0 < d.exposure)
    (hw : 0 < nth width j) (hr : d.sourceRate unfold j * d.exposure = s) :
    ceData d width j ≥ modelSpectrum d width unfold j ↔ s ≤ nth d.netCounts j := by
  unfold ceData modelSpectrum
  have hm : d.sourceRate unfold j / nth width j = s * (1 / (nth width j * d.exposure)) := by
    rw [← hr]; field_simp
  rw [hm, ge_iff_le]
  exact mul_le_mul_iff_left₀ (by positivity)

/-- **C53** (fit).  For every admissible statistic and every dataset and model in the numerical range, with source
counts `s`: the deviance residual of each channel exists, its square is the deviance of the channel (the
likelihood-ratio deviance, background profiled), its sign is the sign of the net data minus the model, and it
vanishes exactly where model and net data agree — for `pgstat` with a negative background estimate only the
"vanishes" ⇒ "agree" half holds, because the profiled background cannot be negative. -/
theorem C53_fit (stat : Stat) (d : FitData) (width unfold : List ℝ) (s : Nat → ℝ) (hu : Usable stat d)
    (ha : Admissible d stat) (hn : NetConsistent d) (hr : InRange stat d unfold s) (hs : ∀ j < d.size, 0 < s j)
    (hexp : 0 < d.exposure) (hw : ∀ j < d.size, 0 < nth width j) :
    ∃ r, devResiduals stat d width unfold = .ok r ∧ r.length = d.size ∧ ∀ j < d.size,
      IsDeviance stat d j (s j) (nth r j ^ 2) ∧
      (0 < nth r j → s j ≤ nth d.netCounts j) ∧ (nth r j < 0 → nth d.netCounts j < s j) ∧
      (nth r j = 0 → nth d.netCounts j = s j) ∧
      (nth d.netCounts j = s j → (∀ b, stat = .pgstat → d.back = some b → 0 ≤ nth b.counts j) → nth r j = 0) := by
  obtain ⟨sites, h1, h2, h3⟩ := C25_channel_deviance stat d unfold s hu hr
  refine ⟨_, by simp only [devResiduals, h1]; rfl, by simp, fun j hj => ?_⟩
  rw [nth_map hj]
  obtain ⟨D, e, h0, hD⟩ := h3 j hj
  rw [e]
  have hsq : (signMle d width unfold j * Real.sqrt D) ^ 2 = D := by
    unfold signMle signOf
    split <;> rw [mul_pow, Real.sq_sqrt h0] <;> norm_num
  have hle := modelSpectrum_le (unfold := unfold) hexp (hw j hj) (hr.rate j hj).1
  have hb : stat = .cstat → d.back = none := by
    rintro rfl; exact ha.2
  have hexp' : 0 < expected stat d j (s j) := lt_of_lt_of_le (by norm_num) (hr.rate j hj).2.1
  obtain ⟨z1, z2⟩ := deviance_zero hj hu hb hn (hs j hj) hexp' hD
  have hsq0 := Real.sqrt_nonneg D
  refine ⟨by rw [hsq]; exact hD, ?_, ?_, ?_, ?_⟩
  · intro h
    rw [← hle]
    by_contra hc
    unfold signMle signOf at h
    rw [if_neg hc] at h
    linarith
  · intro h
    by_contra hc
    unfold signMle signOf at h
    rw [if_pos (hle.2 (not_lt.1 hc))] at h
    linarith
  · intro h
    apply z1
    rw [← hsq, h]; norm_num
  · intro h hB
    rw [z2 h hB h0, Real.sqrt_zero, mul_zero]

example : ∃ r, devResiduals .wstat exFit [1] [2] = .ok r ∧ ∃ x, r = [x] ∧ 0 < x := by
  obtain ⟨r, h1, h2, h3⟩ := C53_fit .wstat exFit [1] [2] (fun _ => 2) (exFit_usable _)
    (by simp [Admissible, exFit]) (by
      intro j hj
      have hj0 : j = 0 := by simp [exFit, FitData.size] at hj; exact hj
      subst hj0; norm_num [exFit, nth]) (exFit_inRange _) (by norm_num) (by norm_num [exFit]) (by
      intro j hj
      have hj0 : j = 0 := by simp [exFit, FitData.size] at hj; exact hj
      subst hj0; norm_num [nth])
  obtain ⟨_, _, k2, k3, _⟩ := h3 0 (by simp [exFit, FitData.size])
  have hl : r.length = 1 := by rw [h2]; rfl
  obtain ⟨x, rfl⟩ := List.length_eq_one_iff.1 hl
  refine ⟨_, h1, x, rfl, ?_⟩
  have hx : nth [x] 0 = x := rfl
  rw [hx] at k2 k3
  have hnc : nth exFit.netCounts 0 = 7 / 2 := rfl
  rw [hnc] at k2 k3
  rcases lt_trichotomy x 0 with h | h | h
  · have := k2 h; norm_num at this
  · have := k3 h; norm_num at this
  · exact h

/-! ### Pearson residuals -/

/-- `r` is the Pearson residual of channel `j` for the source counts `s`: data minus expectation in units of the standard
deviation of the data; with a profiled background `x` the two residuals are added in quadrature. -/
def IsPearson (stat : Stat) (d : FitData) (j : Nat) (s r : ℝ) : Prop :=
  match stat, d.back with
  | .chi2, _ => r = (nth d.netCounts j - s) / nth d.netErrors j
  | .cstat, _ => r = (nth d.specCounts j - s) / Real.sqrt s
  | .pstat, some b => r = (nth d.specCounts j - (s + nth b.ratio j * nth b.counts j)) /
      Real.sqrt (s + nth b.ratio j * nth b.counts j)
  | .pgstat, some b => ∃ x, 0 ≤ x ∧
      (∀ y, 0 ≤ y → y ≠ x → onGaussLik (nth d.specCounts j) (nth b.counts j) (nth b.errors j) s (nth b.ratio j) y <
        onGaussLik (nth d.specCounts j) (nth b.counts j) (nth b.errors j) s (nth b.ratio j) x) ∧
      r ^ 2 = (nth d.specCounts j - (s + nth b.ratio j * x)) ^ 2 / (s + nth b.ratio j * x) +
        (nth b.counts j - x) ^ 2 / nth b.errors j ^ 2 ∧
      (0 < r → s ≤ nth d.netCounts j) ∧ (r < 0 → nth d.netCounts j < s)
  | .wstat, some b => ∃ x, 0 < x ∧
      (∀ y, 0 ≤ y → y ≠ x → onOffLik (nth d.specCounts j) (nth b.counts j) s (nth b.ratio j) y <
        onOffLik (nth d.specCounts j) (nth b.counts j) s (nth b.ratio j) x) ∧
      r ^ 2 = (nth d.specCounts j - (s + nth b.ratio j * x)) ^ 2 / (s + nth b.ratio j * x) +
        (nth b.counts j - x) ^ 2 / x ∧
      (0 < r → s ≤ nth d.netCounts j) ∧ (r < 0 → nth d.netCounts j < s)
  | _, none => False

theorem signMle_pos {d : FitData} {width unfold : List ℝ} {j : Nat} {s q : ℝ} (hq : 0 ≤ q)
    (hle : ceData d width j ≥ modelSpectrum d width unfold j ↔ s ≤ nth d.netCounts j) :
    (signMle d width unfold j * Real.sqrt q) ^ 2 = q ∧
    (0 < signMle d width unfold j * Real.sqrt q → s ≤ nth d.netCounts j) ∧
    (signMle d width unfold j * Real.sqrt q < 0 → nth d.netCounts j < s) := by
  have h0 := Real.sqrt_nonneg q
  refine ⟨?_, ?_, ?_⟩
  · unfold signMle signOf
    split <;> rw [mul_pow, Real.sq_sqrt hq] <;> norm_num
  · intro h
    rw [← hle]
    by_contra hc
    unfold signMle signOf at h
    rw [if_neg hc] at h
    linarith
  · intro h
    by_contra hc
    unfold signMle signOf at h
    rw [if_pos (hle.2 (not_lt.1 hc))] at h
    linarith

theorem getElem_range_map {α : Type} {f : Nat → α} {n j : Nat} (h : j < n) :
    ((List.range n).map f)[j]? = some (f j) := by
  simp [h]

/-- source counts are not clipped, and positive, for every statistic but `pstat` -/
theorem _root_.Elisa.Infer.InRange.source {stat : Stat} {d : FitData} {unfold : List ℝ} {s : Nat → ℝ} (hr : InRange stat d unfold s)
    (hne : stat ≠ .pstat) : ∀ j < d.size, d.sourceCounts unfold j = s j ∧ 0 < s j := by
  intro j hj
  obtain ⟨h1, h2, h3⟩ := hr.rate j hj
  have he : expected stat d j (s j) = s j := by
    cases stat <;> first | rfl | exact absurd rfl hne
  rw [he] at h2 h3
  refine ⟨?_, lt_of_lt_of_le (by norm_num) h2⟩
  unfold FitData.sourceCounts
  rw [h1, clip_id h2 h3]

/-- **C53** (Pearson residuals; partial).  For every statistic, usable dataset and model in the numerical range, the
Pearson residual of every channel exists and is the textbook one; for `wstat` this needs off counts in every channel. -/
theorem C53_pearson_partial (stat : Stat) (d : FitData) (width unfold : List ℝ) (s : Nat → ℝ) (hu : Usable stat d)
    (hr : InRange stat d unfold s) (hexp : 0 < d.exposure) (hw : ∀ j < d.size, 0 < nth width j)
    (hoff : stat = .wstat → ∀ b, d.back = some b → ∀ j < d.size, 0 < nth b.counts j) :
    ∃ r, pearsonResiduals stat d width unfold = .ok r ∧ r.length = d.size ∧ ∀ j < d.size,
      ∃ x, r[j]? = some (some x) ∧ IsPearson stat d j (s j) x := by
  have hsign : ∀ j < d.size, ∀ q : ℝ, (0 : ℝ) ≤ q → _ := fun j hj q hq =>
    signMle_pos (unfold := unfold) hq (modelSpectrum_le hexp (hw j hj) (hr.rate j hj).1)
  unfold Usable at hu
  unfold pearsonResiduals likelihood IsPearson
  cases stat with
  | chi2 =>
    have hsrc := hr.source (by decide)
    refine ⟨_, rfl, by simp, fun j hj => ?_⟩
    rw [getElem_range_map hj]
    dsimp only at hu ⊢
    refine ⟨_, ?_, rfl⟩
    have hσ := hu j hj
    simp [Stat.specNormal, Stat.withBack, pearson, nth_map hj, (hsrc j hj).1, hσ.ne']
  | cstat =>
    have hsrc := hr.source (by decide)
    refine ⟨_, rfl, by simp, fun j hj => ?_⟩
    rw [getElem_range_map hj]
    dsimp only at hu ⊢
    refine ⟨_, ?_, rfl⟩
    simp [Stat.specNormal, Stat.withBack, pearson, nth_map hj, (hsrc j hj).1, (Real.sqrt_pos.2 (hsrc j hj).2).ne']
  | pstat =>
    cases hb : d.back with
    | none => rw [hb] at hu; exact hu.elim
    | some b =>
      refine ⟨_, rfl, by simp, fun j hj => ?_⟩
      rw [getElem_range_map hj]
      dsimp only
      obtain ⟨h1, h2, h3⟩ := hr.rate j hj
      have he : expected .pstat d j (s j) = s j + nth b.ratio j * nth b.counts j := by
        unfold expected; rw [hb]
      rw [he] at h2 h3
      have hp : 0 < s j + nth b.ratio j * nth b.counts j := lt_of_lt_of_le (by norm_num) h2
      refine ⟨_, ?_, rfl⟩
      simp [Stat.specNormal, Stat.withBack, pearson, nth_map hj, h1, clip_id h2 h3, (Real.sqrt_pos.2 hp).ne']
  | pgstat =>
    have hsrc := hr.source (by decide)
    cases hb : d.back with
    | none => rw [hb] at hu; exact hu.elim
    | some b =>
      rw [hb] at hu
      refine ⟨_, rfl, by simp, fun j hj => ?_⟩
      rw [getElem_range_map hj]
      dsimp only at hu ⊢
      obtain ⟨u1, u2, u3⟩ := hu j hj
      obtain ⟨g0, g1⟩ := C23_pgstat_background (s j) _ (nth b.counts j) _ _ (hsrc j hj).2 u1 u2 u3
      have hp : 0 < s j + nth b.ratio j *
          pgstatBackground (s j) (nth d.specCounts j) (nth b.counts j) (nth b.errors j) (nth b.ratio j) := by
        have := mul_nonneg u3.le g0
        linarith [(hsrc j hj).2]
      obtain ⟨k1, k2, k3⟩ := hsign j hj _ (add_nonneg (mul_self_nonneg ((nth d.specCounts j - (s j + nth b.ratio j *
          pgstatBackground (s j) (nth d.specCounts j) (nth b.counts j) (nth b.errors j) (nth b.ratio j))) /
          Real.sqrt (s j + nth b.ratio j *
          pgstatBackground (s j) (nth d.specCounts j) (nth b.counts j) (nth b.errors j) (nth b.ratio j))))
          (mul_self_nonneg ((nth b.counts j -
            pgstatBackground (s j) (nth d.specCounts j) (nth b.counts j) (nth b.errors j) (nth b.ratio j)) /
            nth b.errors j)))
      refine ⟨_, ?_, _, g0, g1, k1.trans ?_, k2, k3⟩
      · simp [Stat.specNormal, Stat.backNormal, Stat.withBack, pearson, pearsonPair, nth_map hj, (hsrc j hj).1,
          (Real.sqrt_pos.2 hp).ne', u2.ne']
      · rw [← pow_two, ← pow_two, div_pow, div_pow, Real.sq_sqrt hp.le]
  | wstat =>
    have hsrc := hr.source (by decide)
    cases hb : d.back with
    | none => rw [hb] at hu; exact hu.elim
    | some b =>
      rw [hb] at hu
      refine ⟨_, rfl, by simp, fun j hj => ?_⟩
      rw [getElem_range_map hj]
      dsimp only at hu ⊢
      obtain ⟨u1, u2, u3⟩ := hu j hj
      obtain ⟨g0, g1⟩ := C22_wstat_background (s j) _ _ _ (hsrc j hj).2.le u1 u2 u3
      obtain ⟨hp, g3⟩ := C22_wstat_domain (s j) _ _ _ (hsrc j hj).2 u1 u2 u3
      have hx := g3 (hoff rfl b hb j hj)
      obtain ⟨k1, k2, k3⟩ := hsign j hj _ (add_nonneg (mul_self_nonneg ((nth d.specCounts j - (s j + nth b.ratio j *
          wstatBackground (s j) (nth d.specCounts j) (nth b.counts j) (nth b.ratio j))) /
          Real.sqrt (s j + nth b.ratio j *
          wstatBackground (s j) (nth d.specCounts j) (nth b.counts j) (nth b.ratio j))))
          (mul_self_nonneg ((nth b.counts j -
            wstatBackground (s j) (nth d.specCounts j) (nth b.counts j) (nth b.ratio j)) /
            Real.sqrt (wstatBackground (s j) (nth d.specCounts j) (nth b.counts j) (nth b.ratio j)))))
      refine ⟨_, ?_, _, hx, g1, k1.trans ?_, k2, k3⟩
      · simp [Stat.specNormal, Stat.backNormal, Stat.withBack, pearson, pearsonPair, nth_map hj, (hsrc j hj).1,
          (Real.sqrt_pos.2 hp).ne', (Real.sqrt_pos.2 hx).ne']
      · rw [← pow_two, ← pow_two, div_pow, div_pow, Real.sq_sqrt hp.le, Real.sq_sqrt hx.le]


/-- **C53** (Pearson residuals, refuted part).  With `wstat`, a channel without off counts whose on counts do not exceed
what the source alone explains has a profiled background of exactly zero, and its Pearson residual is `0 / 0`: it is
undefined although data and model are perfectly sensible. -/
theorem C53_pearson_refuted (d : FitData) (b : FitBack) (width unfold : List ℝ) (s : Nat → ℝ) (hb : d.back = some b)
    (hu : Usable .wstat d) (hr : InRange .wstat d unfold s) (j : Nat) (hj : j < d.size) (h0 : nth b.counts j = 0)
    (hlow : nth b.ratio j / (nth b.ratio j + 1) * nth d.specCounts j < s j) :
    ∃ r, pearsonResiduals .wstat d width unfold = .ok r ∧ r[j]? = some none := by
  have hsrc := hr.source (by decide)
  unfold pearsonResiduals likelihood
  rw [hb]
  refine ⟨_, rfl, ?_⟩
  rw [getElem_range_map hj]
  dsimp only
  have hz : wstatBackground (s j) (nth d.specCounts j) (nth b.counts j) (nth b.ratio j) = 0 := by
    unfold wstatBackground
    rw [h0]
    simp only [zero_div, if_neg (not_le.2 hlow)]
    simp
  simp only [Stat.specNormal, Stat.backNormal, Stat.withBack, nth_map hj, (hsrc j hj).1, hz, pearsonPair, pearson]
  simp only [List.mem_cons, List.not_mem_nil, or_false, reduceCtorEq, decide_false, decide_true, or_true, if_true,
    Option.map_some, Option.getD_some, Bool.false_eq_true, if_false, Option.getD_none]
  rw [nth_map hj, (hsrc j hj).1, hz]
  simp

example : (∃ r, pearsonResiduals .wstat exFit [1] [2] = .ok r ∧ r.length = 1) ∧
    (∃ r, pearsonResiduals .chi2 exFit [1] [2] = .ok r ∧ r.length = 1) := by
  have hw : ∀ j < exFit.size, 0 < nth [1] j := by
    intro j hj
    have hj0 : j = 0 := by simp [exFit, FitData.size] at hj; exact hj
    subst hj0; norm_num [nth]
  constructor
  · obtain ⟨r, h1, h2, _⟩ := C53_pearson_partial .wstat exFit [1] [2] _ (exFit_usable _) (exFit_inRange _)
      (by norm_num [exFit]) hw (by
        rintro _ b hb j hj
        have hj0 : j = 0 := by simp [exFit, FitData.size] at hj; exact hj
        subst hj0
        simp only [exFit, Option.some.injEq] at hb
        subst hb; norm_num [nth])
    exact ⟨r, h1, h2⟩
  · obtain ⟨r, h1, h2, _⟩ := C53_pearson_partial .chi2 exFit [1] [2] _ (exFit_usable _) (exFit_inRange _)
      (by norm_num [exFit]) hw (by rintro ⟨⟩)
    exact ⟨r, h1, h2⟩

/-! ## C57 -/

theorem fracBelow_mono {sim : List ℝ} {a b : ℝ} (h : a ≤ b) : fracBelow sim a ≤ fracBelow sim b := by
  unfold fracBelow
  apply div_le_div_of_nonneg_right _ (Nat.cast_nonneg _)
  exact_mod_cast List.Sublist.length_le (List.monotone_filter_right sim (by
    intro x hx
    simp only [decide_eq_true_eq] at hx ⊢
    linarith))

theorem fracBelow_bounds (sim : List ℝ) (a : ℝ) : 0 ≤ fracBelow sim a ∧ fracBelow sim a ≤ 1 := by
  unfold fracBelow
  refine ⟨by positivity, ?_⟩
  apply div_le_one_of_le₀ _ (Nat.cast_nonneg _)
  exact_mod_cast List.length_filter_le _ _

theorem poissonCdf_bounds {k lam : ℝ} (hl : 0 ≤ lam) :
    0 ≤ poissonCdf (k - 1) lam ∧ poissonCdf (k - 1) lam ≤ poissonCdf k lam ∧ poissonCdf k lam ≤ 1 := by
  have hterm : ∀ i : Nat, 0 ≤ Real.exp (-lam) * lam ^ i / (Nat.factorial i : ℝ) := fun i => by positivity
  have hnn : ∀ k, 0 ≤ poissonCdf k lam := by
    intro k
    unfold poissonCdf
    split
    · exact le_rfl
    · exact Finset.sum_nonneg fun i _ => hterm i
  refine ⟨hnn _, ?_, ?_⟩
  · by_cases h : k - 1 < 0
    · have : poissonCdf (k - 1) lam = 0 := by unfold poissonCdf; rw [if_pos h]
      rw [this]; exact hnn k
    · have hk : ¬ k < 0 := by push Not at h ⊢; linarith
      unfold poissonCdf
      rw [if_neg h, if_neg hk]
      apply Finset.sum_le_sum_of_subset_of_nonneg
      · apply Finset.range_mono
        have : ⌊k - 1⌋₊ ≤ ⌊k⌋₊ := Nat.floor_mono (by linarith)
        omega
      · intro i _ _; exact hterm i
  · unfold poissonCdf
    split
    · norm_num
    · have h1 := Real.sum_le_exp_of_nonneg hl (⌊k⌋₊ + 1)
      have h2 : ∑ i ∈ Finset.range (⌊k⌋₊ + 1), Real.exp (-lam) * lam ^ i / (Nat.factorial i : ℝ) =
          Real.exp (-lam) * ∑ i ∈ Finset.range (⌊k⌋₊ + 1), lam ^ i / (Nat.factorial i : ℝ) := by
        rw [Finset.mul_sum]
        apply Finset.sum_congr rfl
        intro i _; ring
      rw [h2]
      calc _ ≤ Real.exp (-lam) * Real.exp lam := mul_le_mul_of_nonneg_left h1 (Real.exp_pos _).le
        _ = 1 := by rw [← Real.exp_add]; simp

theorem normSf_bounds (c : ℝ) : 0 ≤ normSf c ∧ normSf c ≤ 1 :=
  ⟨(normSf_pos c).le, MeasureTheory.measureReal_le_one⟩

/-- **C57** (probabilities).  For every statistic, data, non-negative model and background ratio, and every outcome of
the simulation, the probability integral transform of a channel is a pair `lower ≤ upper` of numbers in `[0, 1]`. -/
theorem C57_pit (stat : Stat) (sim : List ℝ) (k v lam err ratio : ℝ) (hl : 0 ≤ lam) (hr : 0 ≤ ratio) :
    0 ≤ (pit stat sim k v lam err ratio).1 ∧
    (pit stat sim k v lam err ratio).1 ≤ (pit stat sim k v lam err ratio).2 ∧
    (pit stat sim k v lam err ratio).2 ≤ 1 := by
  cases stat with
  | chi2 =>
    have := normSf_bounds ((k - lam) / err)
    simp only [pit]
    refine ⟨?_, le_rfl, ?_⟩ <;> linarith
  | cstat => exact poissonCdf_bounds hl
  | pstat => exact poissonCdf_bounds hl
  | pgstat => exact ⟨(fracBelow_bounds _ _).1, le_rfl, (fracBelow_bounds _ _).2⟩
  | wstat =>
    refine ⟨(fracBelow_bounds _ _).1, fracBelow_mono ?_, (fracBelow_bounds _ _).2⟩
    apply max_le <;> linarith

theorem exists_cdf_small (ε : ℝ) (hε : 0 < ε) : ∃ y, 1 - normSf y < ε := by
  obtain ⟨c, _, hc⟩ := normSf_small ε hε
  refine ⟨-c - 1, ?_⟩
  have h1 : stdNormal.real (Set.Iic (-c - 1)) ≤ stdNormal.real (Set.Iio (-c)) :=
    MeasureTheory.measureReal_mono (fun x hx => by
      simp only [Set.mem_Iic, Set.mem_Iio] at hx ⊢; linarith)
  rw [normSf_lower] at h1
  have h2 : stdNormal.real (Set.Ioi (-c - 1)) = 1 - stdNormal.real (Set.Iic (-c - 1)) := by
    rw [← Set.compl_Iic, MeasureTheory.probReal_compl_eq_one_sub measurableSet_Iic]
  have h3 : normSf (-c - 1) = 1 - stdNormal.real (Set.Iic (-c - 1)) := h2
  linarith

theorem normPpf_mono {p q : ℝ} (h : p ≤ q) : normPpf p ≤ normPpf q := by
  unfold normPpf
  apply sInf_le_sInf
  apply Set.image_mono
  intro x hx
  simp only [Set.mem_ofPred_eq] at hx ⊢
  linarith

theorem normPpf_finite {p : ℝ} (h0 : 0 < p) (h1 : p < 1) : ∃ r : ℝ, normPpf p = r := by
  obtain ⟨c, _, hc⟩ := normSf_small (1 - p) (by linarith)
  obtain ⟨y, hy⟩ := exists_cdf_small p h0
  have hup : normPpf p ≤ (c : EReal) := sInf_le ⟨c, by simp only [Set.mem_ofPred_eq]; linarith, rfl⟩
  have hlo : (y : EReal) ≤ normPpf p := by
    apply le_sInf
    rintro _ ⟨x, hx, rfl⟩
    simp only [Set.mem_ofPred_eq] at hx
    apply EReal.coe_le_coe_iff.2
    by_contra hc
    have := normSf_strictAnti (not_le.1 hc)
    linarith
  refine ⟨(normPpf p).toReal, (EReal.coe_toReal ?_ ?_).symm⟩
  · intro h; rw [h] at hup; simp at hup
  · intro h; rw [h] at hlo; simp at hlo

/-- **C57** (limits).  For `pgstat` and `wstat` with at least two simulations and every PIT value in `[0, 1]`: the
residual is finite; it is flagged as upper (lower) limit exactly when no (every) simulation lies below the data,
and then it bounds the residual of every PIT value below (above) the resolution `1/nsim` of the simulation;
unflagged residuals are the normal quantile of the PIT value. -/
theorem C57_limits (nsim : Nat) (hn : 2 ≤ nsim) (p : ℝ) (h0 : 0 ≤ p) (h1 : p ≤ 1) :
    (∃ r : ℝ, (limitedResidual nsim p).1 = r) ∧
    ((limitedResidual nsim p).2.2 = true ↔ p = 0) ∧ ((limitedResidual nsim p).2.1 = true ↔ p = 1) ∧
    (p = 0 → ∀ q, q ≤ 1 / (nsim : ℝ) → normPpf q ≤ (limitedResidual nsim p).1) ∧
    (p = 1 → ∀ q, 1 - 1 / (nsim : ℝ) ≤ q → (limitedResidual nsim p).1 ≤ normPpf q) ∧
    (p ≠ 0 → p ≠ 1 → (limitedResidual nsim p).1 = normPpf p) := by
  have hR : (2 : ℝ) ≤ nsim := by exact_mod_cast hn
  have hi0 : 0 < 1 / (nsim : ℝ) := by positivity
  have hi1 : 1 / (nsim : ℝ) < 1 := by rw [div_lt_one (by linarith)]; linarith
  have e0 : p = 0 → (limitedResidual nsim p).1 = normPpf (1 / (nsim : ℝ)) := by
    rintro rfl; simp [limitedResidual]
  have e1 : p = 1 → (limitedResidual nsim p).1 = normPpf (1 - 1 / (nsim : ℝ)) := by
    rintro rfl; simp [limitedResidual]
  have e2 : p ≠ 0 → p ≠ 1 → (limitedResidual nsim p).1 = normPpf p := by
    intro a b; simp [limitedResidual, a, b]
  refine ⟨?_, by simp [limitedResidual], by simp [limitedResidual], ?_, ?_, e2⟩
  · by_cases a : p = 0
    · rw [e0 a]; exact normPpf_finite hi0 hi1
    · by_cases b : p = 1
      · rw [e1 b]; exact normPpf_finite (by linarith) (by linarith)
      · rw [e2 a b]
        exact normPpf_finite (lt_of_le_of_ne h0 (Ne.symm a)) (lt_of_le_of_ne h1 b)
  · intro a q hq; rw [e0 a]; exact normPpf_mono hq
  · intro a q hq; rw [e1 a]; exact normPpf_mono hq

example : (limitedResidual 10000 0).2.2 = true ∧ (limitedResidual 10000 (1 / 2)).1 = normPpf (1 / 2) := by
  refine ⟨((C57_limits 10000 (by norm_num) 0 le_rfl (by norm_num)).2.1).2 rfl, ?_⟩
  exact (C57_limits 10000 (by norm_num) (1 / 2) (by norm_num) (by norm_num)).2.2.2.2.2 (by norm_num) (by norm_num)

/-- **C57** fails for the library functions `quantile_residuals_poisson_poisson` and
`quantile_residuals_poisson_normal`: a PIT value of `0` is flagged as *lower* limit (and not as upper), although
the reported value is an upper bound that is not attained. -/
theorem C57_function_flags_refuted (nsim : Nat) (hn : 2 ≤ nsim) :
    (limitedResidualFn nsim 0).2 = (true, false) ∧
    (∀ q, q ≤ 1 / (nsim : ℝ) → normPpf q ≤ (limitedResidualFn nsim 0).1) ∧
    ∃ q, 0 < q ∧ normPpf q < (limitedResidualFn nsim 0).1 := by
  have hR : (2 : ℝ) ≤ nsim := by exact_mod_cast hn
  have hi0 : 0 < 1 / (nsim : ℝ) := by positivity
  have hi1 : 1 / (nsim : ℝ) < 1 := by rw [div_lt_one (by linarith)]; linarith
  have e0 : (limitedResidualFn nsim 0).1 = normPpf (1 / (nsim : ℝ)) := by simp [limitedResidualFn]
  refine ⟨by simp [limitedResidualFn], fun q hq => by rw [e0]; exact normPpf_mono hq, ?_⟩
  obtain ⟨r, hr⟩ := normPpf_finite hi0 hi1
  rw [e0, hr]
  have hlt : normSf (r - 1) < normSf (r - 1 - 1) := normSf_strictAnti (by linarith)
  have h1 := (normSf_bounds (r - 1 - 1)).2
  refine ⟨1 - normSf (r - 1), by linarith, ?_⟩
  calc normPpf (1 - normSf (r - 1)) ≤ ((r - 1 : ℝ) : EReal) := sInf_le ⟨r - 1, le_refl (1 - normSf (r - 1)), rfl⟩
    _ < (r : EReal) := EReal.coe_lt_coe_iff.2 (by linarith)

end Elisa.Plot
