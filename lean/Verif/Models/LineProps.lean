import Verif.Models.Line
import Verif.Models.QuadProps
import Mathlib.Analysis.SpecialFunctions.Gaussian.GaussianIntegral
import Mathlib.MeasureTheory.Integral.IntegralEqImproper
import Mathlib.Analysis.Real.Pi.Bounds

/-!
# C104: the photon flux of a Gaussian line
-/

namespace Elisa.Models.Spectra

open Real MeasureTheory Filter Topology

/-- The line documented in add.py:485-489. -/
noncomputable def gaussDoc (El sigma K E : ℝ) : ℝ := K / (sqrt (2 * π) * sigma) * exp (-((E - El) ^ 2 / (2 * sigma ^ 2)))

theorem gauss_doc (El sigma K E : ℝ) : gauss El sigma K E = gaussDoc El sigma K E := by
  unfold gauss normPdf gaussDoc
  ring

/-- **C104 (profile).**  The continuum of the Gaussian line is the documented profile; its photon flux over all energies is `K`, it is largest at the line energy and symmetric about it. -/
theorem C104_profile (El sigma K : ℝ) (hs : 0 < sigma) :
    (∀ E, gauss El sigma K E = gaussDoc El sigma K E) ∧ (∫ E, gauss El sigma K E) = K ∧
    (∀ d, gauss El sigma K (El + d) = gauss El sigma K (El - d)) ∧ (0 ≤ K → ∀ E, gauss El sigma K E ≤ gauss El sigma K El) := by
  have h2 : 0 < sqrt (2 * π) := sqrt_pos.2 (by positivity)
  refine ⟨gauss_doc El sigma K, ?_, ?_, ?_⟩
  · unfold gauss normPdf
    rw [integral_const_mul, integral_div]
    have hg := integral_gaussian (1 / (2 * sigma ^ 2))
    have ht := integral_sub_right_eq_self (fun x : ℝ => exp (-(1 / (2 * sigma ^ 2)) * x ^ 2)) (μ := volume) El
    have e1 : ∀ E : ℝ, exp (-((E - El) ^ 2 / (2 * sigma ^ 2))) = exp (-(1 / (2 * sigma ^ 2)) * (E - El) ^ 2) := by
      intro E; congr 1; field_simp
    simp_rw [e1]
    rw [ht, hg]
    have : sqrt (π / (1 / (2 * sigma ^ 2))) = sqrt (2 * π) * sigma := by
      rw [show π / (1 / (2 * sigma ^ 2)) = (2 * π) * sigma ^ 2 by field_simp, sqrt_mul (by positivity), sqrt_sq hs.le]
    rw [this, div_self (by positivity), mul_one]
  · intro d
    unfold gauss normPdf
    congr 4
    ring
  · intro hK E
    unfold gauss normPdf
    apply mul_le_mul_of_nonneg_left _ hK
    apply div_le_div_of_nonneg_right _ (by positivity)
    rw [exp_le_exp]
    have : 0 ≤ (E - El) ^ 2 / (2 * sigma ^ 2) := by positivity
    simp only [sub_self]
    norm_num
    exact this

example := C104_profile 6 (1 / 10) 3 (by norm_num)

theorem gauss_deriv (El sigma K x : ℝ) (hs : 0 < sigma) :
    HasDerivAt (gauss El sigma K) (-((x - El) / sigma ^ 2) * gauss El sigma K x) x := by
  have h1 : HasDerivAt (fun x : ℝ => -((x - El) ^ 2 / (2 * sigma ^ 2))) (-((x - El) / sigma ^ 2)) x := by
    have h : HasDerivAt (fun x : ℝ => -((x - El) ^ 2 / (2 * sigma ^ 2))) (-(((2 : ℕ) : ℝ) * (x - El) ^ (2 - 1) * 1 / (2 * sigma ^ 2))) x :=
      ((((hasDerivAt_id x).sub_const El).pow 2).div_const (2 * sigma ^ 2)).neg
    refine h.congr_deriv ?_
    field_simp
    norm_num
    ring
  have h2 : HasDerivAt (fun x : ℝ => K * (exp (-((x - El) ^ 2 / (2 * sigma ^ 2))) / (sqrt (2 * π) * sigma))) _ x :=
    (h1.exp.div_const (sqrt (2 * π) * sigma)).const_mul K
  refine h2.congr_deriv ?_
  unfold gauss normPdf
  ring

theorem gauss_deriv2 (El sigma K x : ℝ) (hs : 0 < sigma) :
    HasDerivAt (fun x => -((x - El) / sigma ^ 2) * gauss El sigma K x) (((x - El) ^ 2 / sigma ^ 2 - 1) / sigma ^ 2 * gauss El sigma K x) x := by
  have h1 : HasDerivAt (fun x : ℝ => -((x - El) / sigma ^ 2)) (-(1 / sigma ^ 2)) x := by
    have h : HasDerivAt (fun x : ℝ => -((x - El) / sigma ^ 2)) (-(1 / sigma ^ 2)) x := (((hasDerivAt_id x).sub_const El).div_const (sigma ^ 2)).neg
    exact h
  refine (h1.mul (gauss_deriv El sigma K x hs)).congr_deriv ?_
  field_simp
  ring

theorem gauss_second_le (El sigma K x : ℝ) (hs : 0 < sigma) (hK : 0 ≤ K) :
    |((x - El) ^ 2 / sigma ^ 2 - 1) / sigma ^ 2 * gauss El sigma K x| ≤ K / (sqrt (2 * π) * sigma ^ 3) := by
  have h2 : 0 < sqrt (2 * π) := sqrt_pos.2 (by positivity)
  obtain ⟨y, hy⟩ : ∃ y, y = (x - El) ^ 2 / (2 * sigma ^ 2) := ⟨_, rfl⟩
  have hy0 : 0 ≤ y := by rw [hy]; positivity
  have e : ((x - El) ^ 2 / sigma ^ 2 - 1) / sigma ^ 2 * gauss El sigma K x = K / (sqrt (2 * π) * sigma ^ 3) * ((2 * y - 1) * exp (-y)) := by
    unfold gauss normPdf
    rw [← hy]
    have : (x - El) ^ 2 / sigma ^ 2 = 2 * y := by rw [hy]; field_simp
    rw [this]
    field_simp
  rw [e, abs_mul, abs_of_nonneg (by positivity : 0 ≤ K / (sqrt (2 * π) * sigma ^ 3))]
  apply mul_le_of_le_one_right (by positivity)
  rw [exp_neg, ← div_eq_mul_inv, abs_div, abs_of_pos (exp_pos y), div_le_one (exp_pos y), abs_le]
  have h3 := quadratic_le_exp_of_nonneg hy0
  constructor
  · nlinarith
  · nlinarith [sq_nonneg (y - 1)]

theorem gauss_contDiff (El sigma K : ℝ) : ContDiff ℝ 2 (gauss El sigma K) := by
  unfold gauss normPdf
  fun_prop

theorem gauss_iterated (El sigma K a b x : ℝ) (hs : 0 < sigma) (hab : a < b) (hx : x ∈ Set.Icc a b) :
    iteratedDerivWithin 2 (gauss El sigma K) (Set.Icc a b) x = ((x - El) ^ 2 / sigma ^ 2 - 1) / sigma ^ 2 * gauss El sigma K x := by
  rw [iteratedDerivWithin_eq_iteratedDeriv (uniqueDiffOn_Icc hab) (gauss_contDiff El sigma K).contDiffAt hx, iteratedDeriv_succ, iteratedDeriv_one]
  have : deriv (gauss El sigma K) = fun x => -((x - El) / sigma ^ 2) * gauss El sigma K x := funext fun x => (gauss_deriv El sigma K x hs).deriv
  rw [this]
  exact (gauss_deriv2 El sigma K x hs).deriv

/-- **C42 (error on a grid).**  On a grid with bins no wider than `h`, the sum of the trapezoidal bins of a twice continuously differentiable continuum differs from the integral over the
grid by at most `M h² / 12` times the range, for a bound `M` of the second derivative. -/
theorem C42_trapz_grid_error (f : ℝ → ℝ) (M h : ℝ) (hf : ContDiff ℝ 2 f) (hM0 : 0 ≤ M) (egrid : List ℝ) (hg : Increasing egrid)
    (hM : ∀ a b, a < b → a ∈ egrid → b ∈ egrid → ∀ x ∈ Set.Icc a b, |iteratedDerivWithin 2 f (Set.Icc a b) x| ≤ M)
    (hh : ∀ v ∈ perBin (fun a b => b - a) egrid, v ≤ h) (e₀ e₁ : ℝ) (h0 : egrid.head? = some e₀) (h1 : egrid.getLast? = some e₁) :
    |(trapz true f egrid).sum - ∫ E in e₀..e₁, f E| ≤ M * (e₁ - e₀) * h ^ 2 / 12 := by
  induction egrid generalizing e₀ with
  | nil => simp at h0
  | cons a g ih =>
    cases g with
    | nil =>
      simp at h0 h1
      subst h0; subst h1
      simp [trapz, perBin]
    | cons b g =>
      simp only [List.head?_cons, Option.some.injEq] at h0
      subst h0
      have hab : a < b := by
        unfold Increasing at hg
        exact (List.isChain_cons_cons.1 hg).1
      have hg' : Increasing (b :: g) := by
        unfold Increasing at hg ⊢
        exact (List.isChain_cons_cons.1 hg).2
      have ih' := ih hg' (fun x y hxy hx hy => hM x y hxy (List.mem_cons_of_mem _ hx) (List.mem_cons_of_mem _ hy))
        (fun v hv => hh v (by rw [perBin_cons]; exact List.mem_cons_of_mem _ hv)) b rfl (by simpa using h1)
      obtain ⟨v, hv, hve⟩ := C42_trapz_error f a b hab hf.contDiffOn M (hM a b hab (by simp) (by simp))
      have hw : b - a ≤ h := hh (b - a) (by rw [perBin_cons]; simp)
      have hsum : (trapz true f (a :: b :: g)).sum = v + (trapz true f (b :: g)).sum := by
        have e1 : trapz true f (a :: b :: g) = v :: trapz true f (b :: g) := by
          unfold trapz at hv ⊢
          rw [perBin_cons]
          congr 1
          simpa [perBin] using hv
        rw [e1, List.sum_cons]
      have hint : ∫ E in a..e₁, f E = (∫ E in a..b, f E) + ∫ E in b..e₁, f E :=
        (intervalIntegral.integral_add_adjacent_intervals (hf.continuous.intervalIntegrable _ _) (hf.continuous.intervalIntegrable _ _)).symm
      rw [hsum, hint]
      have hb3 : M * (b - a) ^ 3 / 12 ≤ M * (b - a) * h ^ 2 / 12 := by
        have hpos := sub_pos.2 hab
        have : (b - a) ^ 2 ≤ h ^ 2 := by nlinarith
        have : M * (b - a) * (b - a) ^ 2 ≤ M * (b - a) * h ^ 2 := mul_le_mul_of_nonneg_left this (by positivity)
        nlinarith
      calc |v + (trapz true f (b :: g)).sum - ((∫ E in a..b, f E) + ∫ E in b..e₁, f E)|
          = |(v - ∫ E in a..b, f E) + ((trapz true f (b :: g)).sum - ∫ E in b..e₁, f E)| := by congr 1; ring
        _ ≤ |v - ∫ E in a..b, f E| + |(trapz true f (b :: g)).sum - ∫ E in b..e₁, f E| := abs_add_le _ _
        _ ≤ M * (b - a) * h ^ 2 / 12 + M * (e₁ - b) * h ^ 2 / 12 := add_le_add (hve.trans hb3) ih'
        _ = M * (e₁ - a) * h ^ 2 / 12 := by ring

/-- **C104 (flux in the bins), partial.**  On a grid of bins no wider than `h` the bins of a Gaussian line add up to the photon flux of the line in the range of the grid up to
`K (e₁ - e₀) h² / (12 √(2π) σ³)`: small if the bins are narrow compared to the width of the line.  Missing: lines narrower than the bins, see `C104_edge_refuted` and
`C104_inside_refuted`. -/
theorem C104_flux_partial (El sigma K h : ℝ) (hs : 0 < sigma) (hK : 0 ≤ K) (egrid : List ℝ) (hg : Increasing egrid)
    (hh : ∀ v ∈ perBin (fun a b => b - a) egrid, v ≤ h) (e₀ e₁ : ℝ) (h0 : egrid.head? = some e₀) (h1 : egrid.getLast? = some e₁) :
    |(trapz true (gauss El sigma K) egrid).sum - ∫ E in e₀..e₁, gaussDoc El sigma K E| ≤ K * (e₁ - e₀) * h ^ 2 / (12 * sqrt (2 * π) * sigma ^ 3) := by
  have h2 : 0 < sqrt (2 * π) := sqrt_pos.2 (by positivity)
  have := C42_trapz_grid_error (gauss El sigma K) (K / (sqrt (2 * π) * sigma ^ 3)) h (gauss_contDiff El sigma K) (by positivity) egrid hg
    (fun a b hab _ _ x hx => by rw [gauss_iterated El sigma K a b x hs hab hx]; exact gauss_second_le El sigma K x hs hK) hh e₀ e₁ h0 h1
  simp_rw [← gauss_doc]
  calc _ ≤ _ := this
    _ = _ := by field_simp

example := C104_flux_partial 6 (1 / 10) 3 4 (by norm_num) (by norm_num) [1, 2, 6] (by norm_num [Increasing]) (by norm_num [perBin]) 1 6 rfl rfl

/-- **C104 (flux in the bins) fails for a line on a bin edge.**  If the line energy is an edge of the grid, the two bins beside it hold at least `(b - a) / (2 √(2π) σ)` times the flux of the
line: more than any multiple `m` of it if the line is narrow enough. -/
theorem C104_edge_refuted (a El b sigma K : ℝ) (hs : 0 < sigma) (hK : 0 < K) (ha : a < El) (hb : El < b) :
    K * ((b - a) / (2 * sqrt (2 * π) * sigma)) < (trapz true (gauss El sigma K) [a, El, b]).sum ∧
    ∀ m, 0 < m → sigma < (b - a) / (2 * sqrt (2 * π) * m) → m * K < (trapz true (gauss El sigma K) [a, El, b]).sum := by
  have h2 : 0 < sqrt (2 * π) := sqrt_pos.2 (by positivity)
  have hpos : ∀ x, 0 < gauss El sigma K x := fun x => by unfold gauss normPdf; positivity
  have hc : gauss El sigma K El = K / (sqrt (2 * π) * sigma) := by
    unfold gauss normPdf
    simp
    ring
  have key : K * ((b - a) / (2 * sqrt (2 * π) * sigma)) < (trapz true (gauss El sigma K) [a, El, b]).sum := by
    have e : (trapz true (gauss El sigma K) [a, El, b]).sum = 0.5 * (El - a) * (gauss El sigma K a + gauss El sigma K El) + 0.5 * (b - El) * (gauss El sigma K El + gauss El sigma K b) := by
      simp [trapz, perBin]
    rw [e, hc]
    have h3 := mul_pos (sub_pos.2 ha) (hpos a)
    have h4 := mul_pos (sub_pos.2 hb) (hpos b)
    have h5 : K * ((b - a) / (2 * sqrt (2 * π) * sigma)) = 0.5 * (El - a) * (K / (sqrt (2 * π) * sigma)) + 0.5 * (b - El) * (K / (sqrt (2 * π) * sigma)) := by
      field_simp; norm_num
    rw [h5]
    norm_num
    nlinarith
  refine ⟨key, fun m hm hsm => lt_trans ?_ key⟩
  rw [mul_comm m K]
  apply mul_lt_mul_of_pos_left _ hK
  rw [lt_div_iff₀ (by positivity)] at hsm ⊢
  linarith

theorem exp_neg_le_inv {y : ℝ} (hy : 0 < y) : exp (-y) ≤ 1 / y := by
  rw [exp_neg, ← one_div]
  exact one_div_le_one_div_of_le hy (by linarith [add_one_le_exp y])

/-- **C104 (flux in the bins) fails for a line inside a bin.**  As the line becomes narrow, the bin that contains it holds all the flux `K`, but the value given to the bin tends to zero: it is
at most a constant times `σ`. -/
theorem C104_inside_refuted (a El b K : ℝ) (hK : 0 < K) (ha : a < El) (hb : El < b) :
    (∀ sigma, 0 < sigma → (trapz true (gauss El sigma K) [a, b]).sum ≤ K * (b - a) * (1 / (El - a) ^ 2 + 1 / (b - El) ^ 2) * sigma) ∧
    Tendsto (fun sigma => ∫ E in a..b, gaussDoc El sigma K E) (𝓝[>] 0) (𝓝 K) := by
  have h2 : 1 ≤ sqrt (2 * π) := by
    rw [one_le_sqrt]
    linarith [Real.pi_gt_three]
  constructor
  · intro sigma hs
    have hb1 : ∀ x, x ≠ El → gauss El sigma K x ≤ K * (2 * sigma / (x - El) ^ 2) := by
      intro x hx
      unfold gauss normPdf
      apply mul_le_mul_of_nonneg_left _ hK.le
      have hd : 0 < (x - El) ^ 2 := by
        have : x - El ≠ 0 := sub_ne_zero.2 hx
        positivity
      have h3 := exp_neg_le_inv (y := (x - El) ^ 2 / (2 * sigma ^ 2)) (by positivity)
      calc exp (-((x - El) ^ 2 / (2 * sigma ^ 2))) / (sqrt (2 * π) * sigma) ≤ (1 / ((x - El) ^ 2 / (2 * sigma ^ 2))) / (sqrt (2 * π) * sigma) :=
            div_le_div_of_nonneg_right h3 (by positivity)
        _ ≤ (1 / ((x - El) ^ 2 / (2 * sigma ^ 2))) / (1 * sigma) := by
            apply div_le_div_of_nonneg_left (by positivity) (by positivity)
            exact mul_le_mul_of_nonneg_right h2 hs.le
        _ = 2 * sigma / (x - El) ^ 2 := by field_simp
    have e : (trapz true (gauss El sigma K) [a, b]).sum = 0.5 * (b - a) * (gauss El sigma K a + gauss El sigma K b) := by
      simp [trapz, perBin]
    rw [e]
    have h4 := hb1 a ha.ne
    have h5 := hb1 b hb.ne'
    have hba : 0 < b - a := by linarith
    have h6 : (a - El) ^ 2 = (El - a) ^ 2 := by ring
    rw [h6] at h4
    have h7 : gauss El sigma K a + gauss El sigma K b ≤ K * (2 * sigma / (El - a) ^ 2) + K * (2 * sigma / (b - El) ^ 2) := add_le_add h4 h5
    have h8 := mul_le_mul_of_nonneg_left h7 (by positivity : 0 ≤ 0.5 * (b - a))
    refine h8.trans (le_of_eq ?_)
    norm_num
    ring
  · have hint : Integrable (fun x : ℝ => gaussDoc 0 1 K x) := by
      unfold gaussDoc
      apply Integrable.const_mul
      have := integrable_exp_neg_mul_sq (b := 1 / 2) (by norm_num)
      convert this using 3
      norm_num
      ring
    have htot : ∫ x, gaussDoc 0 1 K x = K := by
      have := (C104_profile 0 1 K one_pos).2.1
      simp_rw [gauss_doc] at this
      exact this
    have hsub : ∀ sigma, 0 < sigma → ∫ E in a..b, gaussDoc El sigma K E = ∫ x in ((a - El) / sigma)..((b - El) / sigma), gaussDoc 0 1 K x := by
      intro sigma hs
      have e : ∀ E, gaussDoc El sigma K E = sigma⁻¹ * (fun x => gaussDoc 0 1 K x) (E / sigma - El / sigma) := by
        intro E
        unfold gaussDoc
        have : (E - El) ^ 2 / (2 * sigma ^ 2) = (E / sigma - El / sigma - 0) ^ 2 / (2 * 1 ^ 2) := by field_simp; ring
        rw [this]
        field_simp
      simp_rw [e]
      rw [intervalIntegral.integral_const_mul, ← smul_eq_mul, intervalIntegral.inv_smul_integral_comp_div_sub]
      congr 1 <;> ring
    have hlim : Tendsto (fun sigma : ℝ => ∫ x in ((a - El) / sigma)..((b - El) / sigma), gaussDoc 0 1 K x) (𝓝[>] 0) (𝓝 K) := by
      have key : Tendsto (fun sigma : ℝ => ∫ x in ((a - El) / sigma)..((b - El) / sigma), gaussDoc 0 1 K x) (𝓝[>] 0) (𝓝 (∫ x, gaussDoc 0 1 K x)) := ?_
      · rwa [htot] at key
      have hinv := tendsto_inv_nhdsGT_zero (𝕜 := ℝ)
      apply intervalIntegral_tendsto_integral hint
      · exact (hinv.const_mul_atTop_of_neg (by linarith : a - El < 0)).congr fun x => (div_eq_mul_inv _ _).symm
      · exact (hinv.const_mul_atTop (by linarith : 0 < b - El)).congr fun x => (div_eq_mul_inv _ _).symm
    refine hlim.congr' ?_
    filter_upwards [self_mem_nhdsWithin] with sigma hs
    exact (hsub sigma hs).symm

example := C104_inside_refuted 5 6 7 3 (by norm_num) (by norm_num) (by norm_num)

/-- **C104 (thermal synchrotron).**  The continuum is positive, decreases with energy and is `K` in the limit of zero energy and `K / e` at `Ec`. -/
theorem C104_otts (Ec K : ℝ) (hE : 0 < Ec) (hK : 0 < K) :
    (∀ E, 0 < otts Ec K E) ∧ (∀ E E', 0 ≤ E → E < E' → otts Ec K E' < otts Ec K E) ∧ otts Ec K 0 = K ∧ otts Ec K Ec = K * exp (-1) ∧
      ∀ E, 0 < E → E = Ec * (log (K / otts Ec K E)) ^ 3 := by
  refine ⟨fun E => by unfold otts; positivity, ?_, ?_, ?_, ?_⟩
  · intro E E' h0 h
    unfold otts
    apply mul_lt_mul_of_pos_left _ hK
    rw [exp_lt_exp, neg_lt_neg_iff]
    exact rpow_lt_rpow (div_nonneg h0 hE.le) (div_lt_div_of_pos_right h hE) (by norm_num)
  · simp [otts]
  · simp [otts, div_self hE.ne']
  · intro E h0
    unfold otts
    rw [show K / (K * exp (-((E / Ec) ^ ((1 : ℝ) / 3)))) = exp ((E / Ec) ^ ((1 : ℝ) / 3)) by rw [exp_neg]; field_simp, log_exp,
      ← rpow_natCast, ← rpow_mul (by positivity)]
    norm_num
    field_simp

/-! ## Examples -/

example : Increasing [6, 6.5, 7] ∧ ∀ v ∈ perBin (fun a b => b - a) [6, 6.5, (7 : ℝ)], v ≤ 0.5 := by
  constructor
  · simp [Increasing]; norm_num
  · intro v hv
    simp [perBin] at hv
    rcases hv with rfl | rfl <;> norm_num

/-- The default line (6.5 keV, width 0.1 keV) on bins of 1 keV with an edge at the line energy: the bins hold more than 3 times its flux. -/
example : 3 * 1 < (trapz true (gauss 6.5 0.1 1) [5.5, 6.5, 7.5]).sum := by
  refine (C104_edge_refuted 5.5 6.5 7.5 0.1 1 (by norm_num) one_pos (by norm_num) (by norm_num)).2 3 (by norm_num) ?_
  have h : sqrt (2 * π) < 3 := by
    rw [sqrt_lt' (by norm_num)]
    linarith [Real.pi_le_four]
  have h0 : 0 < sqrt (2 * π) := sqrt_pos.2 (by positivity)
  rw [lt_div_iff₀ (by positivity)]
  linarith

end Elisa.Models.Spectra
