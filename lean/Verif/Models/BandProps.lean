import Verif.Models.ShiftProps
import Mathlib.Analysis.Complex.ExponentialBounds

/-!
# C39, C64: the Band function, `νFν` peaks, and numerically stabilised branches
-/

namespace Elisa.Models.Spectra

open Real Filter Topology

/-! ## Specification -/

/-- The documented Band function, add.py:56-68. -/
noncomputable def bandDoc (alpha beta Ec K E : ℝ) : ℝ :=
  if E < (alpha - beta) * Ec then K * ((E / 100) ^ alpha * exp (-E / Ec))
  else K * ((E / 100) ^ beta * exp (beta - alpha) * ((alpha - beta) * Ec / 100) ^ (alpha - beta))

/-- `νFν`. -/
def nuFnu (N : ℝ → ℝ) (E : ℝ) : ℝ := E ^ 2 * N E

/-! ## C39 -/

/-- Where the low- and high-energy indices are separated (`alpha - beta ≥ 1/Ec`), the code is the
documented function at every positive energy. (Missing: the other documented parameter values, see
`C39_discontinuous_refuted`.) -/
theorem C39_documented_partial (alpha beta Ec K E : ℝ) (hEc : 0 < Ec) (hE : 0 < E) (hsep : 1 / Ec ≤ alpha - beta) :
    band alpha beta Ec K E = bandDoc alpha beta Ec K E := by
  have hpos : 0 < alpha - beta := lt_of_lt_of_le (by positivity) hsep
  unfold band bandDoc
  simp only [not_lt.2 hsep, if_false]
  rw [mul_comm Ec (alpha - beta)]
  have h100 : 0 < E / 100 := by positivity
  have h101 : 0 < (alpha - beta) * Ec / 100 := by positivity
  split_ifs with h
  · congr 1
    rw [rpow_def_of_pos h100, ← exp_add]
    congr 1
    ring
  · congr 1
    rw [rpow_def_of_pos h100, rpow_def_of_pos h101, ← exp_add, ← exp_add]
    congr 1
    ring

example := C39_documented_partial (-1) (-2) 100 3 50 (by norm_num) (by norm_num) (by norm_num)

/-- It is then continuous at every positive energy, in particular at the break. -/
theorem C39_continuous_partial (alpha beta Ec K : ℝ) (hEc : 0 < Ec) (hsep : 1 / Ec ≤ alpha - beta) :
    ContinuousOn (band alpha beta Ec K) (Set.Ioi 0) := by
  have hpos : 0 < alpha - beta := lt_of_lt_of_le (by positivity) hsep
  have hb : band alpha beta Ec K = fun e => K * exp (if e < Ec * (alpha - beta) then alpha * log (e / 100) - e / Ec
      else (alpha - beta) * log ((alpha - beta) * Ec / 100) - (alpha - beta) + beta * log (e / 100)) := by
    funext e
    unfold band
    simp only [not_lt.2 hsep, if_false]
  rw [hb]
  apply ContinuousOn.mul continuousOn_const
  apply continuous_exp.comp_continuousOn
  have hlog : ContinuousOn (fun e : ℝ => log (e / 100)) (Set.Ioi 0) := by
    apply ContinuousOn.log (by fun_prop)
    intro x hx
    have : 0 < x := hx
    positivity
  apply ContinuousOn.if
  · intro a ⟨ha0, ha⟩
    have ha : a = Ec * (alpha - beta) := by
      have h2 : {a : ℝ | a < Ec * (alpha - beta)} = Set.Iio (Ec * (alpha - beta)) := rfl
      rw [h2, frontier_Iio] at ha
      exact ha
    rw [ha]
    have : Ec * (alpha - beta) / Ec = alpha - beta := by field_simp
    rw [this, mul_comm Ec]
    ring
  · apply ContinuousOn.mono _ Set.inter_subset_left
    exact (continuousOn_const.mul hlog).sub (by fun_prop)
  · apply ContinuousOn.mono _ Set.inter_subset_left
    exact continuousOn_const.add (continuousOn_const.mul hlog)

example := C39_continuous_partial (-1) (-2) 100 3 (by norm_num) (by norm_num)

/-- Otherwise (`alpha - beta < 1/Ec`, for instance `beta` close to or above `alpha`, values the
declared parameter ranges allow) the spectrum jumps at 1 keV, whatever the other parameters. -/
theorem C39_discontinuous_refuted (alpha beta Ec K : ℝ) (hEc : 0 < Ec) (hK : K ≠ 0) (hsep : alpha - beta < 1 / Ec) :
    ¬ ContinuousAt (band alpha beta Ec K) 1 := by
  intro hc
  have hone : Ec * (1 / Ec) = 1 := by field_simp
  have hb : ∀ e, band alpha beta Ec K e = K * exp (if e < 1 then alpha * log (e / 100) - e / Ec
      else 1 / Ec * log (1 / Ec * Ec / 100) - 1 / Ec + beta * log (e / 100)) := by
    intro e
    unfold band
    simp only [hsep, if_true, hone]
  have hl : Tendsto (band alpha beta Ec K) (𝓝[<] 1) (𝓝 (K * exp (alpha * log (1 / 100) - 1 / Ec))) := by
    have hcont : ContinuousAt (fun e : ℝ => K * exp (alpha * log (e / 100) - e / Ec)) 1 := by
      have : (1 : ℝ) / 100 ≠ 0 := by norm_num
      fun_prop (disch := exact this)
    have := hcont.tendsto.mono_left (nhdsWithin_le_nhds (s := Set.Iio 1))
    refine this.congr' ?_
    filter_upwards [self_mem_nhdsWithin] with e he
    rw [hb e, if_pos (show e < 1 from he)]
  have hr := hc.tendsto.mono_left (nhdsWithin_le_nhds (s := Set.Iio 1))
  have heq := tendsto_nhds_unique hl hr
  rw [hb 1] at heq
  simp only [lt_irrefl, if_false] at heq
  have h3 := exp_injective (mul_left_cancel₀ hK heq)
  have hlog : log ((1 : ℝ) / 100) < 0 := log_neg (by norm_num) (by norm_num)
  have h4 : (1 : ℝ) / Ec * Ec / 100 = 1 / 100 := by field_simp
  rw [h4] at h3
  have h5 : (alpha - beta - 1 / Ec) * log (1 / 100) = 0 := by linarith
  rcases mul_eq_zero.1 h5 with h | h
  · linarith
  · linarith

example := C39_discontinuous_refuted (-1) (-1) 100 3 (by norm_num) (by norm_num) (by norm_num)

/-- `BandEp` is the Band function with `Ec = Ep / (2 + alpha)` when the indices are separated. -/
theorem C39_bandEp_eq_band_partial (alpha beta Ep K E : ℝ)
    (hsep : 1 / (Ep / (2 + alpha)) ≤ alpha - beta) :
    bandEp alpha beta Ep K E = band alpha beta (Ep / (2 + alpha)) K E := by
  unfold bandEp band
  simp only [not_lt.2 hsep, if_false, mul_comm]

example := C39_bandEp_eq_band_partial (-1) (-2) 300 3 50 (by norm_num)

/-- Otherwise the two components differ: the break of `BandEp` is not clipped. -/
theorem C39_bandEp_refuted : bandEp (-1) (-1) 300 1 (1 / 2) ≠ band (-1) (-1) (300 / (2 + -1)) 1 (1 / 2) := by
  intro h
  unfold bandEp band at h
  norm_num at h
  have h2 : log ((1 : ℝ) / 100) < 0 := log_neg (by norm_num) (by norm_num)
  norm_num at h2
  linarith

/-- For `alpha > -2 > beta` and `Ep ≥ 1` keV (the declared range starts at 10 keV) the indices are always
separated, so the two components agree. -/
theorem C39_bandEp_eq_band (alpha beta Ep K E : ℝ) (ha : -2 < alpha) (hb : beta < -2) (hEp : 1 ≤ Ep) :
    bandEp alpha beta Ep K E = band alpha beta (Ep / (2 + alpha)) K E := by
  apply C39_bandEp_eq_band_partial
  rw [one_div_div, div_le_iff₀ (by linarith)]
  nlinarith

example := C39_bandEp_eq_band (-1) (-5 / 2) 300 3 50 (by norm_num) (by norm_num) (by norm_num)

/-- `νFν` of `BandEp` has its strict maximum at `Ep`, over all positive energies. -/
theorem C39_peak (alpha beta Ep K : ℝ) (ha : -2 < alpha) (hb : beta < -2) (hEp : 1 ≤ Ep) (hK : 0 < K) (E : ℝ)
    (hE : 0 < E) (hne : E ≠ Ep) : nuFnu (bandEp alpha beta Ep K) E < nuFnu (bandEp alpha beta Ep K) Ep := by
  have hEp0 : 0 < Ep := by linarith
  have h2a : 0 < 2 + alpha := by linarith
  have hEc : 0 < Ep / (2 + alpha) := by positivity
  have hsep : 1 / (Ep / (2 + alpha)) ≤ alpha - beta := by
    rw [one_div_div, div_le_iff₀ hEp0]; nlinarith
  have hval : ∀ e, 0 < e → nuFnu (bandEp alpha beta Ep K) e
      = K * exp (if e < (alpha - beta) * (Ep / (2 + alpha)) then 2 * log e + (alpha * log (e / 100) - e / (Ep / (2 + alpha)))
        else 2 * log e + ((alpha - beta) * log ((alpha - beta) * (Ep / (2 + alpha)) / 100) - (alpha - beta) + beta * log (e / 100))) := by
    intro e he
    have hsq : e ^ 2 = exp (2 * log e) := by
      rw [mul_comm, exp_mul, exp_log he]; norm_num
    unfold nuFnu bandEp
    simp only [not_lt.2 hsep, if_false]
    rw [hsq]
    split_ifs <;> rw [mul_left_comm, ← exp_add]
  have hbreak : Ep < (alpha - beta) * (Ep / (2 + alpha)) := by
    rw [← mul_div_assoc, lt_div_iff₀ h2a]
    nlinarith
  rw [hval E hE, hval Ep hEp0, if_pos hbreak]
  apply mul_lt_mul_of_pos_left _ hK
  apply exp_lt_exp.2
  -- the low-energy branch
  have low : ∀ e, 0 < e → e ≠ Ep → 2 * log e + (alpha * log (e / 100) - e / (Ep / (2 + alpha)))
      < 2 * log Ep + (alpha * log (Ep / 100) - Ep / (Ep / (2 + alpha))) := by
    intro e he hne
    have h1 : log (e / Ep) < e / Ep - 1 := log_lt_sub_one_of_pos (by positivity) (by rw [ne_eq, div_eq_one_iff_eq hEp0.ne']; exact hne)
    rw [log_div he.ne' hEp0.ne'] at h1
    rw [log_div he.ne' (by norm_num), log_div hEp0.ne' (by norm_num)]
    have h2 : e / (Ep / (2 + alpha)) = (2 + alpha) * (e / Ep) := by field_simp
    have h3 : Ep / (Ep / (2 + alpha)) = 2 + alpha := by field_simp
    rw [h2, h3]
    have h4 := mul_lt_mul_of_pos_left h1 h2a
    linarith
  split_ifs with h
  · exact low E hE hne
  · -- the high-energy branch lies below the value at the break
    have hEb := hbreak.trans_le (not_lt.1 h)
    set Eb := (alpha - beta) * (Ep / (2 + alpha)) with hEbdef
    have hEb0 : 0 < Eb := hEp0.trans hbreak
    have hmono : log Eb ≤ log E := log_le_log hEb0 (not_lt.1 h)
    refine lt_of_le_of_lt ?_ (low Eb hEb0 hbreak.ne')
    have h5 : Eb / (Ep / (2 + alpha)) = alpha - beta := by rw [hEbdef]; field_simp
    rw [h5, log_div hE.ne' (by norm_num), log_div hEb0.ne' (by norm_num)]
    nlinarith [mul_nonneg (show (0 : ℝ) ≤ -(2 + beta) by linarith) (sub_nonneg.2 hmono)]

example := C39_peak (-1) (-5 / 2) 300 3 (by norm_num) (by norm_num) (by norm_num) (by norm_num) 50 (by norm_num) (by norm_num)

/-- `νFν` of `Compt` has its strict maximum at `Ep` for `alpha < 2`. -/
theorem C39_compt_peak (alpha Ep K : ℝ) (ha : alpha < 2) (hEp : 0 < Ep) (hK : 0 < K) (E : ℝ) (hE : 0 < E)
    (hne : E ≠ Ep) : nuFnu (compt alpha Ep K) E < nuFnu (compt alpha Ep K) Ep := by
  have hval : ∀ e, 0 < e → nuFnu (compt alpha Ep K) e = K * exp ((2 - alpha) * (log e - e / Ep)) := by
    intro e he
    have hsq : e ^ 2 = exp (2 * log e) := by
      rw [mul_comm, exp_mul, exp_log he]; norm_num
    unfold nuFnu compt
    rw [hsq, rpow_def_of_pos he]
    rw [mul_left_comm, mul_assoc K, ← exp_add, ← exp_add]
    congr 2
    field_simp
    ring
  rw [hval E hE, hval Ep hEp]
  apply mul_lt_mul_of_pos_left _ hK
  apply exp_lt_exp.2
  apply mul_lt_mul_of_pos_left _ (by linarith)
  have h1 : log (E / Ep) < E / Ep - 1 := log_lt_sub_one_of_pos (by positivity) (by rw [ne_eq, div_eq_one_iff_eq hEp.ne']; exact hne)
  rw [log_div hE.ne' hEp.ne'] at h1
  rw [div_self hEp.ne']
  linarith

example : (1 : ℝ) / 300 ≤ -1 - (-2) ∧ (-2 : ℝ) < -1 ∧ (-2.5 : ℝ) < -2 ∧ (1 : ℝ) ≤ 300 := by norm_num

/-! ## C64 -/

/-- The smoothly broken power law in closed form (without the thresholds of the code). -/
noncomputable def sbplClosed (alpha1 Eb alpha2 rho K E : ℝ) : ℝ :=
  K * (E / Eb) ^ (-alpha1) * (0.5 * (1 + (E / Eb) ^ ((alpha2 - alpha1) / rho))) ^ (-rho)

/-- The documented formula, add.py:810-820. -/
noncomputable def sbplDoc (alpha1 Eb alpha2 rho K E : ℝ) : ℝ :=
  K * E ^ (-alpha1) * (2 * (1 + (E / Eb) ^ ((alpha2 - alpha1) / rho))) ^ (-rho)

/-- The value of the code is the closed form up to a relative excess of at most `(1 + e⁻³⁰)^ρ - 1`,
for all energies and parameters: the switch to the asymptotic power laws is invisible. -/
theorem C64_sbpl (alpha1 Eb alpha2 rho K E : ℝ) (hEb : 0 < Eb) (hr : 0 < rho) (hK : 0 ≤ K) (hE : 0 < E) :
    sbplClosed alpha1 Eb alpha2 rho K E ≤ smoothlyBrokenPL alpha1 Eb alpha2 rho K E ∧
    smoothlyBrokenPL alpha1 Eb alpha2 rho K E ≤ (1 + exp (-30)) ^ rho * sbplClosed alpha1 Eb alpha2 rho K E := by
  have hs : 0 < E / Eb := by positivity
  have hx : (E / Eb) ^ ((alpha2 - alpha1) / rho) = exp ((alpha2 - alpha1) / rho * log (E / Eb)) := by
    rw [rpow_def_of_pos hs, mul_comm]
  unfold smoothlyBrokenPL sbplClosed
  simp only [hx]
  set x := (alpha2 - alpha1) / rho * log (E / Eb) with hxdef
  have hbig : (1 : ℝ) ≤ (1 + exp (-30)) ^ rho := one_le_rpow (by have := exp_pos (-30); linarith) hr.le
  have hP : ∀ p : ℝ, 0 ≤ K * (E / Eb) ^ p := fun p => mul_nonneg hK (rpow_nonneg hs.le _)
  have half : (0 : ℝ) < 0.5 := by norm_num
  by_cases h1 : |x| > 30
  · rw [if_pos h1]
    by_cases h2 : x > 30
    · rw [if_pos h2]
      -- K s^(-α1) (0.5(1+e^x))^(-ρ) = K s^(-α2) 0.5^(-ρ) (1+e^(-x))^(-ρ)
      have key : K * (E / Eb) ^ (-alpha1) * (0.5 * (1 + exp x)) ^ (-rho)
          = K * (E / Eb) ^ (-alpha2) * 0.5 ^ (-rho) * (1 + exp (-x)) ^ (-rho) := by
        have e1 : 0.5 * (1 + exp x) = 0.5 * (1 + exp (-x)) * exp x := by
          rw [mul_assoc, add_mul, one_mul, ← exp_add, neg_add_cancel, exp_zero, add_comm]
        have p1 : 0 < 1 + exp (-x) := by positivity
        rw [e1, mul_rpow (by positivity) (exp_pos _).le, mul_rpow half.le p1.le, ← exp_mul]
        have e2 : exp (x * -rho) = (E / Eb) ^ (alpha1 - alpha2) := by
          rw [rpow_def_of_pos hs, hxdef]
          congr 1
          field_simp
          ring
        have e3 : (E / Eb) ^ (-alpha2) = (E / Eb) ^ (-alpha1) * (E / Eb) ^ (alpha1 - alpha2) := by
          rw [← rpow_add hs]; congr 1; ring
        rw [e2, e3]
        ring
      rw [key]
      have hle : (1 + exp (-x)) ^ (-rho) ≤ 1 := rpow_le_one_of_one_le_of_nonpos (by have := exp_pos (-x); linarith) (by linarith)
      have hA : 0 ≤ K * (E / Eb) ^ (-alpha2) * 0.5 ^ (-rho) := mul_nonneg (hP _) (rpow_nonneg half.le _)
      constructor
      · calc _ ≤ K * (E / Eb) ^ (-alpha2) * 0.5 ^ (-rho) * 1 := mul_le_mul_of_nonneg_left hle hA
          _ = _ := mul_one _
      · have h3 : 1 ≤ (1 + exp (-30)) ^ rho * (1 + exp (-x)) ^ (-rho) := by
          have p1 : 0 < 1 + exp (-x) := by positivity
          rw [rpow_neg p1.le, ← div_eq_mul_inv, le_div_iff₀ (rpow_pos_of_pos p1 _), one_mul]
          apply rpow_le_rpow p1.le _ hr.le
          have : exp (-x) ≤ exp (-30) := exp_le_exp.2 (by linarith)
          linarith
        calc _ = K * (E / Eb) ^ (-alpha2) * 0.5 ^ (-rho) * 1 := (mul_one _).symm
          _ ≤ K * (E / Eb) ^ (-alpha2) * 0.5 ^ (-rho) * ((1 + exp (-30)) ^ rho * (1 + exp (-x)) ^ (-rho)) :=
            mul_le_mul_of_nonneg_left h3 hA
          _ = _ := by ring
    · rw [if_neg h2]
      have hx30 : x < -30 := by
        rcases abs_cases x with ⟨h, _⟩ | ⟨h, _⟩ <;> linarith
      have p1 : 0 < 1 + exp x := by positivity
      have e1 : (0.5 * (1 + exp x)) ^ (-rho) = 0.5 ^ (-rho) * (1 + exp x) ^ (-rho) := mul_rpow half.le p1.le
      rw [e1]
      have hle : (1 + exp x) ^ (-rho) ≤ 1 := rpow_le_one_of_one_le_of_nonpos (by have := exp_pos x; linarith) (by linarith)
      have hA : 0 ≤ K * (E / Eb) ^ (-alpha1) * 0.5 ^ (-rho) := mul_nonneg (hP _) (rpow_nonneg half.le _)
      constructor
      · calc _ = K * (E / Eb) ^ (-alpha1) * 0.5 ^ (-rho) * (1 + exp x) ^ (-rho) := by ring
          _ ≤ K * (E / Eb) ^ (-alpha1) * 0.5 ^ (-rho) * 1 := mul_le_mul_of_nonneg_left hle hA
          _ = _ := mul_one _
      · have h3 : 1 ≤ (1 + exp (-30)) ^ rho * (1 + exp x) ^ (-rho) := by
          rw [rpow_neg p1.le, ← div_eq_mul_inv, le_div_iff₀ (rpow_pos_of_pos p1 _), one_mul]
          apply rpow_le_rpow p1.le _ hr.le
          have : exp x ≤ exp (-30) := exp_le_exp.2 hx30.le
          linarith
        calc _ = K * (E / Eb) ^ (-alpha1) * 0.5 ^ (-rho) * 1 := (mul_one _).symm
          _ ≤ K * (E / Eb) ^ (-alpha1) * 0.5 ^ (-rho) * ((1 + exp (-30)) ^ rho * (1 + exp x) ^ (-rho)) :=
            mul_le_mul_of_nonneg_left h3 hA
          _ = _ := by ring
  · rw [if_neg h1]
    have h2 : ¬ x > 30 := fun h => h1 (lt_of_lt_of_le h (le_abs_self x))
    rw [if_neg h2]
    have hA : 0 ≤ K * (E / Eb) ^ (-alpha1) * (0.5 * (1 + exp x)) ^ (-rho) :=
      mul_nonneg (hP _) (rpow_nonneg (by positivity) _)
    exact ⟨le_rfl, le_mul_of_one_le_left hA hbig⟩

example := C64_sbpl 1 100 2 (1 / 2) 3 50 (by norm_num) (by norm_num) (by norm_num) (by norm_num)

/-- At the break the spectrum is `K`: the normalisation is the value at the break energy, for all
indices and smoothness. -/
theorem C64_sbpl_at_break (alpha1 Eb alpha2 rho K : ℝ) (hEb : 0 < Eb) :
    smoothlyBrokenPL alpha1 Eb alpha2 rho K Eb = K := by
  unfold smoothlyBrokenPL
  simp [div_self hEb.ne']
  norm_num

example := C64_sbpl_at_break 1 100 2 (1 / 2) 3 (by norm_num)

/-- The documented formula is a different one (reference energy 1 keV, factor 2 instead of 1/2). -/
theorem C64_sbpl_doc_refuted : smoothlyBrokenPL 0 1 0 1 1 1 ≠ sbplDoc 0 1 0 1 1 1 := by
  rw [C64_sbpl_at_break _ _ _ _ _ one_pos]
  unfold sbplDoc
  norm_num

/-- The documented blackbody, add.py:243-246. -/
noncomputable def blackbodyDoc (kT K E : ℝ) : ℝ := 8.0525 * K * E ^ 2 / (kT ^ 4 * (exp (E / kT) - 1))

/-- The documented blackbody with area normalisation, add.py:293-296. -/
noncomputable def blackbodyRadDoc (kT K E : ℝ) : ℝ := 1.0344e-3 * K * E ^ 2 / (exp (E / kT) - 1)

/-- Exact between the thresholds. -/
theorem C64_blackbody_exact (kT K E : ℝ) (hk : 0 < kT) (hlo : 1e-4 * kT < E) (hhi : E < 50 * kT) :
    blackbody kT K E = blackbodyDoc kT K E ∧ blackbodyRad kT K E = blackbodyRadDoc kT K E := by
  have h1 : ¬ E / kT ≤ 1e-4 := by rw [div_le_iff₀ hk]; linarith
  have h2 : ¬ E / kT ≥ 50 := by rw [ge_iff_le, le_div_iff₀ hk]; linarith
  have hE : 0 < E := lt_trans (by positivity) hlo
  have hexp : exp (E / kT) - 1 ≠ 0 := by
    have : 1 < exp (E / kT) := one_lt_exp_iff.2 (by positivity)
    linarith
  unfold blackbody blackbodyRad blackbodyDoc blackbodyRadDoc
  simp only [h1, h2, if_false]
  generalize exp (E / kT) - 1 = y at hexp
  constructor
  · field_simp
  · field_simp

example := C64_blackbody_exact 3 2 50 (by norm_num) (by norm_num) (by norm_num)

theorem expm1_bounds {x : ℝ} (hx : 0 < x) : x ≤ exp x - 1 ∧ exp x - 1 ≤ x * exp x := by
  constructor
  · have := add_one_le_exp x; linarith
  · have h := add_one_le_exp (-x)
    have h2 := mul_le_mul_of_nonneg_right h (exp_pos x).le
    rw [← exp_add] at h2
    simp at h2
    nlinarith

/-- Below the low threshold the code is the Rayleigh-Jeans form, which exceeds the documented one by
at most the factor `e^(1e-4)`. -/
theorem C64_blackbody_low (kT K E : ℝ) (hk : 0 < kT) (hK : 0 ≤ K) (hE : 0 < E) (hlo : E ≤ 1e-4 * kT) :
    blackbodyDoc kT K E ≤ blackbody kT K E ∧ blackbody kT K E ≤ exp 1e-4 * blackbodyDoc kT K E ∧
    blackbodyRadDoc kT K E ≤ blackbodyRad kT K E ∧ blackbodyRad kT K E ≤ exp 1e-4 * blackbodyRadDoc kT K E := by
  have h1 : E / kT ≤ 1e-4 := by rw [div_le_iff₀ hk]; linarith
  have hx : 0 < E / kT := by positivity
  obtain ⟨b1, b2⟩ := expm1_bounds hx
  have b3 : exp (E / kT) ≤ exp 1e-4 := exp_le_exp.2 h1
  have b4 : exp (E / kT) - 1 ≤ E / kT * exp 1e-4 := b2.trans (mul_le_mul_of_nonneg_left b3 hx.le)
  have hy : 0 < exp (E / kT) - 1 := lt_of_lt_of_le hx b1
  have e1 : blackbody kT K E = 8.0525 * K * E / (kT * kT * kT) := by
    unfold blackbody; simp only [h1, if_true]
  have e2 : blackbodyRad kT K E = 1.0344e-3 * K * E * kT := by
    unfold blackbodyRad; simp only [h1, if_true]
  rw [e1, e2]
  unfold blackbodyDoc blackbodyRadDoc
  set y := exp (E / kT) - 1 with hydef
  have c1 : E ≤ kT * y := by rw [div_le_iff₀ hk] at b1; linarith
  have c2 : kT * y ≤ E * exp 1e-4 := by
    have := mul_le_mul_of_nonneg_left b4 hk.le
    have e : kT * (E / kT * exp 1e-4) = E * exp 1e-4 := by field_simp
    linarith
  clear_value y
  have hA : 0 ≤ 8.0525 * K * E := by positivity
  have hB : 0 ≤ 1.0344e-3 * K * E := by positivity
  refine ⟨?_, ?_, ?_, ?_⟩
  · rw [div_le_div_iff₀ (by positivity) (by positivity)]
    have := mul_le_mul_of_nonneg_left c1 (mul_nonneg hA (by positivity : (0 : ℝ) ≤ kT * kT * kT))
    nlinarith
  · rw [← mul_div_assoc, div_le_div_iff₀ (by positivity) (by positivity)]
    have := mul_le_mul_of_nonneg_left c2 (mul_nonneg hA (by positivity : (0 : ℝ) ≤ kT * kT * kT))
    nlinarith
  · rw [div_le_iff₀ hy]
    have := mul_le_mul_of_nonneg_left c1 hB
    nlinarith
  · rw [← mul_div_assoc, le_div_iff₀ hy]
    have := mul_le_mul_of_nonneg_left c2 hB
    nlinarith

example := C64_blackbody_low 3 2 (1 / 100000) (by norm_num) (by norm_num) (by norm_num) (by norm_num)

/-- Above the high threshold the code returns zero, and the documented value is at most `10⁻¹⁹` of
the Rayleigh-Jeans form. -/
theorem C64_blackbody_high (kT K E : ℝ) (hk : 0 < kT) (hK : 0 ≤ K) (hhi : 50 * kT ≤ E) :
    blackbody kT K E = 0 ∧ 0 ≤ blackbodyDoc kT K E ∧ blackbodyDoc kT K E ≤ 1e-19 * (8.0525 * K * E / kT ^ 3) := by
  have hE : 0 < E := lt_of_lt_of_le (by positivity) hhi
  have h2 : E / kT ≥ 50 := by rw [ge_iff_le, le_div_iff₀ hk]; linarith
  have h1 : ¬ E / kT ≤ 1e-4 := by
    intro h; norm_num at h; linarith
  have hx : 0 < E / kT := by positivity
  have hy : 0 < exp (E / kT) - 1 := lt_of_lt_of_le hx (expm1_bounds hx).1
  refine ⟨?_, ?_, ?_⟩
  · unfold blackbody; simp only [h1, h2, if_true, if_false]
  · unfold blackbodyDoc; positivity
  · have he50 : (1e21 : ℝ) ≤ exp 50 := by
      have h := exp_one_gt_d9
      have : exp 50 = exp 1 ^ 50 := by rw [← exp_nat_mul]; norm_num
      rw [this]
      calc (1e21 : ℝ) ≤ 2.7 ^ 50 := by norm_num
        _ ≤ exp 1 ^ 50 := pow_le_pow_left₀ (by norm_num) (by linarith) _
    have hbig : 1e19 * (E / kT) ≤ exp (E / kT) - 1 := by
      have e1 : exp (E / kT) = exp 50 * exp (E / kT - 50) := by rw [← exp_add]; congr 1; ring
      have e2 : E / kT - 50 + 1 ≤ exp (E / kT - 50) := add_one_le_exp _
      have e3 : exp 50 * (E / kT - 50 + 1) ≤ exp (E / kT) := by rw [e1]; exact mul_le_mul_of_nonneg_left e2 (exp_pos _).le
      have e4 : (1e21 : ℝ) * (E / kT - 50 + 1) ≤ exp 50 * (E / kT - 50 + 1) :=
        mul_le_mul_of_nonneg_right he50 (by linarith)
      norm_num at e4 ⊢
      linarith
    unfold blackbodyDoc
    set y := exp (E / kT) - 1 with hydef
    have c1 : 1e19 * E ≤ kT * y := by
      have := mul_le_mul_of_nonneg_left hbig hk.le
      have e : kT * (1e19 * (E / kT)) = 1e19 * E := by field_simp
      linarith
    clear_value y
    rw [← mul_div_assoc, div_le_div_iff₀ (by positivity) (by positivity)]
    have hA : 0 ≤ 8.0525 * K * E * kT ^ 3 * 1e-19 := by positivity
    have := mul_le_mul_of_nonneg_left c1 hA
    norm_num at this ⊢
    nlinarith

example : ∃ kT K E : ℝ, 0 < kT ∧ 0 ≤ K ∧ 0 < E ∧ E ≤ 1e-4 * kT := ⟨200, 1, 0.01, by norm_num, by norm_num, by norm_num, by norm_num⟩

end Elisa.Models.Spectra
