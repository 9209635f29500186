import Verif.Models.MulProps
import Verif.Models.BandProps
import Mathlib.Analysis.SpecialFunctions.Pow.Deriv
import Mathlib.Analysis.SpecialFunctions.Pow.Asymptotics

/-!
# C114: the components without a closed integral have the documented shape

A spectrum is fixed by its value at one energy and by its logarithmic slope `d ln N / d ln E` at every energy.
-/

namespace Elisa.Models.Spectra

open Real Filter
open scoped Topology

/-- The logarithmic slope of a spectrum at an energy. -/
def LogSlope (N : ℝ → ℝ) (E s : ℝ) : Prop := HasDerivAt (fun x => log (N (exp x))) s (log E)

theorem logSlope_of_exp (N : ℝ → ℝ) (E s : ℝ) (hE : 0 < E) (g : ℝ → ℝ) (hg : ∀ e, 0 < e → log (N e) = g e) (hd : HasDerivAt g (s / E) E) :
    LogSlope N E s := by
  unfold LogSlope
  have h1 : HasDerivAt (fun x => g (exp x)) (s / E * exp (log E)) (log E) := by
    have hd' : HasDerivAt g (s / E) (exp (log E)) := by rw [exp_log hE]; exact hd
    exact hd'.comp (log E) (Real.hasDerivAt_exp (log E))
  rw [exp_log hE] at h1
  have h2 : s / E * E = s := by field_simp
  rw [h2] at h1
  exact h1.congr_of_eventuallyEq (Eventually.of_forall fun x => hg _ (exp_pos x))

/-- Two positive spectra with the same slope everywhere and the same value at one energy agree. -/
theorem logSlope_unique (N M : ℝ → ℝ) (s : ℝ → ℝ) (hN : ∀ E, 0 < E → 0 < N E) (hM : ∀ E, 0 < E → 0 < M E)
    (h1 : ∀ E, 0 < E → LogSlope N E (s E)) (h2 : ∀ E, 0 < E → LogSlope M E (s E)) (E₀ : ℝ) (hE₀ : 0 < E₀) (h : N E₀ = M E₀) :
    ∀ E, 0 < E → N E = M E := by
  have hd : ∀ x, HasDerivAt (fun x => log (N (exp x)) - log (M (exp x))) 0 x := by
    intro x
    have a := h1 (exp x) (exp_pos x)
    have b := h2 (exp x) (exp_pos x)
    unfold LogSlope at a b
    rw [log_exp] at a b
    have := a.sub b
    rwa [sub_self] at this
  have hc := is_const_of_deriv_eq_zero (fun x => (hd x).differentiableAt) fun x => (hd x).deriv
  intro E hE
  have := hc (log E) (log E₀)
  simp only [exp_log hE, exp_log hE₀, h, sub_self] at this
  exact log_injOn_pos (Set.mem_Ioi.2 (hN E hE)) (Set.mem_Ioi.2 (hM E hE)) (by linarith)

/-- **C114 (cut-off power law).**  Positive; `K exp(-1/Ec)` at 1 keV, and slope `-alpha - E/Ec`: a power law that is e-folded every `Ec`. -/
theorem C114_cutoff (alpha Ec K : ℝ) (hK : 0 < K) :
    cutoffPL alpha Ec K 1 = K * exp (-1 / Ec) ∧ ∀ E, 0 < E → 0 < cutoffPL alpha Ec K E ∧ LogSlope (cutoffPL alpha Ec K) E (-alpha - E / Ec) := by
  refine ⟨by simp [cutoffPL], fun E hE => ⟨by unfold cutoffPL; positivity, ?_⟩⟩
  refine logSlope_of_exp _ E _ hE (fun e => log K + -alpha * log e + -e / Ec) ?_ ?_
  · intro e he
    unfold cutoffPL
    rw [log_mul (by positivity) (exp_pos _).ne', log_mul hK.ne' (by positivity), log_exp, log_rpow he]
  · have h : HasDerivAt (fun e : ℝ => log K + -alpha * log e + -e / Ec) (0 + -alpha * E⁻¹ + -1 / Ec) E :=
      ((hasDerivAt_const E (log K)).add ((Real.hasDerivAt_log hE.ne').const_mul (-alpha))).add ((hasDerivAt_id E).neg.div_const Ec)
    refine h.congr_deriv ?_
    field_simp
    ring

/-- **C114 (cut-off power law, peak).**  The energy spectrum `E² N(E)` of a cut-off power law with `alpha < 2` is highest at `(2 - alpha) Ec`, and only there. -/
theorem C114_cutoff_peak (alpha Ec K : ℝ) (hK : 0 < K) (ha : alpha < 2) (hEc : 0 < Ec) (E : ℝ) (hE : 0 < E) (hne : E ≠ (2 - alpha) * Ec) :
    E ^ 2 * cutoffPL alpha Ec K E < ((2 - alpha) * Ec) ^ 2 * cutoffPL alpha Ec K ((2 - alpha) * Ec) := by
  have hp : 0 < (2 - alpha) * Ec := mul_pos (by linarith) hEc
  have hval : ∀ e, 0 < e → e ^ 2 * cutoffPL alpha Ec K e = K * exp ((2 - alpha) * log e - e / Ec) := by
    intro e he
    unfold cutoffPL
    rw [rpow_def_of_pos he, ← exp_log (pow_pos he 2), log_pow, mul_assoc, ← exp_add, mul_left_comm, ← exp_add]
    congr 2
    push_cast
    ring
  rw [hval E hE, hval _ hp]
  apply mul_lt_mul_of_pos_left _ hK
  rw [exp_lt_exp]
  have ht : E / ((2 - alpha) * Ec) ≠ 1 := fun h => hne ((div_eq_one_iff_eq hp.ne').1 h)
  have hlog := log_lt_sub_one_of_pos (div_pos hE hp) ht
  rw [log_div hE.ne' hp.ne'] at hlog
  have h2 : 0 < 2 - alpha := by linarith
  have h3 := mul_lt_mul_of_pos_left hlog h2
  have h4 : (2 - alpha) * (E / ((2 - alpha) * Ec)) = E / Ec := by field_simp
  have h5 : (2 - alpha) * Ec / Ec = 2 - alpha := by field_simp
  rw [h5]
  nlinarith

example := C114_cutoff_peak 1 10 3 (by norm_num) (by norm_num) (by norm_num) 5 (by norm_num) (by norm_num)

/-- **C114 (peak-energy form).**  `Compt` is the cut-off power law with e-folding energy `Ep / (2 - alpha)`. -/
theorem C114_compt (alpha Ep K E : ℝ) (ha : alpha ≠ 2) : compt alpha Ep K E = cutoffPL alpha (Ep / (2 - alpha)) K E := by
  unfold compt cutoffPL
  congr 2
  have : 2 - alpha ≠ 0 := sub_ne_zero.2 (Ne.symm ha)
  rw [div_div_eq_mul_div]
  ring

example := C114_compt 1 10 3 5 (by norm_num)

/-- **C114 (bremsstrahlung).**  Positive, `K` at 1 keV, slope `-1 - E/kT`. -/
theorem C114_ottb (kT K : ℝ) (hK : 0 < K) :
    ottb kT K 1 = K ∧ ∀ E, 0 < E → 0 < ottb kT K E ∧ LogSlope (ottb kT K) E (-1 - E / kT) := by
  refine ⟨by simp [ottb], fun E hE => ⟨by unfold ottb; positivity, ?_⟩⟩
  refine logSlope_of_exp _ E _ hE (fun e => log K + (1 - e) / kT - log e) ?_ ?_
  · intro e he
    unfold ottb
    rw [log_div (by positivity) he.ne', log_mul hK.ne' (exp_pos _).ne', log_exp]
  · have h : HasDerivAt (fun e : ℝ => log K + (1 - e) / kT - log e) (0 + (-1) / kT - E⁻¹) E :=
      ((hasDerivAt_const E (log K)).add (((hasDerivAt_id E).const_sub 1).div_const kT)).sub (Real.hasDerivAt_log hE.ne')
    refine h.congr_deriv ?_
    field_simp
    ring

example := C114_ottb 30 3 (by norm_num)

/-- **C114 (bent power law).**  Positive, `K` at the break; slope `-alpha (E/Eb)^alpha / (1 + (E/Eb)^alpha)`; for positive `alpha` it tends to `2K` well below the
break and to the power law `2K (E/Eb)^-alpha` well above it. -/
theorem C114_bent (alpha Eb K : ℝ) (hK : 0 < K) (hb : 0 < Eb) :
    bentPL alpha Eb K Eb = K ∧
    (∀ E, 0 < E → 0 < bentPL alpha Eb K E ∧ LogSlope (bentPL alpha Eb K) E (-alpha * ((E / Eb) ^ alpha / (1 + (E / Eb) ^ alpha)))) ∧
    (0 < alpha → Tendsto (bentPL alpha Eb K) (𝓝[>] 0) (𝓝 (2 * K)) ∧
      Tendsto (fun E => bentPL alpha Eb K E * (E / Eb) ^ alpha) atTop (𝓝 (2 * K))) := by
  refine ⟨by simp [bentPL, div_self hb.ne']; ring, fun E hE => ⟨by unfold bentPL; positivity, ?_⟩, fun ha => ⟨?_, ?_⟩⟩
  · refine logSlope_of_exp _ E _ hE (fun e => log (K * 2) - log (1 + (e / Eb) ^ alpha)) ?_ ?_
    · intro e he
      unfold bentPL
      have : 0 < (e / Eb) ^ alpha := rpow_pos_of_pos (by positivity) _
      rw [log_div (by positivity) (by positivity)]
    · have hpos : 0 < (E / Eb) ^ alpha := rpow_pos_of_pos (by positivity) _
      have h0 : HasDerivAt (fun e : ℝ => (e / Eb) ^ alpha) (1 / Eb * alpha * (E / Eb) ^ (alpha - 1)) E :=
        ((hasDerivAt_id E).div_const Eb).rpow_const (Or.inl (div_pos hE hb).ne')
      have h : HasDerivAt (fun e : ℝ => log (K * 2) - log (1 + (e / Eb) ^ alpha))
          (0 - (1 / Eb * alpha * (E / Eb) ^ (alpha - 1)) / (1 + (E / Eb) ^ alpha)) E :=
        (hasDerivAt_const E (log (K * 2))).sub ((h0.const_add 1).log (by positivity))
      refine h.congr_deriv ?_
      rw [rpow_sub_one (div_pos hE hb).ne']
      field_simp
      ring
  · have h1 : Tendsto (fun E : ℝ => (E / Eb) ^ alpha) (𝓝[>] 0) (𝓝 0) := by
      have hc : ContinuousAt (fun E : ℝ => (E / Eb) ^ alpha) 0 :=
        ((continuousAt_id.div_const Eb).rpow_const (Or.inr ha.le))
      have := hc.tendsto.mono_left (nhdsWithin_le_nhds (s := Set.Ioi 0))
      simpa [zero_rpow ha.ne'] using this
    have h2 : Tendsto (fun E : ℝ => K * 2 / (1 + (E / Eb) ^ alpha)) (𝓝[>] 0) (𝓝 (K * 2 / (1 + 0))) :=
      tendsto_const_nhds.div (tendsto_const_nhds.add h1) (by norm_num)
    rw [add_zero, div_one] at h2
    rw [mul_comm 2 K]
    exact h2
  · have h1 : Tendsto (fun E : ℝ => (E / Eb) ^ alpha) atTop atTop := (tendsto_rpow_atTop ha).comp (tendsto_id.atTop_div_const hb)
    have h2 : Tendsto (fun E : ℝ => K * 2 / (1 + ((E / Eb) ^ alpha)⁻¹)) atTop (𝓝 (K * 2 / (1 + 0))) :=
      tendsto_const_nhds.div (tendsto_const_nhds.add h1.inv_tendsto_atTop) (by norm_num)
    have h3 : (fun E : ℝ => K * 2 / (1 + ((E / Eb) ^ alpha)⁻¹)) =ᶠ[atTop] fun E => bentPL alpha Eb K E * (E / Eb) ^ alpha := by
      filter_upwards [eventually_gt_atTop 0] with E hE
      have hpos : 0 < (E / Eb) ^ alpha := rpow_pos_of_pos (by positivity) _
      unfold bentPL
      field_simp
      ring
    have := h2.congr' h3
    simpa [mul_comm] using this

example := C114_bent 2 10 3 (by norm_num) (by norm_num)

/-- **C114 (edge).**  No absorption below the threshold; from the threshold on, the optical depth is `D` at the threshold and falls or rises with the cube of energy
as documented. -/
theorem C114_edge (Ec D : ℝ) (hE : 0 < Ec) :
    (∀ E, E < Ec → edge Ec D E = 1) ∧ edge Ec D Ec = exp (-D) ∧ ∀ E, Ec ≤ E → -log (edge Ec D E) = D * (E / Ec) ^ 3 := by
  have key : ∀ E, Ec ≤ E → edge Ec D E = exp (-D * (E / Ec) ^ 3) := fun E h => by
    unfold edge
    rw [if_pos h]
    norm_num
  refine ⟨fun E h => by simp [edge, not_le.2 h], by rw [key Ec le_rfl, div_self hE.ne']; simp, fun E h => ?_⟩
  rw [key E h, log_exp]
  ring

example := C114_edge 7 (1 / 2) (by norm_num)

/-- **C114 (roll-off).**  The optical depth is `Ec / E`. -/
theorem C114_expabs (Ec E : ℝ) : -log (expAbs Ec E) = Ec / E := by
  unfold expAbs
  rw [log_exp]
  ring

/-- **C114 (exponential modification).**  No change below the start energy; from there on, the addition is `A` times a factor that is divided by `e^f` per keV. -/
theorem C114_expfac (A f Ec : ℝ) :
    (∀ E, E < Ec → expFac A f Ec E = 1) ∧
    (∀ E, Ec ≤ E → expFac A f Ec E = 1 + A * exp (-(f * E))) := by
  refine ⟨fun E h => by simp [expFac, not_le.2 h], fun E h => by simp [expFac, h]⟩

/-- **C114 (high-energy cutoff).**  From the cutoff energy on, the transmission is divided by e every `Ef`. -/
theorem C114_highecut (Ec Ef : ℝ) (hf : 0 < Ef) :
    (∀ E, Ec ≤ E → -log (highECut Ec Ef E) = (E - Ec) / Ef) ∧ ∀ E, Ec ≤ E → highECut Ec Ef (E + Ef) = highECut Ec Ef E / exp 1 := by
  refine ⟨fun E h => ?_, fun E h => ?_⟩
  · simp only [highECut, ge_iff_le, if_pos h, log_exp]
    ring
  · simp only [highECut, ge_iff_le, if_pos h, if_pos (by linarith : Ec ≤ E + Ef), ← exp_sub]
    congr 1
    field_simp
    ring

example := C114_highecut 7 (1 / 2) (by norm_num)

/-- **C64 (documented formula of the smoothly broken power law).**  The documented formula differs from the one computed by the constant factor `4^rho * Eb^alpha1`,
at every energy: the shape is the documented one, the amplitude is that at the break instead. -/
theorem C64_sbpl_doc_factor (alpha1 Eb alpha2 rho K E : ℝ) (hb : 0 < Eb) (hE : 0 < E) :
    sbplClosed alpha1 Eb alpha2 rho K E = 4 ^ rho * Eb ^ alpha1 * sbplDoc alpha1 Eb alpha2 rho K E := by
  unfold sbplClosed sbplDoc
  have hx : 0 < 1 + (E / Eb) ^ ((alpha2 - alpha1) / rho) := by
    have : 0 < (E / Eb) ^ ((alpha2 - alpha1) / rho) := rpow_pos_of_pos (by positivity) _
    linarith
  set y := 1 + (E / Eb) ^ ((alpha2 - alpha1) / rho) with hy
  have e1 : (0.5 * y) ^ (-rho) = 4 ^ rho * (2 * y) ^ (-rho) := by
    have : (0.5 : ℝ) * y = 4⁻¹ * (2 * y) := by ring
    rw [this, mul_rpow (by norm_num) (by positivity), inv_rpow (by norm_num), rpow_neg (by norm_num : (0:ℝ) ≤ 4), inv_inv]
  have e2 : (E / Eb) ^ (-alpha1) = Eb ^ alpha1 * E ^ (-alpha1) := by
    rw [div_rpow hE.le hb.le, rpow_neg hb.le, div_inv_eq_mul, mul_comm]
  rw [e1, e2]
  ring

example : LogSlope (cutoffPL 1 15 2) 3 (-1 - 3 / 15) := ((C114_cutoff 1 15 2 (by norm_num)).2 3 (by norm_num)).2

end Elisa.Models.Spectra
