import Verif.Models.QuadProps

/-!
# C40, C41, C62, C63: shifts, flux normalisation, energy flux and luminosity
-/

namespace Elisa.Models.Spectra

open Real MeasureTheory

/-! ## C40 -/

/-- Two redshifts in a row are one redshift with the factors `1 + z` multiplied, for every model and
grid; likewise for multiplicative models. -/
theorem C40_compose (z₁ z₂ z : ℝ) (hz : 1 + z = (1 + z₁) * (1 + z₂)) (model : ModelFn) (egrid : List ℝ) :
    zaShift z₁ (zaShift z₂ model) egrid = zaShift z model egrid ∧
    zmShift z₁ (zmShift z₂ model) egrid = zmShift z model egrid := by
  constructor
  · unfold zaShift
    rw [hz, List.map_map, List.map_map]
    congr 1
    · funext v
      simp only [Function.comp_apply, div_div]
      ring
    · congr 1
      refine List.map_congr_left fun e _ => ?_
      simp only [Function.comp_apply]
      ring
  · unfold zmShift
    rw [hz, List.map_map]
    congr 1
    refine List.map_congr_left fun e _ => ?_
    simp only [Function.comp_apply]
    ring

example := C40_compose 1 (1 / 2) 2 (by norm_num) (powerLaw 2 3) [1, 2, 5]

/-- Redshift zero changes nothing; velocity zero changes nothing. -/
theorem C40_identity (model : ModelFn) (egrid : List ℝ) :
    zaShift 0 model egrid = model egrid ∧ zmShift 0 model egrid = model egrid ∧ vShift 0 model egrid = model egrid := by
  simp [zaShift, zmShift, vShift]

/-- The order of two redshifts does not matter, and a redshift can be undone. -/
theorem C40_commute (z₁ z₂ : ℝ) (model : ModelFn) (egrid : List ℝ) :
    zaShift z₁ (zaShift z₂ model) egrid = zaShift z₂ (zaShift z₁ model) egrid := by
  rw [(C40_compose z₁ z₂ ((1 + z₁) * (1 + z₂) - 1) (by ring) model egrid).1,
    (C40_compose z₂ z₁ ((1 + z₁) * (1 + z₂) - 1) (by ring) model egrid).1]

theorem C40_inverse (z : ℝ) (hz : -1 < z) (model : ModelFn) (egrid : List ℝ) :
    zaShift z (zaShift (1 / (1 + z) - 1) model) egrid = model egrid := by
  have h : 1 + z ≠ 0 := by linarith
  rw [(C40_compose z (1 / (1 + z) - 1) 0 (by field_simp; ring) model egrid).1, (C40_identity model egrid).1]

example := C40_inverse 1 (by norm_num) (powerLaw 2 3) [1, 2, 5]

/-- Two velocity shifts in a row multiply their Doppler factors `1 - v/c`. -/
theorem C40_velocity_compose (v₁ v₂ v : ℝ) (hv : 1 - v / cKms = (1 - v₁ / cKms) * (1 - v₂ / cKms)) (model : ModelFn)
    (egrid : List ℝ) : vShift v₁ (vShift v₂ model) egrid = vShift v model egrid := by
  unfold vShift
  rw [hv, List.map_map]
  congr 1
  refine List.map_congr_left fun e _ => ?_
  simp only [Function.comp_apply]
  ring

example := C40_velocity_compose cKms 7 cKms (by unfold cKms; norm_num) (powerLaw 2 3) [1, 2, 5]

/-- If the bins of the model are the integrals of a continuum `N`, the bins of the redshifted model
are the integrals of `E ↦ N((1+z) E)`: the spectrum is moved to lower energies, and the number of
photons in an observed band is the one of the emitted band divided by `1 + z` (time dilation). -/
theorem C40_spectrum (z : ℝ) (hz : -1 < z) (model : ModelFn) (N : ℝ → ℝ)
    (hm : ∀ g, Positive g → model g = binIntegrals N g) (egrid : List ℝ) (hp : Positive egrid) :
    zaShift z model egrid = binIntegrals (fun E => N (E * (1 + z))) egrid := by
  have h : 0 < 1 + z := by linarith
  unfold zaShift
  rw [hm]
  · unfold binIntegrals
    rw [perBin_mapGrid, perBin_map]
    refine perBin_congr fun a _ b _ => ?_
    rw [intervalIntegral.integral_comp_mul_right N h.ne', smul_eq_mul]
    field_simp
  · intro e he
    obtain ⟨x, hx, rfl⟩ := List.mem_map.1 he
    exact mul_pos (hp x hx) h

example := C40_spectrum 1 (by norm_num) (powerLaw 2 3) (fun E => 3 * E ^ (-2 : ℝ)) (C36_exact 2 3) [1, 2, 5] (by simp [Positive])

/-- The redshifted multiplicative model averages `M((1+z) E)`. -/
theorem C40_factor (z : ℝ) (hz : -1 < z) (model : ModelFn) (M : ℝ → ℝ)
    (hm : ∀ g, Positive g → model g = binAverages M g) (egrid : List ℝ) (hp : Positive egrid) :
    zmShift z model egrid = binAverages (fun E => M (E * (1 + z))) egrid := by
  have h : 0 < 1 + z := by linarith
  unfold zmShift
  rw [hm]
  · unfold binAverages
    rw [perBin_mapGrid]
    refine perBin_congr fun a _ b _ => ?_
    rw [intervalIntegral.integral_comp_mul_right M h.ne', smul_eq_mul]
    by_cases hba : b - a = 0
    · rw [← sub_mul, hba]; simp
    · rw [← sub_mul]
      field_simp
  · intro e he
    obtain ⟨x, hx, rfl⟩ := List.mem_map.1 he
    exact mul_pos (hp x hx) h

theorem bandGrid_scale {a b c : ℝ} (hc : 0 < c) (n : ℕ) (lg : Bool) :
    bandGrid (a * c) (b * c) n lg = (bandGrid a b n lg).map fun e => e * c := by
  cases lg
  · simp only [bandGrid, Bool.false_eq_true, if_false, linspace, List.map_map]
    refine List.map_congr_left fun i _ => ?_
    simp only [Function.comp_apply]
    ring
  · simp only [bandGrid, if_true, geomspace, List.map_map]
    refine List.map_congr_left fun i _ => ?_
    simp only [Function.comp_apply]
    rw [mul_div_mul_right _ _ hc.ne']
    ring

theorem sum_map_div (xs : List ℝ) (c : ℝ) : (xs.map fun v => v / c).sum = xs.sum / c := by
  induction xs with
  | nil => simp
  | cons x xs ih => simp [ih, add_div]

theorem sum_map_mul' (xs : List ℝ) (c : ℝ) : (xs.map fun v => c * v).sum = c * xs.sum := by
  induction xs with
  | nil => simp
  | cons x xs ih => simp [ih, mul_add]

/-- A model function returns one value per bin. -/
def WellShaped (model : ModelFn) : Prop := ∀ g, (model g).length = g.length - 1

/-- The photon flux of the redshifted model in an observed band is the photon flux of the model in
the rest-frame band divided by `1 + z`, for every model, on the same number of grid points. -/
theorem C40_photon_flux (z : ℝ) (hz : -1 < z) (model : ModelFn) (hs : WellShaped model) (emin emax : ℝ)
    (h0 : 0 < emin) (h1 : emin < emax) (n : ℕ) (hn : 2 ≤ n) (lg : Bool) :
    flux (zaShift z model) emin emax false n lg
      = flux model (emin * (1 + z)) (emax * (1 + z)) false n lg / (1 + z) := by
  have hc : 0 < 1 + z := by linarith
  unfold flux
  simp only [Bool.false_eq_true, if_false]
  rw [ne_mul_diff (by simp [zaShift, hs _]) (bandGrid_step h0 h1 n hn lg),
    ne_mul_diff (hs _) (bandGrid_step (mul_pos h0 hc) (mul_lt_mul_of_pos_right h1 hc) n hn lg), bandGrid_scale hc]
  unfold zaShift
  rw [sum_map_div]

example := C40_photon_flux 1 (by norm_num) (powerLaw 2 3) (fun g => powerLaw_length 2 3 g) 1 10 one_pos (by norm_num) 5 (by norm_num) true

/-- The energy per bin: `Σ keV_to_erg sqrt(ab) v`. -/
theorem ene_mul_diff {model : ModelFn} {g : List ℝ} (hl : (model g).length = g.length - 1)
    (hc : g.IsChain (· < ·)) : List.zipWith (fun v d => v * d) (ene model g) (diff g)
      = List.zipWith (fun c v => c * v) (perBin (fun a b => keVToErg * sqrt (a * b)) g) (model g) := by
  have h := ne_mul_diff hl hc
  apply List.ext_getElem?
  intro i
  have hi := congrArg (fun l => l[i]?) h
  simp only [ene, List.getElem?_zipWith] at hi ⊢
  rw [← hi]
  cases (perBin (fun a b => keVToErg * sqrt (a * b)) g)[i]? <;> cases (ne model g)[i]? <;> cases (diff g)[i]? <;> simp [mul_assoc]

theorem zipWith_perBin_map {g : List ℝ} (f : ℝ → ℝ → ℝ) (c : ℝ) (xs : List ℝ) :
    (List.zipWith (fun c v => c * v) (perBin (fun a b => f a b * c) g) xs)
      = (List.zipWith (fun c v => c * v) (perBin f g) xs).map fun v => c * v := by
  apply List.ext_getElem?
  intro i
  simp only [List.getElem?_zipWith, List.getElem?_map, perBin_getElem?]
  rcases g[i]? <;> rcases g[i + 1]? <;> rcases xs[i]? <;> simp
  ring

theorem zipWith_map_div (xs ys : List ℝ) (c : ℝ) :
    List.zipWith (fun c v => c * v) xs (ys.map fun v => v / c) = (List.zipWith (fun c v => c * v) xs ys).map fun v => v / c := by
  apply List.ext_getElem?
  intro i
  simp only [List.getElem?_zipWith, List.getElem?_map]
  rcases xs[i]? <;> rcases ys[i]? <;> simp
  ring

/-- The energy flux of the redshifted model in an observed band is the rest-frame energy flux divided
by `(1 + z)²` (energy loss and time dilation), for every model. -/
theorem C40_energy_flux (z : ℝ) (hz : -1 < z) (model : ModelFn) (hs : WellShaped model) (emin emax : ℝ)
    (h0 : 0 < emin) (h1 : emin < emax) (n : ℕ) (hn : 2 ≤ n) (lg : Bool) :
    flux (zaShift z model) emin emax true n lg
      = flux model (emin * (1 + z)) (emax * (1 + z)) true n lg / (1 + z) ^ 2 := by
  have hc : 0 < 1 + z := by linarith
  unfold flux
  simp only [if_true]
  rw [ene_mul_diff (by simp [zaShift, hs _]) (bandGrid_step h0 h1 n hn lg),
    ene_mul_diff (hs _) (bandGrid_step (mul_pos h0 hc) (mul_lt_mul_of_pos_right h1 hc) n hn lg), bandGrid_scale hc]
  rw [perBin_mapGrid]
  have hg := bandGrid_pos h0 h1 n lg
  have e : perBin (fun a b => keVToErg * sqrt (a * (1 + z) * (b * (1 + z)))) (bandGrid emin emax n lg)
      = perBin (fun a b => keVToErg * sqrt (a * b) * (1 + z)) (bandGrid emin emax n lg) := by
    refine perBin_congr fun a ha b hb => ?_
    have h3 : a * (1 + z) * (b * (1 + z)) = (a * b) * (1 + z) ^ 2 := by ring
    rw [h3, sqrt_mul (by have := hg a ha; have := hg b hb; positivity), sqrt_sq hc.le]
    ring
  rw [e, zipWith_perBin_map, sum_map_mul']
  unfold zaShift
  rw [zipWith_map_div, sum_map_div]
  generalize (List.zipWith (fun c v => c * v) (perBin (fun a b => keVToErg * √(a * b)) (bandGrid emin emax n lg))
    (model (List.map (fun e => e * (1 + z)) (bandGrid emin emax n lg)))).sum = S
  field_simp

example : zaShift 1 (powerLaw 2 3) [1, 2] = [3 / 8] := by
  simp [zaShift, powerLaw, powerlawIntegral, diff]
  norm_num [rpow_neg_one]

example : WellShaped (powerLaw 2 3) ∧ WellShaped (trapz true fun E => E) := by
  refine ⟨fun g => powerLaw_length 2 3 g, fun g => perBin_length _ g⟩

/-! ## C41 -/

/-- Multiply the normalisation of a model. -/
def scaled (k : ℝ) (model : ModelFn) : ModelFn := fun g => (model g).map fun v => k * v

/-- The photon flux delivered on the band grid is the requested one. -/
theorem C41_photon (emin emax F : ℝ) (n : ℕ) (lg : Bool) (model : ModelFn)
    (h : (model (bandGrid emin emax n lg)).sum ≠ 0) :
    (phFlux emin emax F n lg model (bandGrid emin emax n lg)).sum = F := by
  unfold phFlux
  simp only
  rw [sum_map_mul', div_mul_cancel₀ _ h]

example := C41_photon 1 10 3 2 true (fun _ => [1]) (by simp)

/-- What `flux` reports for the normalised model in the same band, number of grid points and spacing
is the requested photon flux. -/
theorem C41_photon_reported (emin emax F : ℝ) (h0 : 0 < emin) (h1 : emin < emax) (n : ℕ) (hn : 2 ≤ n) (lg : Bool)
    (model : ModelFn) (hs : WellShaped model) (h : flux model emin emax false n lg ≠ 0) :
    flux (phFlux emin emax F n lg model) emin emax false n lg = F := by
  have hg := bandGrid_step h0 h1 n hn lg
  unfold flux at h ⊢
  simp only [Bool.false_eq_true, if_false] at h ⊢
  rw [ne_mul_diff (hs _) hg] at h
  rw [ne_mul_diff (by simp [phFlux, hs _]) hg]
  exact C41_photon _ _ _ _ _ _ h

/-- The same for the energy flux. -/
theorem C41_energy_reported (emin emax F : ℝ) (h0 : 0 < emin) (h1 : emin < emax) (n : ℕ) (hn : 2 ≤ n) (lg : Bool)
    (model : ModelFn) (hs : WellShaped model) (h : flux model emin emax true n lg ≠ 0) :
    flux (enFlux emin emax F n lg model) emin emax true n lg = F := by
  have hg := bandGrid_step h0 h1 n hn lg
  unfold flux at h ⊢
  simp only [if_true] at h ⊢
  rw [ene_mul_diff (hs _) hg] at h
  rw [ene_mul_diff (by simp [enFlux, hs _]) hg]
  unfold enFlux
  simp only
  have key : ∀ (xs ys : List ℝ) (c : ℝ), List.zipWith (fun c v => c * v) xs (ys.map fun v => c * v)
      = (List.zipWith (fun c v => c * v) xs ys).map fun v => c * v := by
    intro xs ys c
    apply List.ext_getElem?
    intro i
    simp only [List.getElem?_zipWith, List.getElem?_map]
    rcases xs[i]? <;> rcases ys[i]? <;> simp
    ring
  rw [key, sum_map_mul', div_mul_cancel₀ _ h]

/-- The normalisation of the input model is irrelevant: any non-zero factor gives the same spectrum,
on every grid. -/
theorem C41_scale_invariant (emin emax F : ℝ) (n : ℕ) (lg : Bool) (model : ModelFn) (k : ℝ) (hk : k ≠ 0)
    (egrid : List ℝ) :
    phFlux emin emax F n lg (scaled k model) egrid = phFlux emin emax F n lg model egrid ∧
    enFlux emin emax F n lg (scaled k model) egrid = enFlux emin emax F n lg model egrid := by
  have key : ∀ (xs ys : List ℝ) (c : ℝ), List.zipWith (fun c v => c * v) xs (ys.map fun v => c * v)
      = (List.zipWith (fun c v => c * v) xs ys).map fun v => c * v := by
    intro xs ys c
    apply List.ext_getElem?
    intro i
    simp only [List.getElem?_zipWith, List.getElem?_map]
    rcases xs[i]? <;> rcases ys[i]? <;> simp
    ring
  constructor
  · unfold phFlux scaled
    simp only [sum_map_mul', List.map_map]
    refine List.map_congr_left fun v _ => ?_
    simp only [Function.comp_apply]
    by_cases hm : (model (bandGrid emin emax n lg)).sum = 0
    · simp [hm]
    · field_simp
  · unfold enFlux scaled
    simp only [key, sum_map_mul', List.map_map]
    refine List.map_congr_left fun v _ => ?_
    simp only [Function.comp_apply]
    generalize (List.zipWith (fun c v => c * v)
      (perBin (fun a b => keVToErg * sqrt (a * b)) (bandGrid emin emax n lg)) (model (bandGrid emin emax n lg))).sum = S
    by_cases hm : S = 0
    · simp [hm]
    · field_simp

example := C41_scale_invariant 1 10 3 5 true (powerLaw 2 3) 7 (by norm_num) [1, 2, 5]

/-- The result is the input model times one number: the shape of the spectrum is kept. -/
theorem C41_shape (emin emax F : ℝ) (n : ℕ) (lg : Bool) (model : ModelFn) :
    ∃ k, ∀ egrid, phFlux emin emax F n lg model egrid = (model egrid).map fun v => k * v :=
  ⟨_, fun _ => rfl⟩

example : flux (phFlux 1 10 7 50 true (powerLaw 2 3)) 1 10 false 50 true = 7 := by
  refine C41_photon_reported 1 10 7 one_pos (by norm_num) 50 (by norm_num) true _ (powerLaw_length 2 3) ?_
  rw [C35_flux _ _ _ _ one_pos (by norm_num) _ (by norm_num), intervalIntegral.integral_const_mul]
  exact (mul_pos (by norm_num) (rpow_integral_pos one_pos (by norm_num) _)).ne'

/-! ## C62 -/

/-- The exact energy flux of the continuum `N` in a band, in erg. -/
noncomputable def energyFlux (N : ℝ → ℝ) (emin emax : ℝ) : ℝ := ∫ E in emin..emax, keVToErg * (E * N E)

theorem bin_energy {N : ℝ → ℝ} {a b r : ℝ} (ha : 0 < a) (hab : a < b) (hr : b ≤ a * r ^ 2) (hr0 : 0 < r)
    (hN : ∀ E, 0 < E → 0 ≤ N E) (hi : IntervalIntegrable N volume a b)
    (hi' : IntervalIntegrable (fun E => E * N E) volume a b) :
    sqrt (a * b) * (∫ E in a..b, N E) ≤ r * (∫ E in a..b, E * N E) ∧
    (∫ E in a..b, E * N E) ≤ r * (sqrt (a * b) * ∫ E in a..b, N E) := by
  have hb : 0 < b := ha.trans hab
  have hs1 : sqrt (a * b) ≤ r * a := by
    rw [sqrt_le_left (by positivity)]
    have := mul_le_mul_of_nonneg_left hr ha.le
    nlinarith
  have hs2 : b ≤ r * sqrt (a * b) := by
    have : b / r ≤ sqrt (a * b) := by
      apply le_sqrt_of_sq_le
      rw [div_pow, div_le_iff₀ (by positivity)]
      have := mul_le_mul_of_nonneg_left hr hb.le
      nlinarith
    rw [div_le_iff₀ hr0] at this
    linarith
  constructor
  · rw [← intervalIntegral.integral_const_mul, ← intervalIntegral.integral_const_mul]
    refine intervalIntegral.integral_mono_on hab.le (hi.const_mul _) (hi'.const_mul _) fun E hE => ?_
    have hE0 : 0 < E := ha.trans_le hE.1
    have hn := hN E hE0
    have : sqrt (a * b) ≤ r * E := hs1.trans (mul_le_mul_of_nonneg_left hE.1 hr0.le)
    calc sqrt (a * b) * N E ≤ (r * E) * N E := mul_le_mul_of_nonneg_right this hn
      _ = r * (E * N E) := by ring
  · rw [← mul_assoc, ← intervalIntegral.integral_const_mul]
    refine intervalIntegral.integral_mono_on hab.le hi' (hi.const_mul _) fun E hE => ?_
    have hE0 : 0 < E := ha.trans_le hE.1
    exact mul_le_mul_of_nonneg_right (hE.2.trans hs2) (hN E hE0)

theorem sum_le_of_perBin {f h : ℝ → ℝ → ℝ} {g : List ℝ} (R : ℝ → ℝ → Prop) (hg : g.IsChain R)
    (H : ∀ a ∈ g, ∀ b ∈ g, R a b → f a b ≤ h a b) : (perBin f g).sum ≤ (perBin h g).sum := by
  induction g with
  | nil => simp [perBin]
  | cons a g ih =>
    cases g with
    | nil => simp [perBin]
    | cons b g =>
      rw [List.isChain_cons_cons] at hg
      rw [perBin_cons, perBin_cons, List.sum_cons, List.sum_cons]
      exact add_le_add (H a (by simp) b (by simp) hg.1)
        (ih hg.2 fun x hx y hy => H x (by simp [hx]) y (by simp [hy]))

/-- Consecutive edges of the logarithmic grid have the ratio `(emax/emin)^(1/(n-1))`. -/
theorem geomspace_ratio {a b : ℝ} (ha : 0 < a) (hab : a < b) (n : ℕ) (hn : 2 ≤ n) :
    (geomspace a b n).IsChain fun x y => x < y ∧ y ≤ x * ((b / a) ^ (1 / (2 * ((n : ℝ) - 1)))) ^ 2 := by
  have hn1 : (0 : ℝ) < n - 1 := by
    have : (2 : ℝ) ≤ n := by exact_mod_cast hn
    linarith
  have hba : 0 < b / a := by have := ha.trans hab; positivity
  have hr : ((b / a) ^ (1 / (2 * ((n : ℝ) - 1)))) ^ 2 = (b / a) ^ (1 / ((n : ℝ) - 1)) := by
    rw [← rpow_natCast, ← rpow_mul hba.le]
    congr 1
    push_cast
    field_simp
  unfold geomspace
  rw [List.isChain_map]
  refine (List.isChain_range _ _).2 fun i _ => ⟨?_, ?_⟩
  · have h1 : 1 < b / a := (one_lt_div ha).2 hab
    have : (i : ℝ) / (n - 1) < ((i + 1 : ℕ) : ℝ) / (n - 1) := by
      apply div_lt_div_of_pos_right _ hn1
      push_cast; linarith
    exact mul_lt_mul_of_pos_left (rpow_lt_rpow_of_exponent_lt h1 this) ha
  · rw [hr, mul_assoc, ← rpow_add hba]
    apply le_of_eq
    congr 2
    push_cast
    field_simp

/-- The energy flux reported on the (default) logarithmic grid of `n` points differs from the exact
energy flux at most by the factor `(emax/emin)^(1/(2(n-1)))`, in both directions, for every
non-negative continuum with exact bins. -/
theorem C62_energy_flux_bound (model : ModelFn) (N : ℝ → ℝ) (hN : ∀ E, 0 < E → 0 ≤ N E)
    (hm : ∀ g, Positive g → model g = binIntegrals N g) (emin emax : ℝ) (h0 : 0 < emin) (h1 : emin < emax)
    (hi : ∀ a b, 0 < a → 0 < b → IntervalIntegrable N volume a b) (n : ℕ) (hn : 2 ≤ n) :
    flux model emin emax true n true ≤ (emax / emin) ^ (1 / (2 * ((n : ℝ) - 1))) * energyFlux N emin emax ∧
    energyFlux N emin emax ≤ (emax / emin) ^ (1 / (2 * ((n : ℝ) - 1))) * flux model emin emax true n true := by
  have hk : (0 : ℝ) < keVToErg := by unfold keVToErg; norm_num
  have hi' : ∀ a b, 0 < a → 0 < b → IntervalIntegrable (fun E => E * N E) volume a b := fun a b ha hb =>
    (hi a b ha hb).continuousOn_mul continuousOn_id
  set r := (emax / emin) ^ (1 / (2 * ((n : ℝ) - 1))) with hr
  have hr0 : 0 < r := by rw [hr]; have := h0.trans h1; positivity
  have hp := bandGrid_pos h0 h1 n true
  have hflux : flux model emin emax true n true
      = (perBin (fun a b => keVToErg * (sqrt (a * b) * ∫ E in a..b, N E)) (bandGrid emin emax n true)).sum := by
    unfold flux
    simp only [if_true]
    rw [ene_mul_diff (by rw [hm _ hp, binIntegrals, perBin_length]) (bandGrid_step h0 h1 n hn true), hm _ hp]
    unfold binIntegrals
    rw [zipWith_perBin]
    congr 1
    refine perBin_congr fun a _ b _ => ?_
    ring
  have hexact : energyFlux N emin emax
      = (perBin (fun a b => keVToErg * ∫ E in a..b, E * N E) (bandGrid emin emax n true)).sum := by
    obtain ⟨e1, e2⟩ := bandGrid_ends (b := emax) h0 n hn true
    have := sum_binIntegrals (N := fun E => keVToErg * (E * N E)) (egrid := bandGrid emin emax n true)
      (fun a ha b hb => (hi' a b (hp a ha) (hp b hb)).const_mul _) _ _ e1 e2
    unfold energyFlux
    rw [← this]
    unfold binIntegrals
    congr 1
    refine perBin_congr fun a _ b _ => ?_
    rw [intervalIntegral.integral_const_mul]
  have hchain : (bandGrid emin emax n true).IsChain fun x y => x < y ∧ y ≤ x * r ^ 2 := by
    exact geomspace_ratio h0 h1 n hn
  have hmul : ∀ f : ℝ → ℝ → ℝ, r * (perBin f (bandGrid emin emax n true)).sum
      = (perBin (fun a b => r * f a b) (bandGrid emin emax n true)).sum := by
    intro f
    rw [← sum_map_mul', perBin_map]
  rw [hflux, hexact, hmul, hmul]
  constructor
  · refine sum_le_of_perBin _ hchain fun a ha b hb hab => ?_
    have := (bin_energy (hp a ha) hab.1 hab.2 hr0 hN (hi a b (hp a ha) (hp b hb)) (hi' a b (hp a ha) (hp b hb))).1
    have := mul_le_mul_of_nonneg_left this hk.le
    linarith
  · refine sum_le_of_perBin _ hchain fun a ha b hb hab => ?_
    have := (bin_energy (hp a ha) hab.1 hab.2 hr0 hN (hi a b (hp a ha) (hp b hb)) (hi' a b (hp a ha) (hp b hb))).2
    have := mul_le_mul_of_nonneg_left this hk.le
    linarith

example := C62_energy_flux_bound (powerLaw 2 3) (fun E => 3 * E ^ (-2 : ℝ)) (fun E hE => by positivity) (C36_exact 2 3) 1 10 one_pos (by norm_num)
  (fun a b ha hb => rpow_intervalIntegrable ha hb _ _) 100 (by norm_num)

/-- In particular for power laws of any index. -/
theorem C62_powerlaw (alpha K : ℝ) (hK : 0 ≤ K) (emin emax : ℝ) (h0 : 0 < emin) (h1 : emin < emax) (n : ℕ) (hn : 2 ≤ n) :
    flux (powerLaw alpha K) emin emax true n true
      ≤ (emax / emin) ^ (1 / (2 * ((n : ℝ) - 1))) * energyFlux (fun E => K * E ^ (-alpha)) emin emax ∧
    energyFlux (fun E => K * E ^ (-alpha)) emin emax
      ≤ (emax / emin) ^ (1 / (2 * ((n : ℝ) - 1))) * flux (powerLaw alpha K) emin emax true n true :=
  C62_energy_flux_bound _ _ (fun E hE => mul_nonneg hK (rpow_nonneg hE.le _)) (fun g hg => C36_exact alpha K g hg) _ _ h0 h1
    (fun a b ha hb => rpow_intervalIntegrable ha hb _ _) n hn

example := C62_powerlaw 2 3 (by norm_num) 1 10 one_pos (by norm_num) 200 (by norm_num)

/-! ## C63 -/

/-- The luminosity of a spectrum emitted at redshift `z` is `4π d²` times its rest-frame energy flux
in the rest-frame band, with the comoving distance `d = d_L / (1 + z)`: redshift corrections cancel. -/
theorem C63_luminosity (dl : ℝ → ℝ) (z : ℝ) (hz : -1 < z) (model : ModelFn) (hs : WellShaped model) (emin emax : ℝ)
    (h0 : 0 < emin) (h1 : emin < emax) (n : ℕ) (hn : 2 ≤ n) (lg : Bool) :
    lumin dl (zaShift z model) emin emax z n lg = 4 * π * (dl z / (1 + z)) ^ 2 * flux model emin emax true n lg := by
  have hc : 0 < 1 + z := by linarith
  unfold lumin
  rw [C40_energy_flux z hz model hs _ _ (by positivity) (div_lt_div_of_pos_right h1 hc) n hn lg,
    div_mul_cancel₀ _ hc.ne', div_mul_cancel₀ _ hc.ne']
  field_simp

/-- Isotropic energy: luminosity times rest-frame duration `T / (1 + z)`; scaling of the duration and
of the normalisation carries over. -/
theorem C63_eiso (dl : ℝ → ℝ) (z : ℝ) (hz : -1 < z) (model : ModelFn) (hs : WellShaped model) (emin emax T : ℝ)
    (h0 : 0 < emin) (h1 : emin < emax) (n : ℕ) (hn : 2 ≤ n) (lg : Bool) :
    eiso dl (zaShift z model) emin emax z T n lg
      = 4 * π * (dl z / (1 + z)) ^ 2 * flux model emin emax true n lg * (T / (1 + z)) := by
  unfold eiso
  rw [C63_luminosity dl z hz model hs emin emax h0 h1 n hn lg]

example (dl : ℝ → ℝ) : lumin dl (zaShift 2 (powerLaw 2 3)) 1 10000 2 1000 true
    = 4 * π * (dl 2 / (1 + 2)) ^ 2 * flux (powerLaw 2 3) 1 10000 true 1000 true :=
  C63_luminosity dl 2 (by norm_num) _ (powerLaw_length 2 3) 1 10000 one_pos (by norm_num) 1000 (by norm_num) true

end Elisa.Models.Spectra
