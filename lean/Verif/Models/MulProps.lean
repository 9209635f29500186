import Verif.Models.Mul
import Verif.Models.QuadProps
import Mathlib.Analysis.SpecialFunctions.Gaussian.GaussianIntegral
import Mathlib.MeasureTheory.Group.Integral

/-!
# C66: multiplicative components
-/

namespace Elisa.Models.Spectra

open Real MeasureTheory

/-! ## Specification -/

/-- A transmission: takes photons away, never all of them. -/
def Transmission (M : ℝ → ℝ) : Prop := ∀ E, 0 < E → 0 < M E ∧ M E ≤ 1

/-! ## C66 -/

theorem exp_transmission {x : ℝ} (h : x ≤ 0) : 0 < exp x ∧ exp x ≤ 1 := ⟨exp_pos x, exp_le_one_iff.2 h⟩

/-- All absorption components are transmissions for the declared parameter signs: edge, exponential
roll-off, absorption line, high-energy cutoff, and photoelectric absorption with any cross section
table. -/
theorem C66_transmissions :
    (∀ Ec D, 0 < Ec → 0 ≤ D → Transmission (edge Ec D)) ∧
    (∀ Ec, 0 ≤ Ec → Transmission (expAbs Ec)) ∧
    (∀ El sigma tau, 0 < sigma → 0 ≤ tau → Transmission (gAbs El sigma tau)) ∧
    (∀ Ec Ef, 0 < Ef → Transmission (highECut Ec Ef)) ∧
    (∀ table nH, 0 ≤ nH → Transmission (photonAbs table nH)) := by
  refine ⟨?_, ?_, ?_, ?_, ?_⟩
  · intro Ec D hE hD E hE0
    unfold edge
    split_ifs
    · apply exp_transmission
      have : 0 ≤ (E / Ec) ^ (3 : ℝ) := rpow_nonneg (by positivity) _
      nlinarith
    · simp
  · intro Ec hE E hE0
    apply exp_transmission
    exact div_nonpos_of_nonpos_of_nonneg (by linarith) hE0.le
  · intro El sigma tau hs ht E hE0
    apply exp_transmission
    apply mul_nonpos_of_nonpos_of_nonneg
    · exact div_nonpos_of_nonpos_of_nonneg (by linarith) (by positivity)
    · exact (exp_pos _).le
  · intro Ec Ef hf E hE0
    unfold highECut
    split_ifs with h
    · apply exp_transmission
      exact div_nonpos_of_nonpos_of_nonneg (by linarith) hf.le
    · simp
  · intro table nH h E hE0
    apply exp_transmission
    have : 0 < crossSection table E := exp_pos _
    nlinarith

/-- Every bin of an absorbed model is at most the bin of the unabsorbed one, and not negative: with both
integration rules, on every increasing grid of positive energies. -/
theorem C66_absorption_removes_photons (M : ℝ → ℝ) (hM : Transmission M) (egrid : List ℝ) (hp : Positive egrid)
    (hg : Increasing egrid) (model : List ℝ) (hpos : ∀ v ∈ model, 0 ≤ v) (i : ℕ) (m v : ℝ)
    (hm : (trapz false M egrid)[i]? = some m ∨ (simpson false M egrid)[i]? = some m) (hv : model[i]? = some v) :
    0 ≤ m * v ∧ m * v ≤ v := by
  have hb := C42_bounded M 0 1 (fun E hE => ⟨(hM E hE).1.le, (hM E hE).2⟩) egrid hp hg
  have hm' : 0 ≤ m ∧ m ≤ 1 := by
    rcases hm with h | h
    · exact hb.1 m (List.mem_of_getElem? h)
    · exact hb.2 m (List.mem_of_getElem? h)
  have hv' := hpos v (List.mem_of_getElem? hv)
  exact ⟨mul_nonneg hm'.1 hv', mul_le_of_le_one_left hv' hm'.2⟩

example := C66_absorption_removes_photons (fun _ => 1 / 2) (fun E hE => by norm_num) [1, 2, 5] (by simp [Positive]) (by norm_num [Increasing]) [3, 4] (by simp) 1 (1 / 2) 4
  (Or.inl (by norm_num [trapz, perBin])) rfl

/-- The exponential modification adds at most the amplitude. -/
theorem C66_expfac (A f Ec : ℝ) (hA : 0 ≤ A) (hf : 0 ≤ f) (E : ℝ) (hE : 0 < E) :
    1 ≤ expFac A f Ec E ∧ expFac A f Ec E ≤ 1 + A := by
  unfold expFac
  have h1 : exp (-f * E) ≤ 1 := exp_le_one_iff.2 (by nlinarith)
  have h2 := exp_pos (-f * E)
  split_ifs
  · constructor <;> nlinarith
  · constructor <;> linarith

example := C66_expfac 2 (1 / 2) 3 (by norm_num) (by norm_num) 5 (by norm_num)

/-- Columns add: absorbing with two columns of the same gas is absorbing with their sum, and no column
is no absorption. -/
theorem C66_columns_add (table : List (ℝ × ℝ)) (n₁ n₂ E : ℝ) :
    photonAbs table n₁ E * photonAbs table n₂ E = photonAbs table (n₁ + n₂) E ∧ photonAbs table 0 E = 1 := by
  unfold photonAbs
  constructor
  · rw [← exp_add]
    congr 1
    ring
  · simp

/-- The high-energy cutoff and, for zero depth, the edge leave lower energies untouched and start
without a jump. -/
theorem C66_highecut_starts_at_one (Ec Ef : ℝ) : highECut Ec Ef Ec = 1 ∧ ∀ E, E < Ec → highECut Ec Ef E = 1 := by
  constructor
  · simp [highECut]
  · intro E hE
    simp [highECut, not_le.2 hE]

/-- The Gaussian absorption line: its optical depth is a Gaussian centred on the line, symmetric, deepest
at the line, and integrates to the line depth `tau`. -/
theorem C66_gaussian_line (El sigma tau : ℝ) (hs : 0 < sigma) :
    (∀ E, -log (gAbs El sigma tau E) = tau * (exp (-((E - El) ^ 2) / (2 * sigma ^ 2)) / (sigma * sqrt (2 * π)))) ∧
    (∫ E, -log (gAbs El sigma tau E)) = tau ∧
    (∀ d, gAbs El sigma tau (El + d) = gAbs El sigma tau (El - d)) ∧
    (0 ≤ tau → ∀ E, gAbs El sigma tau El ≤ gAbs El sigma tau E) := by
  have h2 : 0 < sqrt (2 * π) := sqrt_pos.2 (by positivity)
  have key : ∀ E, -log (gAbs El sigma tau E) = tau * (exp (-((E - El) ^ 2) / (2 * sigma ^ 2)) / (sigma * sqrt (2 * π))) := by
    intro E
    unfold gAbs
    rw [log_exp, rpow_two]
    have : (-0.5 : ℝ) * ((E - El) / sigma) ^ 2 = -((E - El) ^ 2) / (2 * sigma ^ 2) := by
      field_simp; norm_num; ring
    rw [this]
    field_simp
  refine ⟨key, ?_, ?_, ?_⟩
  · simp_rw [key]
    rw [integral_const_mul, integral_div]
    have hg := integral_gaussian (1 / (2 * sigma ^ 2))
    have ht := integral_sub_right_eq_self (fun x : ℝ => exp (-(1 / (2 * sigma ^ 2)) * x ^ 2)) (μ := volume) El
    have e1 : ∀ E : ℝ, exp (-((E - El) ^ 2) / (2 * sigma ^ 2)) = exp (-(1 / (2 * sigma ^ 2)) * (E - El) ^ 2) := by
      intro E; congr 1; field_simp
    simp_rw [e1]
    rw [ht, hg]
    have : sqrt (π / (1 / (2 * sigma ^ 2))) = sigma * sqrt (2 * π) := by
      rw [show π / (1 / (2 * sigma ^ 2)) = sigma ^ 2 * (2 * π) by field_simp, sqrt_mul (by positivity), sqrt_sq hs.le]
    rw [this, div_self (by positivity), mul_one]
  · intro d
    unfold gAbs
    simp only [rpow_two]
    congr 3
    ring
  · intro ht E
    unfold gAbs
    rw [exp_le_exp]
    simp only [rpow_two, sub_self, zero_div]
    have h3 : exp (-0.5 * ((E - El) / sigma) ^ 2) ≤ 1 := exp_le_one_iff.2 (by
      have := sq_nonneg ((E - El) / sigma); linarith)
    have h4 : -tau / (sqrt (2 * π) * sigma) ≤ 0 := div_nonpos_of_nonpos_of_nonneg (by linarith) (by positivity)
    have h5 : exp ((-0.5 : ℝ) * 0 ^ 2) = 1 := by norm_num
    rw [h5]
    nlinarith

example := C66_gaussian_line 6 (1 / 10) 2 (by norm_num)

/-- The constant factor. -/
theorem C66_constant (f : ℝ) (egrid : List ℝ) (hg : Increasing egrid) :
    constant f egrid = binAverages (fun _ => f) egrid := by
  unfold constant binAverages
  rw [← (C42_constant f egrid).1]
  refine perBin_congr_chain hg fun a _ b _ hab => ?_
  have : b - a ≠ 0 := (sub_pos.2 hab).ne'
  simp
  field_simp
  ring

example := C66_constant 2 [1, 2, 5] (by norm_num [Increasing])

/-- Power law absorption gives exact bin averages for every index except 1. (Missing: index 1.) -/
theorem C66_plabs_partial (alpha K : ℝ) (ha : alpha ≠ 1) (egrid : List ℝ) (hp : Positive egrid) :
    plAbs alpha K egrid = (binAverages (fun E => K * E ^ (-alpha)) egrid).map some := by
  have h1 : (1 - alpha) ≠ 0 := fun h => ha (by linarith)
  unfold plAbs binAverages
  simp only [h1, if_false]
  congr 1
  rw [diff_map, diff_eq_perBin, zipWith_perBin]
  refine perBin_congr fun a hA b hB => ?_
  rw [intervalIntegral.integral_const_mul, rpow_integral (hp a hA) (hp b hB) (fun h => ha (by linarith)),
    show -alpha + 1 = 1 - alpha by ring]
  congr 1
  ring

example := C66_plabs_partial 2 3 (by norm_num) [1, 2, 5] (by simp [Positive])

/-- For index 1, inside the declared range `[0, 5]`, every bin is NaN although the documented average is
a positive number. -/
theorem C66_plabs_index_one_refuted (K a b : ℝ) (hK : 0 < K) (ha : 0 < a) (hab : a < b) :
    plAbs 1 K [a, b] = [none] ∧ ∃ v > 0, binAverages (fun E => K * E ^ (-(1 : ℝ))) [a, b] = [v] := by
  refine ⟨by simp [plAbs], _, ?_, rfl⟩
  apply div_pos _ (sub_pos.2 hab)
  rw [intervalIntegral.integral_const_mul]
  exact mul_pos hK (rpow_integral_pos ha hab _)

example := C66_plabs_index_one_refuted 3 1 2 (by norm_num) (by norm_num) (by norm_num)

/-! ### The cross section table -/

theorem sorted_countP {xp : List ℝ} (hs : Increasing xp) (i : ℕ) (hi : i < xp.length) (x : ℝ)
    (h1 : xp[i] ≤ x) (h2 : ∀ h : i + 1 < xp.length, x < xp[i + 1]) : xp.countP (fun v => decide (v ≤ x)) = i + 1 := by
  have hpair : xp.Pairwise (· < ·) := List.isChain_iff_pairwise.1 hs
  have hsplit : xp = xp.take (i + 1) ++ xp.drop (i + 1) := (List.take_append_drop _ _).symm
  rw [hsplit, List.countP_append]
  have e1 : (xp.take (i + 1)).countP (fun v => decide (v ≤ x)) = i + 1 := by
    rw [List.countP_eq_length.2]
    · simp; omega
    · intro v hv
      obtain ⟨j, hj, rfl⟩ := List.mem_iff_getElem.1 hv
      simp only [List.length_take] at hj
      rw [List.getElem_take]
      rcases Nat.lt_or_ge j i with h | h
      · have := List.pairwise_iff_getElem.1 hpair j i (by omega) hi h
        simp only [decide_eq_true_eq]; linarith
      · have : j = i := by omega
        subst this
        simpa using h1
  have e2 : (xp.drop (i + 1)).countP (fun v => decide (v ≤ x)) = 0 := by
    rw [List.countP_eq_zero]
    intro v hv
    obtain ⟨j, hj, rfl⟩ := List.mem_iff_getElem.1 hv
    simp only [List.length_drop] at hj
    rw [List.getElem_drop]
    have h3 := h2 (by omega)
    simp only [decide_eq_true_eq, not_le]
    rcases Nat.eq_zero_or_pos j with h | h
    · subst h; simpa using h3
    · have := List.pairwise_iff_getElem.1 hpair (i + 1) (i + 1 + j) (by omega) (by omega) (by omega)
      linarith
  rw [e1, e2]

theorem interp_between {xp fp : List ℝ} (hs : Increasing xp) (hl : fp.length = xp.length) (i : ℕ) (hi : i + 1 < xp.length)
    (x : ℝ) (h1 : xp[i] ≤ x) (h2 : x ≤ xp[i + 1]) :
    interp x xp fp = fp[i]'(by omega) + (x - xp[i]) / (xp[i + 1] - xp[i]) * (fp[i + 1]'(by omega) - fp[i]'(by omega)) := by
  have hpair : xp.Pairwise (· < ·) := List.isChain_iff_pairwise.1 hs
  have hlt : xp[i] < xp[i + 1] := List.pairwise_iff_getElem.1 hpair i (i + 1) (by omega) hi (by omega)
  have hd : xp[i + 1] - xp[i] ≠ 0 := (sub_pos.2 hlt).ne'
  have gx : ∀ j (hj : j < xp.length), xp.getD j 0 = xp[j] := fun j hj => by
    simp [List.getD_eq_getElem?_getD, List.getElem?_eq_getElem hj]
  have gf : ∀ j (hj : j < fp.length), fp.getD j 0 = fp[j] := fun j hj => by
    simp [List.getD_eq_getElem?_getD, List.getElem?_eq_getElem hj]
  rcases lt_or_eq_of_le h2 with h2' | h2'
  · have hc := sorted_countP hs i (by omega) x h1 (fun _ => h2')
    have hidx : interpIndex x xp = i + 1 := by
      unfold interpIndex; rw [hc]; omega
    unfold interp
    simp only [hidx, Nat.add_sub_cancel]
    rw [gx (i + 1) hi, gx i (by omega), gf (i + 1) (by omega), gf i (by omega), if_neg hd]
  · -- at the right node: the index may be the next one
    have key : interp x xp fp = fp[i + 1]'(by omega) := by
      by_cases hlast : i + 2 < xp.length
      · have hlt2 : xp[i + 1] < xp[i + 2] := List.pairwise_iff_getElem.1 hpair (i + 1) (i + 2) hi hlast (by omega)
        have hc := sorted_countP hs (i + 1) hi x h2'.ge (fun _ => by rw [h2']; exact hlt2)
        have hidx : interpIndex x xp = i + 2 := by
          unfold interpIndex; rw [hc]; omega
        unfold interp
        simp only [hidx, show i + 2 - 1 = i + 1 by omega]
        rw [gx (i + 2) hlast, gx (i + 1) hi, gf (i + 2) (by omega), gf (i + 1) (by omega), if_neg (sub_pos.2 hlt2).ne']
        have h0 : x - xp[i + 1] = 0 := by rw [h2', sub_self]
        simp only [h0, zero_div, zero_mul, add_zero]
      · have hc := sorted_countP hs (i + 1) hi x h2'.ge (fun h => absurd h hlast)
        have hidx : interpIndex x xp = i + 1 := by
          unfold interpIndex; rw [hc]; omega
        unfold interp
        simp only [hidx, Nat.add_sub_cancel]
        rw [gx (i + 1) hi, gx i (by omega), gf (i + 1) (by omega), gf i (by omega), if_neg hd]
        have h0 : x - xp[i] = xp[i + 1] - xp[i] := by rw [h2']
        simp only [h0, div_self hd]
        ring
    rw [key]
    have h0 : x - xp[i] = xp[i + 1] - xp[i] := by rw [h2']
    simp only [h0, div_self hd]
    ring

/-- Well-formed cross section table: increasing positive energies, positive cross sections. -/
structure TableOk (table : List (ℝ × ℝ)) : Prop where
  pos : ∀ t ∈ table, 0 < t.1 ∧ 0 < t.2
  incr : (table.map Prod.fst).IsChain (· < ·)

theorem table_log_increasing {table : List (ℝ × ℝ)} (h : TableOk table) : Increasing (table.map fun t => log t.1) := by
  have h1 : table.Pairwise (fun s t => s.1 < t.1) := List.pairwise_map.1 (List.isChain_iff_pairwise.1 h.incr)
  apply List.isChain_iff_pairwise.2
  rw [List.pairwise_map]
  exact h1.imp_of_mem fun {a b} ha _ hab => log_lt_log (h.pos a ha).1 hab

/-- The interpolated cross section agrees with the table at the tabulated energies. -/
theorem C66_cross_section_at_nodes (table : List (ℝ × ℝ)) (h : TableOk table) (h2 : 2 ≤ table.length) (t : ℝ × ℝ)
    (ht : t ∈ table) : crossSection table t.1 = t.2 := by
  obtain ⟨i, hi, rfl⟩ := List.mem_iff_getElem.1 ht
  have hs := table_log_increasing h
  unfold crossSection
  have key : interp (log table[i].1) (table.map fun t => log t.1) (table.map fun t => log t.2) = log table[i].2 := by
    by_cases hlast : i + 1 < table.length
    · have hlt : log table[i].1 < log table[i + 1].1 := by
        have := List.pairwise_iff_getElem.1 (List.isChain_iff_pairwise.1 hs) i (i + 1) (by simpa using hi) (by simpa using hlast) (by omega)
        simpa using this
      rw [interp_between hs (by simp) i (by simpa using hlast) _ (by simp) (by simpa using hlt.le)]
      simp
    · obtain ⟨j, rfl⟩ : ∃ j, i = j + 1 := ⟨i - 1, by omega⟩
      have hlt : log table[j].1 < log table[j + 1].1 := by
        have := List.pairwise_iff_getElem.1 (List.isChain_iff_pairwise.1 hs) j (j + 1) (by simp; omega) (by simpa using hi) (by omega)
        simpa using this
      rw [interp_between hs (by simp) j (by simpa using hi) _ (by simpa using hlt.le) (by simp)]
      have hne : log table[j + 1].1 - log table[j].1 ≠ 0 := (sub_pos.2 hlt).ne'
      simp only [List.getElem_map, div_self hne]
      ring
  rw [key, exp_log (h.pos _ ht).2]

example := C66_cross_section_at_nodes [(1, 5), (2, 3), (4, 1)] ⟨by simp, by simp; norm_num⟩ (by simp) (2, 3) (by simp)

/-- Between two tabulated energies the cross section lies between the tabulated values. -/
theorem C66_cross_section_between (table : List (ℝ × ℝ)) (h : TableOk table) (i : ℕ) (hi : i + 1 < table.length) (e : ℝ)
    (h1 : table[i].1 ≤ e) (h2 : e ≤ table[i + 1].1) :
    min table[i].2 table[i + 1].2 ≤ crossSection table e ∧ crossSection table e ≤ max table[i].2 table[i + 1].2 := by
  have hs := table_log_increasing h
  have p1 := h.pos _ (List.getElem_mem (show i < table.length by omega))
  have p2 := h.pos _ (List.getElem_mem hi)
  have he : 0 < e := p1.1.trans_le h1
  have l1 : log table[i].1 ≤ log e := log_le_log p1.1 h1
  have l2 : log e ≤ log table[i + 1].1 := log_le_log he h2
  have hlt : log table[i].1 < log table[i + 1].1 := by
    have := List.pairwise_iff_getElem.1 (List.isChain_iff_pairwise.1 hs) i (i + 1) (by simp; omega) (by simpa using hi) (by omega)
    simpa using this
  unfold crossSection
  rw [interp_between hs (by simp) i (by simpa using hi) _ (by simpa using l1) (by simpa using l2)]
  simp only [List.getElem_map]
  set w := (log e - log table[i].1) / (log table[i + 1].1 - log table[i].1) with hw
  have hd := sub_pos.2 hlt
  have w0 : 0 ≤ w := div_nonneg (by linarith) hd.le
  have w1 : w ≤ 1 := by rw [hw, div_le_one hd]; linarith
  set A := log table[i].2 with hA
  set B := log table[i + 1].2 with hB
  have eA : table[i].2 = exp A := (exp_log p1.2).symm
  have eB : table[i + 1].2 = exp B := (exp_log p2.2).symm
  rw [eA, eB]
  rcases le_total A B with hAB | hAB
  · rw [min_eq_left (exp_le_exp.2 hAB), max_eq_right (exp_le_exp.2 hAB), exp_le_exp, exp_le_exp]
    constructor <;> nlinarith
  · rw [min_eq_right (exp_le_exp.2 hAB), max_eq_left (exp_le_exp.2 hAB), exp_le_exp, exp_le_exp]
    constructor <;> nlinarith

example : TableOk [(1, 5), (2, 3), (4, 1)] := by
  constructor
  · intro t ht
    simp at ht
    rcases ht with rfl | rfl | rfl <;> norm_num
  · simp; norm_num

end Elisa.Models.Spectra
