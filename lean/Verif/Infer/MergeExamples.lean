import Verif.Infer.MergeProps
import Verif.Data.ObsExamples

/-!
# C123: a case of the theorem, and scale factors that vary
-/

namespace Elisa.Infer.Merge

open Elisa Elisa.Grouping Elisa.Data Elisa.Infer

/-- two channels with ten counts each; the second has the area scale `x` -/
noncomputable def pair (x : ℝ) : Obs where
  spec := { counts := [10, 10], errors := [1, 1], quality := [0, 0], grouping := [1, 1], poisson := true, exposure := 1,
            areaScale := [1, x], backScale := [1, 1], netOpt := none }
  back := none
  resp := { emin := [1, 2], emax := [2, 3], matrix := [[1, 0], [0, 1]], fwhm := [1, 1] }
  good := [true, true]

theorem lt2 {i : ℕ} (h : i < 2) : i = 0 ∨ i = 1 := by omega

theorem pair_legal {x : ℝ} (hx : 0 < x) : (pair x).Legal 2 := by
  constructor
  · constructor <;> try (first | rfl | norm_num [pair])
    · intro i h1 h2
      rcases lt2 (by omega : i < 2) with rfl | rfl <;> simp [hx]
    · intro i h1 h2
      rcases lt2 (by omega : i < 2) with rfl | rfl <;> simp
    · exact hx.le
  · intro b h
    simp [pair] at h
  · constructor <;> try (first | rfl | simp [pair])
    intro i h2
    rcases lt2 (by omega : i < 2) with rfl | rfl <;> norm_num
  · rfl
  · intro i h
    match i, h with
    | 0, _ => simp [pair]
    | 1, _ => simp [pair]
    | i + 2, h => simp [pair] at h
  · intro b h
    simp [pair] at h
  · exact ⟨0, rfl⟩

theorem pair_noticed {x : ℝ} (hx : 0 < x) {e : ℕ × ℕ} (h1 : e.1 < e.2) (h2 : e.2 ≤ 2) : noticedB (pair x) [(1, 3)] e = true := by
  rw [noticedB_iff (pair_legal hx) _ h1 h2]
  refine ⟨⟨(1, 3), by simp, ?_⟩, e.1, le_refl _, h1, ?_⟩
  · intro i _ hi
    rcases lt2 (by omega : i < 2) with rfl | rfl <;> norm_num [pair]
  · rcases lt2 (by omega : e.1 < 2) with h | h <;> rw [h] <;> simp [pair]

theorem pair_fine {x : ℝ} (hx : 0 < x) : noticedList (pair x) [(1, 3)] (fixFirst [1, 1]) = [(0, 1), (1, 2)] := by
  have hg : grp (fixFirst [1, 1]) = [(0, 1), (1, 2)] := by decide
  unfold noticedList
  rw [hg]
  simp [pair_noticed hx (e := (0, 1)) (by simp) (by simp), pair_noticed hx (e := (1, 2)) (by simp) (by simp)]

theorem pair_coarse {x : ℝ} (hx : 0 < x) : noticedList (pair x) [(1, 3)] (fixFirst [1, -1]) = [(0, 2)] := by
  have hg : grp (fixFirst [1, -1]) = [(0, 2)] := by decide
  unfold noticedList
  rw [hg]
  simp [pair_noticed hx (e := (0, 2)) (by simp) (by simp)]

theorem good01 (x : ℝ) : (pair x).goodSet 0 1 = {0} := by
  change goodIn (some [true, true]) 0 1 = {0}
  decide

theorem good12 (x : ℝ) : (pair x).goodSet 1 2 = {1} := by
  change goodIn (some [true, true]) 1 2 = {1}
  decide

theorem good02 (x : ℝ) : (pair x).goodSet 0 2 = {0, 1} := by
  change goodIn (some [true, true]) 0 2 = {0, 1}
  decide

theorem pair_net (x : ℝ) : (pair x).spec.net = false := by
  simp [Spectrum.net, pair]

/-- the channels as they are -/
noncomputable def fineFit (x : ℝ) (e : List ℝ) : FitData where
  specCounts := [10, 10]
  specErrors := e
  netCounts := [10, 10]
  netErrors := e
  back := none
  matrix := [[1, 0], [0, 1]]
  areaScale := [1, x]
  exposure := 1
  specPoisson := true
  backPoisson := false

/-- the channels merged -/
noncomputable def coarseFit (a : ℝ) (e : List ℝ) : FitData where
  specCounts := [20]
  specErrors := e
  netCounts := [20]
  netErrors := e
  back := none
  matrix := [[1], [1]]
  areaScale := [a]
  exposure := 1
  specPoisson := true
  backPoisson := false

/-- the fine data: ten counts in both channels, expected `u₀` and `x u₁` -/
theorem fine_data {x : ℝ} (hx : 0 < x) {st : ObsState} (d : (pair x).Describes [(0, 1), (1, 2)] st) : FitData.ofObs (pair x) st =
    fineFit x st.specErrors := by
  have hc : st.specCounts = [10, 10] := by
    rw [d.specCounts]
    simp only [List.map_cons, List.map_nil, good01, good12, Finset.sum_singleton]
    simp [at0, pair]
  obtain ⟨b, n, e⟩ := d.noBack rfl
  have ha : st.areaScale = [1, x] := by
    rw [d.areaScale]
    simp only [List.map_cons, List.map_nil, good01, good12, pair_net, Bool.false_and]
    rw [effScale_const (x := 1) ⟨0, by simp⟩ (by intro i hi; simp at hi; subst hi; simp [at0, pair]) (by norm_num),
      effScale_const (x := x) ⟨1, by simp⟩ (by intro i hi; simp at hi; subst hi; simp [at0, pair]) hx]
  have hm : st.matrix = [[1, 0], [0, 1]] := by
    rw [d.matrix]
    simp only [List.map_cons, List.map_nil, good01, good12, Finset.sum_singleton]
    simp [at0, pair]
  unfold FitData.ofObs
  rw [b, n, e, hc, ha, hm]
  rfl

/-- the merged data: twenty counts, expected the average scale times the sum of the fluxes -/
theorem coarse_data {x : ℝ} (hx : 0 < x) {st : ObsState} (d : (pair x).Describes [(0, 2)] st) : FitData.ofObs (pair x) st =
    coarseFit (20 / (10 + 10 / x)) st.specErrors := by
  have hc : st.specCounts = [20] := by
    rw [d.specCounts]
    simp only [List.map_cons, List.map_nil, good02]
    rw [Finset.sum_pair (by simp)]
    norm_num [at0, pair]
  obtain ⟨b, n, e⟩ := d.noBack rfl
  have ha : st.areaScale = [20 / (10 + 10 / x)] := by
    rw [d.areaScale]
    simp only [List.map_cons, List.map_nil, good02, pair_net, Bool.false_and]
    unfold effScale
    rw [Finset.sum_pair (by simp), Finset.sum_pair (by simp)]
    simp only [at0, pair, List.getD_cons_zero, List.getD_cons_succ]
    rw [if_neg (by simp), if_pos (by positivity)]
    norm_num
  have hm : st.matrix = [[1], [1]] := by
    rw [d.matrix]
    have h2 : ∀ row : List ℝ, ∑ i ∈ (pair x).goodSet 0 2, at0 row i = at0 row 0 + at0 row 1 := by
      intro row
      rw [good02, Finset.sum_pair (by simp)]
    simp only [List.map_cons, List.map_nil, h2]
    simp [at0, pair]
  unfold FitData.ofObs
  rw [b, n, e, hc, ha, hm]
  rfl

set_option exponentiation.threshold 400 in
theorem fine_range {x : ℝ} {e : List ℝ} {u v : ℝ} (hu : 1e-30 ≤ u ∧ u ≤ 1e15) (hv : 1e-300 ≤ v ∧ v ≤ 1e300) (hxv : 1e-30 ≤ x * v ∧ x * v ≤ 1e15) :
    InRange .cstat (fineFit x e) [u, v]
      (nth [u, x * v]) := by
  constructor
  · intro r hr
    rcases lt2 hr with rfl | rfl
    · exact ⟨le_trans (by norm_num) hu.1, le_trans hu.2 (by norm_num)⟩
    · exact hv
  · intro j hj
    rcases lt2 hj with rfl | rfl
    · refine ⟨?_, hu⟩
      simp [fineFit, coarseFit, FitData.folded, nth, Finset.sum_range_succ]
    · refine ⟨?_, hxv⟩
      simp [fineFit, coarseFit, FitData.folded, nth, Finset.sum_range_succ]

theorem coarse_range {a : ℝ} {e : List ℝ} {u v : ℝ} (hu : 1e-300 ≤ u ∧ u ≤ 1e300) (hv : 1e-300 ≤ v ∧ v ≤ 1e300)
    (ha : 1e-30 ≤ a * (u + v) ∧ a * (u + v) ≤ 1e15) :
    InRange .cstat (coarseFit a e) [u, v] (nth [a * (u + v)]) := by
  constructor
  · intro r hr
    rcases lt2 hr with rfl | rfl
    · exact hu
    · exact hv
  · intro j hj
    obtain rfl : j = 0 := by simpa [FitData.size, coarseFit] using hj
    refine ⟨?_, ha⟩
    simp [fineFit, coarseFit, FitData.folded, nth, Finset.sum_range_succ]

set_option exponentiation.threshold 400 in
/-- equal area scales: the hypotheses of the theorem are met, and the merged channel has the smaller statistic -/
example : ∃ st₁ st₂ s₁ s₂, (pair 1).setGrouping [(1, 3)] (some [1, 1]) = .ok st₁ ∧ (pair 1).setGrouping [(1, 3)] (some [1, -1]) = .ok st₂ ∧
    likelihood .cstat (FitData.ofObs (pair 1) st₁) [11, 24] = .ok s₁ ∧ likelihood .cstat (FitData.ofObs (pair 1) st₂) [11, 24] = .ok s₂ ∧
    (deviance (getLoglike [s₂])).total ≤ (deviance (getLoglike [s₁])).total := by
  have ho := pair_legal (x := 1) one_pos
  have hs : Uniform (pair 1) := by
    refine ⟨⟨1, ?_⟩, fun b h => by simp [pair] at h⟩
    intro i h
    match i, h with
    | 0, _ => simp [pair, at0]
    | 1, _ => simp [pair, at0]
    | i + 2, h => simp [pair] at h
  have hc : Coarser [1, 1] [1, -1] := by
    intro i hi
    rintro ⟨f, h1, h2⟩
    match i, h1 with
    | 0, _ => omega
    | 1, h1 => simp at h1; omega
    | i + 2, h1 => simp at h1
  obtain ⟨st₁, st₂, h₁, h₂, h⟩ := C123_coarser_partial (pair 1) 2 ho hs [(1, 3)] [1, 1] [1, -1] rfl rfl hc .cstat (by simp)
  obtain ⟨t₁, k₁, _, d₁⟩ := setGrouping_describes ho [(1, 3)] [1, 1] rfl
  obtain ⟨t₂, k₂, _, d₂⟩ := setGrouping_describes ho [(1, 3)] [1, -1] rfl
  obtain rfl : st₁ = t₁ := by rw [h₁] at k₁; simpa using k₁
  obtain rfl : st₂ = t₂ := by rw [h₂] at k₂; simpa using k₂
  rw [pair_fine one_pos] at d₁
  rw [pair_coarse one_pos] at d₂
  have e₁ := fine_data one_pos d₁
  have e₂ := coarse_data one_pos d₂
  have r₁ := fine_range (x := 1) (e := st₁.specErrors) (u := 11) (v := 24) (by norm_num) (by norm_num) (by norm_num)
  have r₂ := coarse_range (a := 20 / (10 + 10 / 1)) (e := st₂.specErrors) (u := 11) (v := 24) (by norm_num) (by norm_num) (by norm_num)
  rw [← e₁] at r₁
  rw [← e₂] at r₂
  have q₁ : InRange .cstat (FitData.ofObs (pair 1) st₁) [11, 24] ((FitData.ofObs (pair 1) st₁).folded [11, 24]) :=
    ⟨r₁.1, fun j hj => ⟨rfl, by rw [(r₁.2 j hj).1]; exact (r₁.2 j hj).2⟩⟩
  have q₂ : InRange .cstat (FitData.ofObs (pair 1) st₂) [11, 24] ((FitData.ofObs (pair 1) st₂).folded [11, 24]) :=
    ⟨r₂.1, fun j hj => ⟨rfl, by rw [(r₂.2 j hj).1]; exact (r₂.2 j hj).2⟩⟩
  obtain ⟨s₁, s₂, l₁, l₂, hle⟩ := h (((C43_check _ _).1).2 (by rw [e₁]; exact ⟨rfl, rfl⟩)) (((C43_check _ _).1).2 (by rw [e₂]; exact ⟨rfl, rfl⟩)) [11, 24] q₁ q₂
  exact ⟨st₁, st₂, s₁, s₂, h₁, h₂, l₁, l₂, hle⟩

set_option exponentiation.threshold 400 in
/-- **C123 refuted for varying scale factors.**  Two channels with ten counts each and area scales 1 and 1/2.  With fluxes 11 and 24 (expected counts 11 and 12) the
C statistic is about 0.45; after merging the channels the scale is 2/3, 23.3 of 20 counts are expected, and the statistic is about 0.50. -/
theorem C123_scales_refuted : ∃ (o : Obs) (st₁ st₂ : ObsState) (s₁ s₂ : Sites), o.Legal 2 ∧ Coarser [1, 1] [1, -1] ∧
    o.setGrouping [(1, 3)] (some [1, 1]) = .ok st₁ ∧ o.setGrouping [(1, 3)] (some [1, -1]) = .ok st₂ ∧
    checkStat (FitData.ofObs o st₁) .cstat = .ok () ∧ checkStat (FitData.ofObs o st₂) .cstat = .ok () ∧
    likelihood .cstat (FitData.ofObs o st₁) [11, 24] = .ok s₁ ∧ likelihood .cstat (FitData.ofObs o st₂) [11, 24] = .ok s₂ ∧
    (deviance (getLoglike [s₁])).total < (deviance (getLoglike [s₂])).total := by
  have hx : (0 : ℝ) < 1 / 2 := by norm_num
  have ho := pair_legal hx
  obtain ⟨st₁, h₁, _, d₁⟩ := setGrouping_describes ho [(1, 3)] [1, 1] rfl
  obtain ⟨st₂, h₂, _, d₂⟩ := setGrouping_describes ho [(1, 3)] [1, -1] rfl
  rw [pair_fine hx] at d₁
  rw [pair_coarse hx] at d₂
  have e₁ := fine_data hx d₁
  have e₂ := coarse_data hx d₂
  have r₁ := fine_range (x := 1 / 2) (e := st₁.specErrors) (u := 11) (v := 24) (by norm_num) (by norm_num) (by norm_num)
  have r₂ := coarse_range (a := 20 / (10 + 10 / (1 / 2))) (e := st₂.specErrors) (u := 11) (v := 24) (by norm_num) (by norm_num) (by norm_num)
  have hu₁ : Usable .cstat (FitData.ofObs (pair (1 / 2)) st₁) := by
    rw [e₁]
    intro j hj
    rcases lt2 hj with rfl | rfl <;> norm_num [nth, fineFit]
  have hu₂ : Usable .cstat (FitData.ofObs (pair (1 / 2)) st₂) := by
    rw [e₂]
    intro j hj
    obtain rfl : j = 0 := by simpa [FitData.size, coarseFit] using hj
    norm_num [nth, coarseFit]
  rw [← e₁] at r₁
  rw [← e₂] at r₂
  obtain ⟨s₁, l₁, z₁, p₁⟩ := C25_channel_deviance _ _ _ _ hu₁ r₁
  obtain ⟨s₂, l₂, z₂, p₂⟩ := C25_channel_deviance _ _ _ _ hu₂ r₂
  refine ⟨pair (1 / 2), st₁, st₂, s₁, s₂, ho, ?_, h₁, h₂, ((C43_check _ _).1).2 (by rw [e₁]; exact ⟨rfl, rfl⟩),
    ((C43_check _ _).1).2 (by rw [e₂]; exact ⟨rfl, rfl⟩), l₁, l₂, ?_⟩
  · intro i hi
    rintro ⟨f, h1, h2⟩
    match i, h1 with
    | 0, _ => omega
    | 1, h1 => simp at h1; omega
    | i + 2, h1 => simp at h1
  · have n₁ : (FitData.ofObs (pair (1 / 2)) st₁).size = 2 := by rw [e₁]; rfl
    have n₂ : (FitData.ofObs (pair (1 / 2)) st₂).size = 1 := by rw [e₂]; rfl
    obtain ⟨A, hA, _, dA⟩ := p₁ 0 (by omega)
    obtain ⟨B, hB, _, dB⟩ := p₁ 1 (by omega)
    obtain ⟨C, hC, _, dC⟩ := p₂ 0 (by omega)
    rw [total_sites, total_sites, z₁, z₂, n₁, n₂, Finset.sum_range_succ, Finset.sum_range_one, Finset.sum_range_one, hA, hB, hC]
    rw [e₁] at dA dB
    rw [e₂] at dC
    simp only [IsDeviance, nth, fineFit, coarseFit, List.getD_cons_zero, List.getD_cons_succ] at dA dB dC
    suffices h : Real.exp (-C / 2) < Real.exp (-A / 2) * Real.exp (-B / 2) by
      rw [← Real.exp_add, Real.exp_lt_exp] at h
      linarith
    rw [dA, dB, dC]
    have c1 : (20 : ℝ) / (10 + 10 / (1 / 2)) * (11 + 24) = 70 / 3 := by norm_num
    have c2 : (1 : ℝ) / 2 * 24 = 12 := by norm_num
    rw [c1, c2]
    unfold poisLik
    have f1 : (11 : ℝ) ^ (10 : ℝ) * Real.exp (-11) / (10 ^ (10 : ℝ) * Real.exp (-10)) = (11 / 10) ^ 10 * Real.exp (-1) := by
      rw [show (-11 : ℝ) = -1 + -10 by norm_num, Real.exp_add]
      have := Real.exp_pos (-10)
      norm_num
      field_simp
    have f2 : (12 : ℝ) ^ (10 : ℝ) * Real.exp (-12) / (10 ^ (10 : ℝ) * Real.exp (-10)) = (12 / 10) ^ 10 * Real.exp (-2) := by
      rw [show (-12 : ℝ) = -2 + -10 by norm_num, Real.exp_add]
      have := Real.exp_pos (-10)
      norm_num
      field_simp
      norm_num
    have f3 : (70 / 3 : ℝ) ^ (20 : ℝ) * Real.exp (-(70 / 3)) / (20 ^ (20 : ℝ) * Real.exp (-20)) = (7 / 6) ^ 20 * Real.exp (-(10 / 3)) := by
      rw [show (-(70 / 3) : ℝ) = -(10 / 3) + -20 by norm_num, Real.exp_add]
      have := Real.exp_pos (-20)
      norm_num
      field_simp
      norm_num
    rw [f1, f2, f3]
    have g : (1 : ℝ) + 1 / 3 + (1 / 3) ^ 2 / 2 ≤ Real.exp (1 / 3) := Real.quadratic_le_exp_of_nonneg (by norm_num)
    have k : Real.exp (-1) * Real.exp (-2) = Real.exp (-(10 / 3)) * Real.exp (1 / 3) := by
      rw [← Real.exp_add, ← Real.exp_add]; norm_num
    calc (7 / 6 : ℝ) ^ 20 * Real.exp (-(10 / 3)) = Real.exp (-(10 / 3)) * (7 / 6) ^ 20 := by ring
      _ < Real.exp (-(10 / 3)) * ((11 / 10) ^ 10 * (12 / 10) ^ 10 * (1 + 1 / 3 + (1 / 3) ^ 2 / 2)) := by
          apply mul_lt_mul_of_pos_left _ (Real.exp_pos _)
          norm_num
      _ ≤ Real.exp (-(10 / 3)) * ((11 / 10) ^ 10 * (12 / 10) ^ 10 * Real.exp (1 / 3)) := by
          apply mul_le_mul_of_nonneg_left _ (Real.exp_pos _).le
          apply mul_le_mul_of_nonneg_left g (by norm_num)
      _ = (11 / 10) ^ 10 * (12 / 10) ^ 10 * (Real.exp (-(10 / 3)) * Real.exp (1 / 3)) := by ring
      _ = _ := by rw [← k]; ring

end Elisa.Infer.Merge
