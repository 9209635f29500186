import Verif.Plot.QuantRes
import Verif.Plot.ResidualProps
import Mathlib.Probability.Distributions.Poisson.Basic
import Mathlib.Probability.CDF
import Mathlib.MeasureTheory.Measure.Prod

/-!
# C113: quantile residuals of Poisson data
-/

namespace Elisa.Plot.Quant

open Elisa Elisa.Infer Elisa.Plot MeasureTheory ProbabilityTheory
open scoped NNReal ENNReal Nat Topology

/-! ### The normal distribution function -/

theorem cdf_eq (x : ℝ) : cdf stdNormal x = 1 - normSf x := by
  rw [cdf_eq_real]
  have : normSf x = stdNormal.real (Set.Iic x)ᶜ := by rw [Set.compl_Iic]; rfl
  rw [this, probReal_compl_eq_one_sub measurableSet_Iic]
  ring

theorem normSf_neg (x : ℝ) : 1 - normSf (-x) = normSf x := by
  rw [← cdf_eq, cdf_eq_real, ← normSf_lower x]
  have h : Set.Iic (-x) = Set.Iio (-x) ∪ {-x} := by rw [Set.union_comm, ← Set.Iic_diff_right, Set.union_diff_cancel (by simp)]
  rw [h]
  unfold Measure.real
  congr 1
  apply le_antisymm
  · exact le_trans (measure_union_le _ _) (by rw [stdNormal_singleton]; simp)
  · exact measure_mono Set.subset_union_left

/-- `norm.ppf(p) ≤ x` exactly if `p` is at most the probability of values up to `x`. -/
theorem normPpf_le_iff (p x : ℝ) : normPpf p ≤ (x : EReal) ↔ p ≤ 1 - normSf x := by
  constructor
  · intro h
    by_contra hlt
    rw [not_le, ← cdf_eq] at hlt
    have hc := (cdf stdNormal).right_continuous x
    have hev : ∀ᶠ y in 𝓝[>] x, cdf stdNormal y < p :=
      (hc.mono Set.Ioi_subset_Ici_self).eventually (eventually_lt_nhds hlt)
    obtain ⟨y, hy, hxy⟩ := (hev.and self_mem_nhdsWithin).exists
    have : (y : EReal) ≤ normPpf p := by
      apply le_sInf
      rintro _ ⟨z, hz, rfl⟩
      simp only [Set.mem_ofPred_eq, ← cdf_eq] at hz
      apply EReal.coe_le_coe_iff.2
      by_contra hzy
      have := monotone_cdf stdNormal (not_le.1 hzy).le
      linarith
    have h2 : (y : EReal) ≤ (x : EReal) := le_trans this h
    rw [EReal.coe_le_coe_iff] at h2
    have hxy' : x < y := hxy
    linarith
  · intro h
    exact sInf_le ⟨x, h, rfl⟩

theorem normPpf_lt_iff (q z : ℝ) : normPpf q < (z : EReal) ↔ q < 1 - normSf z := by
  constructor
  · intro h
    obtain ⟨_, ⟨y, hy, rfl⟩, hlt⟩ := sInf_lt_iff.1 h
    simp only [Set.mem_ofPred_eq] at hy
    have := normSf_strictAnti (EReal.coe_lt_coe_iff.1 hlt)
    linarith
  · intro h
    have hleft : Function.leftLim (cdf stdNormal) z = cdf stdNormal z := by
      have h1 := (cdf stdNormal).measure_singleton z
      rw [measure_cdf, stdNormal_singleton] at h1
      have h2 := ENNReal.ofReal_eq_zero.1 h1.symm
      exact le_antisymm ((monotone_cdf stdNormal).leftLim_le le_rfl) (by linarith)
    have ht := (monotone_cdf stdNormal).tendsto_leftLim z
    rw [hleft] at ht
    have hev : ∀ᶠ y in 𝓝[<] z, q < cdf stdNormal y := ht.eventually (eventually_gt_nhds (by rw [cdf_eq]; exact h))
    obtain ⟨y, hy, hyz⟩ := (hev.and self_mem_nhdsWithin).exists
    refine lt_of_le_of_lt (sInf_le ⟨y, ?_, rfl⟩) (EReal.coe_lt_coe_iff.2 hyz)
    simp only [Set.mem_ofPred_eq, ← cdf_eq]
    exact hy.le

theorem normIsf_le_iff (q x : ℝ) : normIsf q ≤ (x : EReal) ↔ normSf x ≤ q := by
  unfold normIsf
  rw [EReal.neg_le, ← EReal.coe_neg, ← not_lt, normPpf_lt_iff, not_lt, normSf_neg]

/-! ### The Poisson distribution function -/

/-- Probability of `i` counts. -/
noncomputable def prob (lam : ℝ) (i : ℕ) : ℝ := Real.exp (-lam) * lam ^ i / (i ! : ℝ)

/-- Probability of less than `n` counts. -/
noncomputable def less (lam : ℝ) (n : ℕ) : ℝ := ∑ i ∈ Finset.range n, prob lam i

theorem poissonCdf_nat (lam : ℝ) (k : ℕ) : poissonCdf k lam = less lam (k + 1) := by
  unfold poissonCdf less prob
  rw [if_neg (by simp), Nat.floor_natCast]

theorem poissonCdf_pred (lam : ℝ) (k : ℕ) : poissonCdf ((k : ℝ) - 1) lam = less lam k := by
  cases k with
  | zero => simp [poissonCdf, less]
  | succ k =>
    have : ((k + 1 : ℕ) : ℝ) - 1 = (k : ℝ) := by push_cast; ring
    rw [this, poissonCdf_nat]

theorem prob_pos {lam : ℝ} (h : 0 < lam) (i : ℕ) : 0 < prob lam i := by unfold prob; positivity

theorem less_succ (lam : ℝ) (k : ℕ) : less lam (k + 1) = less lam k + prob lam k := Finset.sum_range_succ _ _

theorem less_nonneg {lam : ℝ} (h : 0 < lam) (k : ℕ) : 0 ≤ less lam k := Finset.sum_nonneg fun i _ => (prob_pos h i).le

theorem hasSum_prob {lam : ℝ} (h : 0 < lam) : HasSum (prob lam) 1 := by
  have := hasSum_one_poissonMeasure ⟨lam, h.le⟩
  exact this

theorem less_lt_one {lam : ℝ} (h : 0 < lam) (k : ℕ) : less lam k < 1 := by
  have h1 : less lam (k + 1) ≤ 1 := sum_le_hasSum _ (fun i _ => (prob_pos h i).le) (hasSum_prob h)
  have h2 := less_succ lam k
  have := prob_pos h k
  linarith

theorem less_tendsto {lam : ℝ} (h : 0 < lam) : Filter.Tendsto (less lam) Filter.atTop (𝓝 1) := (hasSum_prob h).tendsto_sum_nat

/-! ### Uniform variates -/

/-- The probability that a uniform variate between `a` and `a + d` is at most `t`, times `d`. -/
theorem uniform_prob {a d t : ℝ} (hd : 0 < d) :
    ENNReal.ofReal d * (volume.restrict (Set.Icc (0 : ℝ) 1)) {u | a + d * u ≤ t} = ENNReal.ofReal (min t (a + d) - min t a) := by
  have hset : {u : ℝ | a + d * u ≤ t} = Set.Iic ((t - a) / d) := by
    ext u
    simp only [Set.mem_ofPred_eq, Set.mem_Iic]
    rw [le_div_iff₀ hd]
    constructor <;> intro h <;> linarith
  rw [hset, Measure.restrict_apply measurableSet_Iic]
  have hint : Set.Iic ((t - a) / d) ∩ Set.Icc (0 : ℝ) 1 = Set.Icc 0 (min ((t - a) / d) 1) := by
    ext u
    simp only [Set.mem_inter_iff, Set.mem_Iic, Set.mem_Icc, le_min_iff]
    tauto
  rw [hint, Real.volume_Icc, sub_zero, ← ENNReal.ofReal_mul hd.le]
  rcases le_or_gt (t - a) 0 with h | h
  · rw [min_eq_left (by linarith : t ≤ a + d), min_eq_left (by linarith : t ≤ a), sub_self]
    rw [ENNReal.ofReal_of_nonpos, ENNReal.ofReal_zero]
    have : (t - a) / d ≤ 0 := div_nonpos_of_nonpos_of_nonneg h hd.le
    exact mul_nonpos_of_nonneg_of_nonpos hd.le (le_trans (min_le_left _ _) this)
  · rw [min_eq_right (by linarith : a ≤ t)]
    rcases le_or_gt t (a + d) with h' | h'
    · rw [min_eq_left h', min_eq_left (by rw [div_le_one hd]; linarith)]
      congr 1
      field_simp
    · rw [min_eq_right h'.le, min_eq_right (by rw [one_le_div hd]; linarith)]
      congr 1
      ring

/-- Replacing `u` by `1 - u` does not change a uniform variate. -/
theorem uniform_flip {b d t : ℝ} (hd : 0 < d) :
    (volume.restrict (Set.Icc (0 : ℝ) 1)) {u | b - d * u ≤ t} = (volume.restrict (Set.Icc (0 : ℝ) 1)) {u | b - d + d * u ≤ t} := by
  have h1 : {u : ℝ | b - d * u ≤ t} = Set.Ici ((b - t) / d) := by
    ext u
    simp only [Set.mem_ofPred_eq, Set.mem_Ici]
    rw [div_le_iff₀ hd]
    constructor <;> intro h <;> linarith
  have h2 : {u : ℝ | b - d + d * u ≤ t} = Set.Iic (1 - (b - t) / d) := by
    ext u
    simp only [Set.mem_ofPred_eq, Set.mem_Iic]
    have : (b - t) / d ≤ 1 - u ↔ b - t ≤ (1 - u) * d := div_le_iff₀ hd
    constructor
    · intro h
      have := this.2 (by linarith)
      linarith
    · intro h
      have := this.1 (by linarith)
      linarith
  rw [h1, h2, Measure.restrict_apply measurableSet_Ici, Measure.restrict_apply measurableSet_Iic]
  have e1 : Set.Ici ((b - t) / d) ∩ Set.Icc (0 : ℝ) 1 = Set.Icc (max ((b - t) / d) 0) 1 := by
    ext u
    simp only [Set.mem_inter_iff, Set.mem_Ici, Set.mem_Icc, max_le_iff]
    tauto
  have e2 : Set.Iic (1 - (b - t) / d) ∩ Set.Icc (0 : ℝ) 1 = Set.Icc 0 (min (1 - (b - t) / d) 1) := by
    ext u
    simp only [Set.mem_inter_iff, Set.mem_Iic, Set.mem_Icc, le_min_iff]
    tauto
  rw [e1, e2, Real.volume_Icc, Real.volume_Icc]
  congr 1
  rcases le_total ((b - t) / d) 0 with h | h
  · rw [max_eq_right h, min_eq_right (by linarith)]
  · rw [max_eq_left h, min_eq_left (by linarith)]; ring

/-! ### The distribution of the residuals -/

/-- Data and noise: Poisson counts of mean `lam`, and an independent uniform variate. -/
noncomputable def world (lam : ℝ≥0) : Measure (ℕ × ℝ) := (poissonMeasure lam).prod (volume.restrict (Set.Icc (0 : ℝ) 1))

theorem world_apply (lam : ℝ≥0) (S : Set (ℕ × ℝ)) (hS : ∀ k, MeasurableSet {u | (k, u) ∈ S}) :
    world lam S = ∑' k : ℕ, ENNReal.ofReal (prob lam k) * (volume.restrict (Set.Icc (0 : ℝ) 1)) {u | (k, u) ∈ S} := by
  have hm : MeasurableSet S := by
    have : S = ⋃ k : ℕ, ({k} : Set ℕ) ×ˢ {u | (k, u) ∈ S} := by
      ext ⟨k, u⟩
      simp
    rw [this]
    exact MeasurableSet.iUnion fun k => (measurableSet_singleton k).prod (hS k)
  unfold world
  rw [Measure.prod_apply hm]
  unfold poissonMeasure
  rw [lintegral_sum_measure]
  congr 1
  funext k
  rw [lintegral_smul_measure, lintegral_dirac]
  rfl

/-- If the residual is at most `x` (almost) exactly where a uniform variate between the probabilities of less than `k` and of at most `k` counts is at most
the normal probability, it is standard normal. -/
theorem normal_of_sections (lam : ℝ≥0) (hl : 0 < lam) (x : ℝ) (S : Set (ℕ × ℝ)) (hS : ∀ k, MeasurableSet {u | (k, u) ∈ S})
    (h : ∀ k, (volume.restrict (Set.Icc (0 : ℝ) 1)) {u | (k, u) ∈ S} =
      (volume.restrict (Set.Icc (0 : ℝ) 1)) {u | less lam k + prob lam k * u ≤ 1 - normSf x}) :
    world lam S = stdNormal (Set.Iic x) := by
  have hl' : (0 : ℝ) < lam := hl
  set t := 1 - normSf x with ht
  have ht1 : t < 1 := by have := normSf_pos x; linarith
  have ht0 : 0 ≤ t := by rw [ht, ← cdf_eq]; exact cdf_nonneg _ _
  have hsum : HasSum (fun k => min t (less lam k + prob lam k) - min t (less lam k)) t := by
    have hnn : ∀ k, 0 ≤ min t (less lam k + prob lam k) - min t (less lam k) := fun k => by
      have := prob_pos hl' k
      have : min t (less lam k) ≤ min t (less lam k + prob lam k) := min_le_min_left _ (by linarith)
      linarith
    rw [hasSum_iff_tendsto_nat_of_nonneg hnn]
    have hpart : ∀ n, ∑ k ∈ Finset.range n, (min t (less lam k + prob lam k) - min t (less lam k)) = min t (less lam n) := by
      intro n
      induction n with
      | zero => simp [less, ht0]
      | succ n ih => rw [Finset.sum_range_succ, ih, less_succ]; ring
    simp only [hpart]
    have := (tendsto_const_nhds (x := t)).min (less_tendsto hl')
    rwa [min_eq_left ht1.le] at this
  rw [world_apply lam S hS]
  have hterm : ∀ k, ENNReal.ofReal (prob lam k) * (volume.restrict (Set.Icc (0 : ℝ) 1)) {u | (k, u) ∈ S} =
      ENNReal.ofReal (min t (less lam k + prob lam k) - min t (less lam k)) := fun k => by
    rw [h k, uniform_prob (prob_pos hl' k)]
  simp only [hterm]
  rw [← ENNReal.ofReal_tsum_of_nonneg _ hsum.summable, hsum.tsum_eq, ht, ← cdf_eq, ofReal_cdf]
  intro k
  have := prob_pos hl' k
  have : min t (less lam k) ≤ min t (less lam k + prob lam k) := min_le_min_left _ (by linarith)
  linarith

theorem quant_section (lam : ℝ) (hl : 0 < lam) (k : ℕ) (u : ℝ) (hu : 0 < u) (hu1 : u ≤ 1) (x : ℝ) :
    quantPoisson k lam false true u ≤ (x : EReal) ↔
      (if (k : ℝ) < lam then less lam k + prob lam k * u else less lam (k + 1) - prob lam k * u) ≤ 1 - normSf x := by
  have hp := prob_pos hl k
  have h0 := less_nonneg hl k
  have h1 := less_lt_one hl (k + 1)
  have hs := less_succ lam k
  simp only [quantPoisson, quantTail, uniform, poissonSf, poissonCdf_pred, poissonCdf_nat, if_true, Bool.false_eq_true, if_false]
  have hc : less lam k + (less lam (k + 1) - less lam k) * u = less lam k + prob lam k * u := by rw [hs]; ring
  have hq : 1 - less lam (k + 1) + (1 - less lam k - (1 - less lam (k + 1))) * u = 1 - less lam (k + 1) + prob lam k * u := by rw [hs]; ring
  rw [hc, hq]
  have hpu : 0 < prob lam k * u := mul_pos hp hu
  by_cases hk : (k : ℝ) < lam
  · simp only [if_pos hk]
    rw [if_pos (ne_of_gt (by linarith : 0 < less lam k + prob lam k * u))]
    exact normPpf_le_iff _ _
  · simp only [if_neg hk]
    rw [if_pos (ne_of_gt (by linarith : 0 < 1 - less lam (k + 1) + prob lam k * u)), normIsf_le_iff]
    constructor <;> intro h <;> linarith

theorem world_ae (lam : ℝ≥0) : ∀ᵐ p ∂world lam, 0 < p.2 ∧ p.2 < 1 := by
  rw [ae_iff]
  have hset : {p : ℕ × ℝ | ¬(0 < p.2 ∧ p.2 < 1)} = Set.univ ×ˢ (Set.Ioo (0 : ℝ) 1)ᶜ := by
    ext p
    simp only [Set.mem_ofPred_eq, Set.mem_prod, Set.mem_univ, true_and, Set.mem_compl_iff, Set.mem_Ioo]
  rw [hset]
  unfold world
  rw [Measure.prod_prod]
  have : (volume.restrict (Set.Icc (0 : ℝ) 1)) (Set.Ioo (0 : ℝ) 1)ᶜ = 0 := by
    rw [Measure.restrict_apply measurableSet_Ioo.compl]
    have : (Set.Ioo (0 : ℝ) 1)ᶜ ∩ Set.Icc 0 1 ⊆ {0, 1} := by
      rintro u ⟨h1, h2, h3⟩
      simp only [Set.mem_compl_iff, Set.mem_Ioo, not_and, not_lt] at h1
      rcases h2.lt_or_eq with h | h
      · right; exact le_antisymm h3 (h1 h)
      · left; exact h.symm
    refine measure_mono_null this ?_
    exact (Set.toFinite ({0, 1} : Set ℝ)).measure_zero volume
  rw [this, mul_zero]

theorem measurable_line (c : ℝ) (d t : ℝ) : MeasurableSet {u : ℝ | c + d * u ≤ t} :=
  measurableSet_le (by fun_prop) measurable_const

/-- **C113 (normality of `quantile_residuals_poisson`).**  For counts drawn from the Poisson distribution of any positive mean, the randomised quantile
residual is a standard normal variate: its distribution function is the normal one at every `x`. -/
theorem C113_normal (lam : ℝ≥0) (hl : 0 < lam) (x : ℝ) :
    world lam {p | quantPoisson p.1 lam false true p.2 ≤ (x : EReal)} = stdNormal (Set.Iic x) := by
  have hl' : (0 : ℝ) < lam := hl
  let T : Set (ℕ × ℝ) := {p | (if (p.1 : ℝ) < lam then less lam p.1 + prob lam p.1 * p.2 else less lam (p.1 + 1) - prob lam p.1 * p.2) ≤ 1 - normSf x}
  have hST : world lam {p | quantPoisson p.1 lam false true p.2 ≤ (x : EReal)} = world lam T := by
    apply measure_congr
    filter_upwards [world_ae lam] with p hp
    exact propext (quant_section lam hl' p.1 p.2 hp.1 hp.2.le x)
  rw [hST]
  apply normal_of_sections lam hl
  · intro k
    by_cases hk : (k : ℝ) < lam
    · have : {u | (k, u) ∈ T} = {u : ℝ | less lam k + prob lam k * u ≤ 1 - normSf x} := by
        ext u; simp only [T, Set.mem_ofPred_eq, if_pos hk]
      rw [this]; exact measurable_line _ _ _
    · have : {u | (k, u) ∈ T} = {u : ℝ | less lam (k + 1) + (-prob lam k) * u ≤ 1 - normSf x} := by
        ext u; simp only [T, Set.mem_ofPred_eq, if_neg hk, neg_mul, sub_eq_add_neg]
      rw [this]; exact measurable_line _ _ _
  · intro k
    by_cases hk : (k : ℝ) < lam
    · have : {u | (k, u) ∈ T} = {u : ℝ | less lam k + prob lam k * u ≤ 1 - normSf x} := by
        ext u; simp only [T, Set.mem_ofPred_eq, if_pos hk]
      rw [this]
    · have : {u | (k, u) ∈ T} = {u : ℝ | less lam (k + 1) - prob lam k * u ≤ 1 - normSf x} := by
        ext u; simp only [T, Set.mem_ofPred_eq, if_neg hk]
      rw [this, uniform_flip (prob_pos hl' k), less_succ, add_sub_cancel_right]

/-- **C113 (normality of the residuals drawn).**  The same for the residuals the plot uses for `cstat` and `pstat`, whatever the second generator gives. -/
theorem C113_mle_normal (lam : ℝ≥0) (hl : 0 < lam) (u' : ℝ) (x : ℝ) :
    world lam {p | quantMle p.1 lam true p.2 u' ≤ (x : EReal)} = stdNormal (Set.Iic x) := by
  have hl' : (0 : ℝ) < lam := hl
  let T : Set (ℕ × ℝ) := {p | less lam p.1 + prob lam p.1 * p.2 ≤ 1 - normSf x}
  have hST : world lam {p | quantMle p.1 lam true p.2 u' ≤ (x : EReal)} = world lam T := by
    apply measure_congr
    filter_upwards [world_ae lam] with p hp
    apply propext
    show quantMle p.1 lam true p.2 u' ≤ (x : EReal) ↔ less lam p.1 + prob lam p.1 * p.2 ≤ 1 - normSf x
    have hpp := prob_pos hl' p.1
    have h0 := less_nonneg hl' p.1
    have h1 := less_lt_one hl' (p.1 + 1)
    have hs := less_succ lam p.1
    have hpu : 0 < prob lam p.1 * p.2 := mul_pos hpp hp.1
    have hpu' : prob lam p.1 * p.2 < prob lam p.1 := by nlinarith [hp.2]
    simp only [quantMle, quantFrom, pitPoisson, uniform, poissonCdf_pred, poissonCdf_nat, if_true]
    have hc : less lam p.1 + (less lam (p.1 + 1) - less lam p.1) * p.2 = less lam p.1 + prob lam p.1 * p.2 := by rw [hs]; ring
    rw [hc, if_neg]
    · exact normPpf_le_iff _ _
    · rintro (h | h) <;> linarith
  rw [hST]
  exact normal_of_sections lam hl x T (fun k => measurable_line (less lam k) (prob lam k) (1 - normSf x)) fun k => rfl

/-- **C113 (never infinite).**  Whatever tail probabilities are computed, as long as they lie in `[0, 1)`, the residual is finite: a probability that
underflows to `0` is replaced by the standardised difference. -/
theorem C113_finite (k lam cdf sf : ℝ) (hc : 0 ≤ cdf ∧ cdf < 1) (hs : 0 ≤ sf ∧ sf < 1) :
    ∃ r : ℝ, quantTail k lam cdf sf = r ∧ (k < lam → cdf = 0 → r = (k - lam) / Real.sqrt lam) ∧
      (lam ≤ k → sf = 0 → r = (k - lam) / Real.sqrt lam) := by
  unfold quantTail
  by_cases hk : k < lam
  · by_cases h0 : cdf = 0
    · exact ⟨_, by rw [if_pos hk, if_neg (by simpa using h0)], fun _ _ => rfl, fun h => absurd h (not_le.2 hk)⟩
    · obtain ⟨r, hr⟩ := normPpf_finite (lt_of_le_of_ne hc.1 (Ne.symm h0)) hc.2
      exact ⟨r, by rw [if_pos hk, if_pos h0, hr], fun _ h => absurd h h0, fun h => absurd h (not_le.2 hk)⟩
  · by_cases h0 : sf = 0
    · exact ⟨_, by rw [if_neg hk, if_neg (by simpa using h0)], fun h => absurd h hk, fun _ _ => rfl⟩
    · obtain ⟨r, hr⟩ := normPpf_finite (lt_of_le_of_ne hs.1 (Ne.symm h0)) hs.2
      exact ⟨-r, by rw [if_neg hk, if_pos h0, normIsf, hr, EReal.coe_neg], fun h => absurd h hk, fun _ h => absurd h h0⟩

example : quantTail 5 1000000 0 0 = ((5 - 1000000) / Real.sqrt 1000000 : ℝ) := by
  unfold quantTail; rw [if_pos (by norm_num), if_neg (by simp)]

theorem abs_nonneg (r : EReal) : 0 ≤ max r (-r) := by
  rcases le_total 0 r with h | h
  · exact le_trans h (le_max_left _ _)
  · exact le_trans (by simpa using EReal.neg_le_neg_iff.2 h) (le_max_right _ _)

/-- **C113 (sign).**  With `keep_sign` the residual is not negative where the data are at or above the model and not positive where they are below it, and
has the magnitude of the residual without `keep_sign`. -/
theorem C113_sign (k lam : ℝ) (random : Bool) (u : ℝ) :
    (lam ≤ k → 0 ≤ quantPoisson k lam true random u) ∧ (k < lam → quantPoisson k lam true random u ≤ 0) ∧
      (quantPoisson k lam true random u = quantPoisson k lam false random u ∨
        quantPoisson k lam true random u = -quantPoisson k lam false random u) := by
  have h : quantPoisson k lam true random u = keepSign k lam (quantPoisson k lam false random u) := by
    simp [quantPoisson]
  rw [h]
  generalize quantPoisson k lam false random u = r
  unfold keepSign
  refine ⟨fun hk => by rw [if_pos hk]; exact abs_nonneg r, fun hk => ?_, ?_⟩
  · rw [if_neg (not_le.2 hk)]
    simpa using EReal.neg_le_neg_iff.2 (abs_nonneg r)
  · split_ifs <;> rcases max_choice r (-r) with e | e <;> simp [e]

/-- **C113 (rounded probabilities).**  Whatever probability was computed: if it is 0 or 1, which rounding can give although the exact one never is, the residual drawn without
noise still has the sign of data minus model; any other probability gives its normal quantile, which is finite. -/
theorem C113_rounded (p k lam u' : ℝ) (hp : 0 ≤ p ∧ p ≤ 1) :
    (p = 0 ∨ p = 1 → (lam ≤ k → 0 ≤ quantFrom p k lam false u') ∧ (k < lam → quantFrom p k lam false u' ≤ 0)) ∧
      (p ≠ 0 → p ≠ 1 → ∀ random x, (∃ r : ℝ, quantFrom p k lam random u' = r) ∧
        (quantFrom p k lam random u' ≤ ((x : ℝ) : EReal) ↔ p ≤ (stdNormal (Set.Iic x)).toReal)) := by
  refine ⟨fun h => ?_, fun h0 h1 random x => ?_⟩
  · have e : quantFrom p k lam false u' = quantPoisson k lam true false u' := if_pos h
    rw [e]
    exact ⟨(C113_sign k lam false u').1, (C113_sign k lam false u').2.1⟩
  · have e : quantFrom p k lam random u' = normPpf p := if_neg (by tauto)
    rw [e]
    exact ⟨normPpf_finite (lt_of_le_of_ne hp.1 (Ne.symm h0)) (lt_of_le_of_ne hp.2 h1), by rw [normPpf_le_iff, ← cdf_eq, cdf_eq_real]; rfl⟩

example := C113_rounded 1 300 10 0 (by norm_num)

/-- **C113 (without noise).**  Without noise the residual drawn for `cstat` and `pstat` is the normal quantile of the probability of at most the counts
observed: it is finite, and at most `x` exactly if that probability is at most the normal probability of values up to `x`. -/
theorem C113_plain (k : ℕ) (lam : ℝ) (hl : 0 < lam) (u u' x : ℝ) :
    (∃ r : ℝ, quantMle k lam false u u' = r) ∧
      (quantMle k lam false u u' ≤ (x : EReal) ↔
        ∑ i ∈ Finset.range (k + 1), Real.exp (-lam) * lam ^ i / (i ! : ℝ) ≤ (stdNormal (Set.Iic x)).toReal) := by
  have h1 := less_lt_one hl (k + 1)
  have h0 : 0 < less lam (k + 1) := by rw [less_succ]; linarith [less_nonneg hl k, prob_pos hl k]
  have e : quantMle k lam false u u' = normPpf (less lam (k + 1)) := by
    simp only [quantMle, quantFrom, pitPoisson, poissonCdf_nat, Bool.false_eq_true, if_false]
    rw [if_neg]
    rintro (h | h) <;> linarith
  rw [e]
  refine ⟨normPpf_finite h0 h1, ?_⟩
  rw [normPpf_le_iff, ← cdf_eq, cdf_eq_real]
  rfl

/-- A mean for which the theorems apply. -/
example : world 3 {p | quantPoisson p.1 (3 : ℝ≥0) false true p.2 ≤ ((0 : ℝ) : EReal)} = stdNormal (Set.Iic 0) := C113_normal 3 (by norm_num) 0

end Elisa.Plot.Quant
