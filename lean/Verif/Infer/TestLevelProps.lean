import Verif.Infer.BatchProps
import Mathlib.MeasureTheory.Constructions.Pi
import Mathlib.Probability.Independence.Basic
import Mathlib.Probability.Distributions.Gaussian.Real

/-!
# C143: how often the goodness-of-fit test rejects a correct model
-/

namespace Elisa.Infer.TestLevel

open Elisa Elisa.Infer MeasureTheory ProbabilityTheory

/-- The p-value reported when the observed data gave the statistic `x 0` and the `n` simulated data sets gave `x 1, ..., x n`. -/
noncomputable def reportedP {n : ℕ} (x : Fin (n + 1) → ℝ) : Option ℝ := pValue (x 0) (List.ofFn fun i : Fin n => x i.succ)

/-- The test at level `α` rejects the model: the reported p-value is at most `α`. -/
def Rejects {n : ℕ} (α : ℝ) (x : Fin (n + 1) → ℝ) : Prop := ∃ v, reportedP x = some v ∧ v ≤ α

/-- Data and simulations are interchangeable: no permutation of them changes their joint distribution.  This is what a correct model means for the test. -/
def Exchangeable {n : ℕ} (P : Measure (Fin (n + 1) → ℝ)) : Prop := ∀ σ : Equiv.Perm (Fin (n + 1)), P.map (fun x => x ∘ σ) = P

/-! ### Counting -/

/-- number of other entries that are at least entry `i` -/
noncomputable def above {n : ℕ} (x : Fin (n + 1) → ℝ) (i : Fin (n + 1)) : ℕ := (Finset.univ.filter fun j => j ≠ i ∧ x i ≤ x j).card

/-- entries with at most `k` others above them -/
noncomputable def top {n : ℕ} (k : ℕ) (x : Fin (n + 1) → ℝ) : Finset (Fin (n + 1)) := Finset.univ.filter fun i => above x i ≤ k

theorem top_le {n : ℕ} (k : ℕ) (x : Fin (n + 1) → ℝ) : (top k x).card ≤ k + 1 := by
  by_cases hne : (top k x).Nonempty
  · obtain ⟨i, hi, hmin⟩ := (top k x).exists_min_image x hne
    have h1 : above x i ≤ k := (Finset.mem_filter.1 hi).2
    have h2 : ((top k x).erase i).card ≤ above x i := by
      apply Finset.card_le_card
      intro j hj
      rw [Finset.mem_erase] at hj
      exact Finset.mem_filter.2 ⟨Finset.mem_univ _, hj.1, hmin j hj.2⟩
    rw [Finset.card_erase_of_mem hi] at h2
    omega
  · rw [Finset.not_nonempty_iff_eq_empty.1 hne]
    simp

theorem top_eq {n : ℕ} (k : ℕ) (hk : k ≤ n) (x : Fin (n + 1) → ℝ) (hx : Function.Injective x) : (top k x).card = k + 1 := by
  apply le_antisymm (top_le k x)
  by_cases hne : (Finset.univ.filter fun i => k < above x i).Nonempty
  · obtain ⟨i, hi, hmax⟩ := (Finset.univ.filter fun i => k < above x i).exists_max_image x hne
    have h1 : k < above x i := (Finset.mem_filter.1 hi).2
    have h2 : above x i ≤ (top k x).card := by
      apply Finset.card_le_card
      intro j hj
      obtain ⟨-, hji, hle⟩ := Finset.mem_filter.1 hj
      refine Finset.mem_filter.2 ⟨Finset.mem_univ _, ?_⟩
      by_contra hlt
      have := hmax j (Finset.mem_filter.2 ⟨Finset.mem_univ _, by omega⟩)
      exact hji (hx (le_antisymm this hle))
    omega
  · have : top k x = Finset.univ := by
      apply Finset.eq_univ_of_forall
      intro i
      refine Finset.mem_filter.2 ⟨Finset.mem_univ _, ?_⟩
      by_contra hlt
      exact hne ⟨i, Finset.mem_filter.2 ⟨Finset.mem_univ _, by omega⟩⟩
    rw [this]
    simp
    omega

theorem above_comp {n : ℕ} (x : Fin (n + 1) → ℝ) (σ : Equiv.Perm (Fin (n + 1))) (i : Fin (n + 1)) : above (x ∘ σ) i = above x (σ i) := by
  unfold above
  apply Finset.card_bij (fun j _ => σ j)
  · intro j hj
    obtain ⟨-, h1, h2⟩ := Finset.mem_filter.1 hj
    exact Finset.mem_filter.2 ⟨Finset.mem_univ _, fun h => h1 (σ.injective h), h2⟩
  · intro a _ b _ h
    exact σ.injective h
  · intro j hj
    obtain ⟨-, h1, h2⟩ := Finset.mem_filter.1 hj
    refine ⟨σ.symm j, Finset.mem_filter.2 ⟨Finset.mem_univ _, ?_, ?_⟩, by simp⟩
    · intro h
      apply h1
      rw [← h]
      simp
    · simpa using h2

theorem count_above {n : ℕ} (x : Fin (n + 1) → ℝ) : (List.ofFn fun i : Fin n => x i.succ).countP (fun y => decide (x 0 ≤ y)) = above x 0 := by
  have h1 : ∀ (m : ℕ) (f : Fin m → ℝ) (c : ℝ), (List.ofFn f).countP (fun y => decide (c ≤ y)) = (Finset.univ.filter fun i => c ≤ f i).card := by
    intro m
    induction m with
    | zero => intro f c; simp
    | succ m ih =>
      intro f c
      rw [List.ofFn_succ, List.countP_cons, ih, Fin.card_filter_univ_succ]
      by_cases h : c ≤ f 0
      · simp [h]
      · simp [h]
  rw [h1]
  unfold above
  apply Finset.card_bij (fun j _ => j.succ)
  · intro j hj
    exact Finset.mem_filter.2 ⟨Finset.mem_univ _, Fin.succ_ne_zero j, (Finset.mem_filter.1 hj).2⟩
  · intro a _ b _ h
    exact Fin.succ_injective _ h
  · intro j hj
    obtain ⟨-, h1, h2⟩ := Finset.mem_filter.1 hj
    obtain ⟨i, rfl⟩ := Fin.exists_succ_eq.2 h1
    exact ⟨i, Finset.mem_filter.2 ⟨Finset.mem_univ _, h2⟩, rfl⟩

theorem rejects_iff {n : ℕ} (hn : 0 < n) {α : ℝ} (hα : 0 ≤ α) (x : Fin (n + 1) → ℝ) : Rejects α x ↔ above x 0 ≤ ⌊α * n⌋₊ := by
  have hn' : (0 : ℝ) < n := by exact_mod_cast hn
  have hp : reportedP x = some ((above x 0 : ℝ) / n) := by
    unfold reportedP pValue
    rw [List.length_ofFn, if_neg (by omega), count_above]
  unfold Rejects
  rw [hp]
  simp only [Option.some.injEq, exists_eq_left']
  rw [div_le_iff₀ hn', Nat.le_floor_iff (by positivity)]

theorem above_measurable {n : ℕ} (k : ℕ) (i : Fin (n + 1)) : MeasurableSet {x : Fin (n + 1) → ℝ | above x i ≤ k} := by
  have h : {x : Fin (n + 1) → ℝ | above x i ≤ k} = ⋃ S ∈ {S : Finset (Fin (n + 1)) | S.card ≤ k}, {x | (Finset.univ.filter fun j => j ≠ i ∧ x i ≤ x j) = S} := by
    ext x
    simp [above]
  rw [h]
  apply MeasurableSet.biUnion (Set.to_countable _)
  intro S _
  have h2 : {x : Fin (n + 1) → ℝ | (Finset.univ.filter fun j => j ≠ i ∧ x i ≤ x j) = S} = ⋂ j, {x | (j ≠ i ∧ x i ≤ x j) ↔ j ∈ S} := by
    ext x
    simp only [Set.mem_setOf_eq, Set.mem_iInter, Finset.ext_iff, Finset.mem_filter, Finset.mem_univ, true_and]
  rw [h2]
  apply MeasurableSet.iInter
  intro j
  have hle : MeasurableSet {x : Fin (n + 1) → ℝ | x i ≤ x j} := measurableSet_le (measurable_pi_apply i) (measurable_pi_apply j)
  by_cases hS : j ∈ S
  · by_cases hj : j = i
    · simp [hS, hj]
    · simpa [hS, hj] using hle
  · by_cases hj : j = i
    · simp [hS, hj]
    · have : {x : Fin (n + 1) → ℝ | (j ≠ i ∧ x i ≤ x j) ↔ j ∈ S} = {x | x i ≤ x j}ᶜ := by
        ext x
        simp [hS, hj]
      rw [this]
      exact hle.compl

theorem above_prob {n : ℕ} {P : Measure (Fin (n + 1) → ℝ)} (hP : Exchangeable P) (k : ℕ) (i : Fin (n + 1)) :
    P {x | above x i ≤ k} = P {x | above x 0 ≤ k} := by
  have hm : Measurable (fun x : Fin (n + 1) → ℝ => x ∘ (Equiv.swap 0 i)) := by
    apply measurable_pi_lambda
    intro j
    exact measurable_pi_apply _
  conv_rhs => rw [← hP (Equiv.swap 0 i)]
  rw [Measure.map_apply hm (above_measurable k 0)]
  congr 1
  ext x
  simp [above_comp]

theorem sum_prob {n : ℕ} (P : Measure (Fin (n + 1) → ℝ)) (k : ℕ) :
    ∑ i, P {x | above x i ≤ k} = ∫⁻ x, ((top k x).card : ENNReal) ∂P := by
  have h : ∀ x : Fin (n + 1) → ℝ, ((top k x).card : ENNReal) = ∑ i, Set.indicator {x | above x i ≤ k} 1 x := by
    intro x
    rw [top, Finset.card_filter]
    push_cast
    apply Finset.sum_congr rfl
    intro i _
    by_cases hi : above x i ≤ k <;> simp [Set.indicator, hi]
  simp only [h]
  rw [lintegral_finsetSum]
  · apply Finset.sum_congr rfl
    intro i _
    rw [lintegral_indicator_one (above_measurable k i)]
  · intro i _
    exact measurable_one.indicator (above_measurable k i)

theorem prob_le {n : ℕ} {P : Measure (Fin (n + 1) → ℝ)} [IsProbabilityMeasure P] (hP : Exchangeable P) (k : ℕ) :
    P.real {x | above x 0 ≤ k} ≤ ((k : ℝ) + 1) / (n + 1) := by
  have h1 := sum_prob P k
  simp only [above_prob hP] at h1
  have h2 : ∫⁻ x, ((top k x).card : ENNReal) ∂P ≤ ∫⁻ _, ((k + 1 : ℕ) : ENNReal) ∂P :=
    lintegral_mono fun x => Nat.cast_le.2 (top_le k x)
  rw [← h1] at h2
  simp only [Finset.sum_const, Finset.card_univ, Fintype.card_fin, nsmul_eq_mul, lintegral_const, measure_univ, mul_one] at h2
  have h3 := ENNReal.toReal_mono (by simp) h2
  rw [ENNReal.toReal_mul, ENNReal.toReal_natCast, ENNReal.toReal_natCast] at h3
  push_cast at h3
  rw [le_div_iff₀ (by positivity), mul_comm]
  exact h3

theorem prob_eq {n : ℕ} {P : Measure (Fin (n + 1) → ℝ)} [IsProbabilityMeasure P] (hP : Exchangeable P) (hd : ∀ᵐ x ∂P, Function.Injective x)
    (k : ℕ) (hk : k ≤ n) : P.real {x | above x 0 ≤ k} = ((k : ℝ) + 1) / (n + 1) := by
  have h1 := sum_prob P k
  simp only [above_prob hP] at h1
  have h2 : ∫⁻ x, ((top k x).card : ENNReal) ∂P = ∫⁻ _, ((k + 1 : ℕ) : ENNReal) ∂P :=
    lintegral_congr_ae (hd.mono fun x hx => by simp only [top_eq k hk x hx])
  rw [h2] at h1
  simp only [Finset.sum_const, Finset.card_univ, Fintype.card_fin, nsmul_eq_mul, lintegral_const, measure_univ, mul_one] at h1
  have h3 := congrArg ENNReal.toReal h1
  rw [ENNReal.toReal_mul, ENNReal.toReal_natCast, ENNReal.toReal_natCast] at h3
  push_cast at h3
  rw [eq_div_iff (by positivity), mul_comm]
  exact h3

/-! ### Independent draws -/

/-- Observed and simulated statistics are `n + 1` independent draws from the same distribution `ν`: the model and the parameters simulated from are the true ones. -/
noncomputable def draws (n : ℕ) (ν : Measure ℝ) : Measure (Fin (n + 1) → ℝ) := Measure.pi fun _ => ν

instance (n : ℕ) (ν : Measure ℝ) [IsProbabilityMeasure ν] : IsProbabilityMeasure (draws n ν) := by unfold draws; infer_instance

theorem draws_exchangeable (n : ℕ) (ν : Measure ℝ) [IsProbabilityMeasure ν] : Exchangeable (draws n ν) := by
  intro σ
  have h := (measurePreserving_piCongrLeft (fun _ : Fin (n + 1) => ν) σ.symm).map_eq
  unfold draws
  convert h using 2
  funext x i
  have := MeasurableEquiv.piCongrLeft_apply_apply (β := fun _ : Fin (n + 1) => ℝ) σ.symm x (σ i)
  simpa using this.symm

theorem draws_distinct (n : ℕ) (ν : Measure ℝ) [IsProbabilityMeasure ν] [NullSingletonClass ν] : ∀ᵐ x ∂draws n ν, Function.Injective x := by
  have h : ∀ i j : Fin (n + 1), i ≠ j → ∀ᵐ x ∂draws n ν, x i ≠ x j := by
    intro i j hij
    have hind : iIndepFun (fun (i : Fin (n + 1)) (x : Fin (n + 1) → ℝ) => x i) (draws n ν) :=
      iIndepFun_pi (X := fun _ => id) (fun _ => aemeasurable_id)
    have hp := (indepFun_iff_map_prod_eq_prod_map_map (measurable_pi_apply i).aemeasurable (measurable_pi_apply j).aemeasurable).1 (hind.indepFun hij)
    have hmap : ∀ k : Fin (n + 1), (draws n ν).map (fun x => x k) = ν := fun k => (measurePreserving_eval (fun _ : Fin (n + 1) => ν) k).map_eq
    rw [hmap, hmap] at hp
    have hd : MeasurableSet {z : ℝ × ℝ | z.1 = z.2} := measurableSet_eq_fun measurable_fst measurable_snd
    have h0 : (ν.prod ν) {z : ℝ × ℝ | z.1 = z.2} = 0 := by
      rw [Measure.prod_apply hd]
      have : ∀ a : ℝ, Prod.mk a ⁻¹' {z : ℝ × ℝ | z.1 = z.2} = {a} := by
        intro a
        ext b
        simp [eq_comm]
      simp [this]
    rw [← hp, Measure.map_apply ((measurable_pi_apply i).prodMk (measurable_pi_apply j)) hd] at h0
    rw [ae_iff]
    simpa using h0
  have hall : ∀ᵐ x ∂draws n ν, ∀ i j : Fin (n + 1), i ≠ j → x i ≠ x j := by
    rw [ae_all_iff]
    intro i
    rw [ae_all_iff]
    intro j
    by_cases hij : i = j
    · exact Filter.Eventually.of_forall fun x h => absurd hij h
    · exact (h i j hij).mono fun x hx _ => hx
  exact hall.mono fun x hx i j hxy => by
    by_contra hne
    exact hx i j hne hxy

/-! ### The property -/

/-- **C143 (level).**  If the model is correct, a test that rejects when the reported p-value is at most `α` rejects with probability at most `(⌊α n⌋ + 1) / (n + 1)`, hence at most
`α + 1 / (n + 1)`, `n` being the number of simulations - whatever the statistic and its distribution, ties included.  Missing with respect to C143: the extra `1 / (n + 1)`, see
`C143_level_refuted`. -/
theorem C143_level_partial {n : ℕ} (hn : 0 < n) (P : Measure (Fin (n + 1) → ℝ)) [IsProbabilityMeasure P] (hP : Exchangeable P) (α : ℝ) (hα : 0 ≤ α) :
    P.real {x | Rejects α x} ≤ ((⌊α * n⌋₊ : ℝ) + 1) / (n + 1) ∧ P.real {x | Rejects α x} ≤ α + 1 / (n + 1) := by
  have h1 : {x : Fin (n + 1) → ℝ | Rejects α x} = {x | above x 0 ≤ ⌊α * n⌋₊} := by
    ext x
    exact rejects_iff hn hα x
  rw [h1]
  have h2 := prob_le hP ⌊α * n⌋₊
  refine ⟨h2, h2.trans ?_⟩
  have h3 : (⌊α * n⌋₊ : ℝ) ≤ α * n := Nat.floor_le (by positivity)
  have hn1 : (0 : ℝ) < (n : ℝ) + 1 := by positivity
  rw [div_le_iff₀ hn1, add_mul, one_div, inv_mul_cancel₀ hn1.ne']
  nlinarith

/-- **C143 (exact).**  If two of the statistics are never equal, the probability is exactly `(⌊α n⌋ + 1) / (n + 1)`: for `α = k / n` the test rejects in `k + 1` of `n + 1` cases. -/
theorem C143_exact {n : ℕ} (hn : 0 < n) (P : Measure (Fin (n + 1) → ℝ)) [IsProbabilityMeasure P] (hP : Exchangeable P)
    (hd : ∀ᵐ x ∂P, Function.Injective x) (α : ℝ) (hα : 0 ≤ α) (hα1 : α ≤ 1) : P.real {x | Rejects α x} = ((⌊α * n⌋₊ : ℝ) + 1) / (n + 1) := by
  have h1 : {x : Fin (n + 1) → ℝ | Rejects α x} = {x | above x 0 ≤ ⌊α * n⌋₊} := by
    ext x
    exact rejects_iff hn hα x
  rw [h1]
  apply prob_eq hP hd
  have : (⌊α * n⌋₊ : ℝ) ≤ n := (Nat.floor_le (by positivity)).trans (mul_le_of_le_one_left (by positivity) hα1)
  exact_mod_cast this

/-- **C143 is false** as stated: with independent draws from any distribution without atoms and any number of simulations, a p-value of 0 is reported for a correct model with probability
`1 / (n + 1)`, so every test at a level below that rejects too often. -/
theorem C143_level_refuted {n : ℕ} (hn : 0 < n) (ν : Measure ℝ) [IsProbabilityMeasure ν] [NullSingletonClass ν] (α : ℝ) (hα : 0 ≤ α) (h : α < 1 / (n + 1)) :
    (draws n ν).real {x | Rejects α x} = 1 / (n + 1) ∧ α < (draws n ν).real {x | Rejects α x} := by
  have hn' : (0 : ℝ) < n := by exact_mod_cast hn
  have hn1 : (0 : ℝ) < (n : ℝ) + 1 := by positivity
  have h0 : ⌊α * n⌋₊ = 0 := by
    rw [Nat.floor_eq_zero]
    rw [lt_div_iff₀ hn1] at h
    nlinarith
  have hle : α ≤ 1 := h.le.trans (by rw [div_le_one hn1]; linarith)
  have he := C143_exact hn (draws n ν) (draws_exchangeable n ν) (draws_distinct n ν) α hα hle
  rw [h0] at he
  simp only [Nat.cast_zero, zero_add] at he
  exact ⟨he, by rw [he]; exact h⟩

/-- **C143 (independence of the number of simulations).**  As the number of simulations grows, the probability to reject a correct model tends to the level asked for. -/
theorem C143_limit (ν : Measure ℝ) [IsProbabilityMeasure ν] [NullSingletonClass ν] (α : ℝ) (hα : 0 ≤ α) (hα1 : α ≤ 1) :
    Filter.Tendsto (fun n : ℕ => (draws n ν).real {x | Rejects α x}) Filter.atTop (nhds α) := by
  have hb : ∀ n : ℕ, 0 < n → |(draws n ν).real {x | Rejects α x} - α| ≤ 1 / ((n : ℝ) + 1) := by
    intro n hn
    have hn1 : (0 : ℝ) < (n : ℝ) + 1 := by positivity
    have h1 := (C143_level_partial hn (draws n ν) (draws_exchangeable n ν) α hα).2
    rw [abs_le]
    refine ⟨?_, by linarith⟩
    rw [C143_exact hn (draws n ν) (draws_exchangeable n ν) (draws_distinct n ν) α hα hα1]
    have h2 : α * n < (⌊α * n⌋₊ : ℝ) + 1 := Nat.lt_floor_add_one _
    have h3 : α - 1 / ((n : ℝ) + 1) ≤ ((⌊α * n⌋₊ : ℝ) + 1) / (n + 1) := by
      rw [sub_le_iff_le_add, ← add_div, le_div_iff₀ hn1]
      nlinarith
    linarith
  rw [tendsto_iff_dist_tendsto_zero]
  refine squeeze_zero' (Filter.Eventually.of_forall fun n => dist_nonneg) ?_ tendsto_one_div_add_atTop_nhds_zero_nat
  filter_upwards [Filter.eventually_gt_atTop 0] with n hn
  exact hb n hn

/-- a thousand simulations of a normal statistic: the test "p-value below 5%" rejects a correct model in 51 of 1001 cases -/
example : (draws 1000 (gaussianReal 0 1)).real {x | Rejects 0.05 x} = 51 / 1001 := by
  have : NullSingletonClass (gaussianReal 0 1) := nullSingletonClass_gaussianReal one_ne_zero
  rw [C143_exact (by norm_num) _ (draws_exchangeable _ _) (draws_distinct _ _) 0.05 (by norm_num) (by norm_num)]
  norm_num

/-- and a p-value of 0 is reported once in 1001 cases -/
example : (0 : ℝ) < (draws 1000 (gaussianReal 0 1)).real {x | Rejects 0 x} := by
  have : NullSingletonClass (gaussianReal 0 1) := nullSingletonClass_gaussianReal one_ne_zero
  exact (C143_level_refuted (by norm_num) _ 0 le_rfl (by norm_num)).2

example := C143_level_partial (n := 1000) (by norm_num) (draws 1000 (gaussianReal 0 1)) (draws_exchangeable _ _) 0.05 (by norm_num)

end Elisa.Infer.TestLevel
