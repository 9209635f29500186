import Verif.Plot.ResidualProps
import Mathlib.Probability.Distributions.Poisson.Basic

/-!
# C57: the probability integral transform is a probability of the data under the model
-/

namespace Elisa.Plot

open Elisa Elisa.Infer Elisa.Grouping ProbabilityTheory MeasureTheory

/-- The share of the simulations with a property. -/
noncomputable def share (sim : List ℝ) (P : ℝ → Prop) : ℝ :=
  (Nat.card {i : Fin sim.length // P (sim.get i)} : ℝ) / sim.length

theorem card_eq (sim : List ℝ) (P : ℝ → Prop) [DecidablePred P] :
    Nat.card {i : Fin sim.length // P (sim.get i)} = (sim.filter fun x => decide (P x)).length := by
  rw [Nat.card_eq_fintype_card, Fintype.card_subtype]
  induction sim with
  | nil => simp
  | cons a l ih =>
    have h := Fin.card_filter_univ_succ (n := l.length) (fun i => P ((a :: l).get i))
    simp only [List.get_cons_zero] at h
    refine h.trans ?_
    rw [List.filter_cons]
    have ih' : (Finset.univ.filter fun i : Fin l.length => P ((a :: l).get i.succ)).card = (l.filter fun x => decide (P x)).length := ih
    by_cases ha : P a
    · simp only [ha, decide_true, if_true, List.length_cons]
      rw [ih']
    · simp only [ha, decide_false, if_false, Bool.false_eq_true]
      exact ih'

theorem fracBelow_share (sim : List ℝ) (x : ℝ) : fracBelow sim x = share sim (· ≤ x) := by
  unfold fracBelow share
  rw [card_eq sim (· ≤ x)]

theorem poissonCdf_real (n : ℕ) (lam : NNReal) : poissonCdf n lam = (poissonMeasure lam).real (Set.Iic n) := by
  have h : ¬ ((n : ℝ) < 0) := not_lt.2 (Nat.cast_nonneg n)
  unfold poissonCdf
  rw [if_neg h, Nat.floor_natCast]
  have e : Set.Iic n = ((Finset.range (n + 1) : Finset ℕ) : Set ℕ) := by
    ext i; simp
  rw [e, ← sum_measureReal_singleton]
  exact Finset.sum_congr rfl fun i _ => (poissonMeasure_real_singleton lam i).symm

/-- **C57** (counts).  For `cstat` and `pstat` the lower value of the transform is the probability that a Poisson variable with the expected
counts is below the data, and the upper value is the probability that it does not exceed them. -/
theorem C57_poisson (stat : Stat) (hs : stat = .cstat ∨ stat = .pstat) (sim : List ℝ) (n : ℕ) (v err ratio : ℝ) (lam : NNReal) :
    pit stat sim n v lam err ratio = ((poissonMeasure lam).real (Set.Iio n), (poissonMeasure lam).real (Set.Iic n)) := by
  have key : pitPoisson n lam = ((poissonMeasure lam).real (Set.Iio n), (poissonMeasure lam).real (Set.Iic n)) := by
    refine Prod.ext ?_ (poissonCdf_real n lam)
    show poissonCdf ((n : ℝ) - 1) lam = _
    cases n with
    | zero =>
      have : Set.Iio (0 : ℕ) = ∅ := by ext; simp
      rw [this]
      simp [poissonCdf]
    | succ m =>
      have e : ((m + 1 : ℕ) : ℝ) - 1 = (m : ℝ) := by push_cast; ring
      have e2 : Set.Iio (m + 1) = Set.Iic m := by ext i; simp
      rw [e, e2]
      exact poissonCdf_real m lam
  rcases hs with rfl | rfl <;> exact key

/-- **C57** (Gaussian data).  For `chi2` both values are the probability that a Gaussian variable with the expected counts as mean and the
error as standard deviation does not exceed the data. -/
theorem C57_gauss (sim : List ℝ) (k v lam ratio : ℝ) (err : NNReal) (he : 0 < err) :
    pit .chi2 sim k v lam err ratio =
      ((gaussianReal lam (err ^ 2)).real (Set.Iic k), (gaussianReal lam (err ^ 2)).real (Set.Iic k)) := by
  have hm : gaussianReal lam (err ^ 2) = (gaussianReal 0 1).map (fun x => (err : ℝ) * x + lam) := by
    have h1 := gaussianReal_map_const_mul (μ := 0) (v := 1) (err : ℝ)
    have e : (fun x : ℝ => (err : ℝ) * x + lam) = (fun x => x + lam) ∘ (fun x => (err : ℝ) * x) := rfl
    rw [e, ← Measure.map_map (by fun_prop) (by fun_prop), h1, gaussianReal_map_add_const]
    congr 1
    · ring
    · ext; simp
  have key : (gaussianReal lam (err ^ 2)).real (Set.Iic k) = 1 - normSf ((k - lam) / err) := by
    rw [hm, map_measureReal_apply (by fun_prop) measurableSet_Iic]
    have e : (fun x : ℝ => (err : ℝ) * x + lam) ⁻¹' Set.Iic k = Set.Iic ((k - lam) / err) := by
      ext x
      have he' : (0 : ℝ) < err := he
      simp only [Set.mem_preimage, Set.mem_Iic, le_div_iff₀ he']
      constructor <;> intro h <;> linarith
    rw [e]
    have h2 : normSf ((k - lam) / err) = 1 - (gaussianReal 0 1).real (Set.Iic ((k - lam) / err)) := by
      unfold normSf
      rw [← Set.compl_Iic, probReal_compl_eq_one_sub measurableSet_Iic]
    linarith
  rw [key]
  rfl

/-- **C57** (simulated data).  For `pgstat` both values are the share of the simulations that do not exceed the net counts; for `wstat` this is the
upper value, and the lower value is at most the share of the simulations below the net counts. -/
theorem C57_share (sim : List ℝ) (k v lam err ratio : ℝ) (hr : 0 < ratio) :
    pit .pgstat sim k v lam err ratio = (share sim (· ≤ k - ratio * v), share sim (· ≤ k - ratio * v)) ∧
    (pit .wstat sim k v lam err ratio).2 = share sim (· ≤ k - ratio * v) ∧
    (pit .wstat sim k v lam err ratio).1 ≤ share sim (· < k - ratio * v) := by
  refine ⟨?_, fracBelow_share _ _, ?_⟩
  · show (fracBelow _ _, fracBelow _ _) = _
    rw [fracBelow_share]
  · show fracBelow _ _ ≤ _
    rw [fracBelow_share]
    unfold share
    apply div_le_div_of_nonneg_right _ (Nat.cast_nonneg _)
    rw [card_eq sim (· ≤ max (k - 1 - ratio * v) (k - ratio * (v + 1))), card_eq sim (· < k - ratio * v)]
    have hlt : max (k - 1 - ratio * v) (k - ratio * (v + 1)) < k - ratio * v := max_lt (by linarith) (by linarith)
    exact_mod_cast List.Sublist.length_le (List.monotone_filter_right sim (by
      intro x hx
      simp only [decide_eq_true_eq] at hx ⊢
      linarith))

/-- **C57** (refuted: data below the observed ones).  For `wstat` the lower value is not the share of the simulations below the net
counts: simulated net counts less than one count, or one background count, below the data are left out. -/
theorem C57_wstat_lower_refuted : ∃ (sim : List ℝ) (k v ratio : ℝ) (a b : ℕ), 0 < ratio ∧ sim = [a - ratio * b] ∧
    (pit .wstat sim k v 3 1 ratio).1 = 0 ∧ share sim (· < k - ratio * v) = 1 := by
  refine ⟨[4 - 0.7 * 4], 3, 2, 0.7, 4, 4, by norm_num, by norm_num, ?_, ?_⟩
  · simp only [pit, pitPoissonPoisson, fracBelow]
    norm_num
  · unfold share
    rw [card_eq _ (· < 3 - 0.7 * 2)]
    norm_num

example : pit .cstat [] (3 : ℕ) 0 (2.5 : NNReal) 1 1 = ((poissonMeasure 2.5).real (Set.Iio 3), (poissonMeasure 2.5).real (Set.Iic 3)) :=
  C57_poisson .cstat (Or.inl rfl) [] 3 0 1 1 2.5

example : (pit .chi2 [] 7 0 5 (2 : NNReal) 1).1 = (gaussianReal 5 (2 ^ 2)).real (Set.Iic 7) := by
  rw [C57_gauss [] 7 0 5 1 2 (by norm_num)]

example : (pit .wstat [0.5, 1, 2, 1.6] 3 2 3 1 0.7).2 = share [0.5, 1, 2, 1.6] (· ≤ 3 - 0.7 * 2) :=
  (C57_share [0.5, 1, 2, 1.6] 3 2 3 1 0.7 (by norm_num)).2.1

end Elisa.Plot
