import Verif.Infer.LooPit
import Verif.Infer.IntensityProps
import Mathlib.Tactic.Linarith
import Mathlib.Tactic.FieldSimp

/-!
# C83: the leave-one-out transform

Specification: `below sims y` is the weight of the simulated values strictly below `y` (the probability of a smaller observation).
-/

namespace Elisa.Infer

open Elisa

/-- The weight of the simulations strictly below `y`. -/
noncomputable def below (sims : List (ℝ × ℝ)) (y : ℝ) : ℝ := ((sims.filter fun s => decide (s.2 < y)).map (·.1)).sum

/-- The weight of the simulations not above `y`. -/
noncomputable def upTo (sims : List (ℝ × ℝ)) (y : ℝ) : ℝ := ((sims.filter fun s => decide (s.2 ≤ y)).map (·.1)).sum

/-- Normalised importance weights. -/
structure Weighted (sims : List (ℝ × ℝ)) : Prop where
  nonneg : ∀ s ∈ sims, 0 ≤ s.1
  total : (sims.map (·.1)).sum = 1

theorem filter_sum_mono (sims : List (ℝ × ℝ)) (hw : ∀ s ∈ sims, 0 ≤ s.1) (p q : ℝ × ℝ → Bool) (hpq : ∀ s ∈ sims, p s = true → q s = true) :
    ((sims.filter p).map (·.1)).sum ≤ ((sims.filter q).map (·.1)).sum := by
  induction sims with
  | nil => simp
  | cons x t ih =>
    have ih' := ih (fun s hs => hw s (by simp [hs])) fun s hs => hpq s (by simp [hs])
    have h0 := hw x (by simp)
    by_cases hp : p x = true
    · have hq := hpq x (by simp) hp
      rw [List.filter_cons_of_pos hp, List.filter_cons_of_pos hq]
      simp only [List.map_cons, List.sum_cons]; linarith
    · by_cases hq : q x = true
      · rw [List.filter_cons_of_neg hp, List.filter_cons_of_pos hq]
        simp only [List.map_cons, List.sum_cons]; linarith
      · rw [List.filter_cons_of_neg hp, List.filter_cons_of_neg hq]; exact ih'

theorem filter_sum_le_one (sims : List (ℝ × ℝ)) (h : Weighted sims) (p : ℝ × ℝ → Bool) : ((sims.filter p).map (·.1)).sum ≤ 1 := by
  have := filter_sum_mono sims h.nonneg p (fun _ => true) (by simp)
  rw [List.filter_true, h.total] at this
  exact this

theorem filter_sum_nonneg (sims : List (ℝ × ℝ)) (h : Weighted sims) (p : ℝ × ℝ → Bool) : 0 ≤ ((sims.filter p).map (·.1)).sum := by
  have := filter_sum_mono sims h.nonneg (fun _ => false) p (by simp)
  simpa using this

theorem looPit_eq (sims : List (ℝ × ℝ)) (h : Weighted sims) (y : ℝ) : looPit sims y = upTo sims y :=
  min_eq_right (filter_sum_le_one sims h _)

/-- The smaller value is below the observed one, or equal for a continuous statistic. -/
theorem minus_lt (stat : PitStat) (c : PitChannel) (hu : 0 < c.unit) (hr : 0 < c.ratio) :
    observedMinus stat c ≤ observed stat c ∧
    (stat = .cstat ∨ stat = .pstat ∨ stat = .wstat → observedMinus stat c < observed stat c) := by
  have hmax : max ((c.spec - 1) - c.ratio * c.back) (c.spec - c.ratio * (c.back + 1)) < c.spec - c.ratio * c.back :=
    max_lt (by linarith) (by nlinarith)
  cases stat <;> simp only [observedMinus, observed, netValue]
  · simp
  · refine ⟨by nlinarith, fun _ => by nlinarith⟩
  · refine ⟨by nlinarith, fun _ => by nlinarith⟩
  · exact ⟨(mul_lt_mul_of_pos_right hmax hu).le, fun _ => mul_lt_mul_of_pos_right hmax hu⟩
  · simp

/-- **C83 (the pair brackets the transform).**  For every statistic, data, simulations and weights: the stored pair lies in `[0, 1]`, its upper end is
the weight of the simulations not above the observation, and its lower end never exceeds the weight of those strictly below it. -/
theorem C83_bracket (stat : PitStat) (c : PitChannel) (hu : 0 < c.unit) (hr : 0 < c.ratio) (sims : List (ℝ × ℝ)) (h : Weighted sims) :
    0 ≤ (pitPair stat c sims).1 ∧ (pitPair stat c sims).2 ≤ 1 ∧ (pitPair stat c sims).2 = upTo sims (observed stat c) ∧
    (pitPair stat c sims).1 ≤ (pitPair stat c sims).2 ∧
    (stat = .cstat ∨ stat = .pstat ∨ stat = .wstat → (pitPair stat c sims).1 ≤ below sims (observed stat c)) ∧
    below sims (observed stat c) ≤ (pitPair stat c sims).2 := by
  unfold pitPair
  simp only [looPit_eq sims h]
  obtain ⟨h1, h2⟩ := minus_lt stat c hu hr
  refine ⟨filter_sum_nonneg sims h _, filter_sum_le_one sims h _, trivial, ?_, ?_, ?_⟩
  · exact filter_sum_mono sims h.nonneg _ _ fun s _ hs => by simp only [decide_eq_true_eq] at *; linarith
  · intro hd
    exact filter_sum_mono sims h.nonneg _ _ fun s _ hs => by
      simp only [decide_eq_true_eq] at *; linarith [h2 hd]
  · exact filter_sum_mono sims h.nonneg _ _ fun s _ hs => by simp only [decide_eq_true_eq] at *; linarith

example := C83_bracket .wstat ⟨5, 3, 1 / 5, 1⟩ (by norm_num) (by norm_num) [(1 / 4, 4), (3 / 4, 5)]
  ⟨by intro s hs; simp at hs; rcases hs with rfl | rfl <;> norm_num, by norm_num⟩

/-- Simulated counts of a discrete statistic: whole numbers. -/
def SimOf (stat : PitStat) (c : PitChannel) (s : ℝ × ℝ) : Prop := ∃ on off : ℤ, s.2 = netValue stat c on off

theorem lower_exact (stat : PitStat) (c : PitChannel) (sims : List (ℝ × ℝ)) (h : Weighted sims)
    (hx : ∀ s ∈ sims, s.2 ≤ observedMinus stat c ↔ s.2 < observed stat c) :
    (pitPair stat c sims).1 = below sims (observed stat c) := by
  unfold pitPair below
  simp only [looPit_eq sims h, upTo]
  congr 2
  exact List.filter_congr fun s hs => by simp [hx s hs]

/-- **C83 (Poisson counts).**  For `cstat` and `pstat` with whole observed counts the lower end is exactly the weight of the simulations strictly
below the observation, so the pair is exactly the jump of the predictive distribution there. -/
theorem C83_poisson (stat : PitStat) (hs : stat = .cstat ∨ stat = .pstat) (c : PitChannel) (hu : 0 < c.unit) (n : ℤ) (hn : c.spec = n)
    (sims : List (ℝ × ℝ)) (h : Weighted sims) (hsim : ∀ s ∈ sims, SimOf stat c s) :
    pitPair stat c sims = (below sims (observed stat c), upTo sims (observed stat c)) := by
  have hx : ∀ s ∈ sims, s.2 ≤ observedMinus stat c ↔ s.2 < observed stat c := by
    intro s hsm
    obtain ⟨on, off, hv⟩ := hsim s hsm
    have key : ((on : ℝ) ≤ n - 1 ↔ (on : ℝ) < n) := by
      constructor
      · intro h; linarith
      · intro h
        have : on < n := by exact_mod_cast h
        have : (on : ℝ) + 1 ≤ n := by exact_mod_cast this
        linarith
    rw [hv]
    rcases hs with rfl | rfl <;> simp only [observedMinus, observed, netValue, hn, mul_le_mul_iff_of_pos_right hu,
      mul_lt_mul_iff_of_pos_right hu, key]
  have h2 : (pitPair stat c sims).2 = upTo sims (observed stat c) := looPit_eq sims h _
  rw [← lower_exact stat c sims h hx, ← h2]

example := C83_poisson .cstat (.inl rfl) ⟨5, 3, 1 / 5, 1⟩ (by norm_num) 5 (by norm_num) [(1 / 4, 4), (3 / 4, 5)]
  ⟨by intro s hs; simp at hs; rcases hs with rfl | rfl <;> norm_num, by norm_num⟩ (by
    intro s hs
    simp at hs
    rcases hs with rfl | rfl
    · exact ⟨4, 0, by norm_num [netValue]⟩
    · exact ⟨5, 0, by norm_num [netValue]⟩)

/-- **C83 (Poisson counts with Poisson background, part that holds).**  For `wstat` with whole counts the same is true if the exposure ratio or its
inverse is a whole number.  Missing: other ratios (`C83_wstat_refuted`). -/
theorem C83_wstat_partial (c : PitChannel) (hu : 0 < c.unit) (n m : ℤ) (hn : c.spec = n) (hm : c.back = m) (k : ℕ) (hk : 0 < k)
    (hr : c.ratio = k ∨ c.ratio = 1 / k) (sims : List (ℝ × ℝ)) (h : Weighted sims) (hsim : ∀ s ∈ sims, SimOf .wstat c s) :
    pitPair .wstat c sims = (below sims (observed .wstat c), upTo sims (observed .wstat c)) := by
  have hk' : (0 : ℝ) < k := by exact_mod_cast hk
  have hk1 : (1 : ℝ) ≤ k := by exact_mod_cast hk
  have hx : ∀ s ∈ sims, s.2 ≤ observedMinus .wstat c ↔ s.2 < observed .wstat c := by
    intro s hsm
    obtain ⟨on, off, hv⟩ := hsim s hsm
    rw [hv]
    simp only [observedMinus, observed, netValue, hn, hm, mul_le_mul_iff_of_pos_right hu, mul_lt_mul_iff_of_pos_right hu]
    rcases hr with hr | hr
    · rw [hr]
      have hmax : max ((n : ℝ) - 1 - k * m) (n - k * (m + 1)) = n - 1 - k * m := max_eq_left (by nlinarith)
      rw [hmax]
      constructor
      · intro h; linarith
      · intro h
        have : on - k * off < n - k * m := by exact_mod_cast h
        have : ((on - k * off : ℤ) : ℝ) + 1 ≤ ((n - k * m : ℤ) : ℝ) := by exact_mod_cast this
        push_cast at this
        linarith
    · rw [hr]
      have hmax : max ((n : ℝ) - 1 - 1 / k * m) (n - 1 / k * (m + 1)) = n - 1 / k * (m + 1) := by
        apply max_eq_right
        have : (1 : ℝ) / k ≤ 1 := by rw [div_le_one hk']; exact hk1
        nlinarith
      rw [hmax]
      have e1 : (on : ℝ) - 1 / k * off = (k * on - off) / k := by field_simp
      have e2 : (n : ℝ) - 1 / k * (m + 1) = (k * n - m - 1) / k := by field_simp; ring
      have e3 : (n : ℝ) - 1 / k * m = (k * n - m) / k := by field_simp
      rw [e1, e2, e3, div_le_div_iff_of_pos_right hk', div_lt_div_iff_of_pos_right hk']
      constructor
      · intro h; linarith
      · intro h
        have : (k : ℤ) * on - off < k * n - m := by exact_mod_cast h
        have : (((k : ℤ) * on - off : ℤ) : ℝ) + 1 ≤ (((k : ℤ) * n - m : ℤ) : ℝ) := by exact_mod_cast this
        push_cast at this
        linarith
  have h2 : (pitPair .wstat c sims).2 = upTo sims (observed .wstat c) := looPit_eq sims h _
  rw [← lower_exact .wstat c sims h hx, ← h2]

example := C83_wstat_partial ⟨5, 3, 1 / 5, 1⟩ (by norm_num) 5 3 (by norm_num) (by norm_num) 5 (by norm_num) (.inr (by norm_num))
  [(1 / 4, 4), (3 / 4, 22 / 5)] ⟨by intro s hs; simp at hs; rcases hs with rfl | rfl <;> norm_num, by norm_num⟩ (by
    intro s hs
    simp at hs
    rcases hs with rfl | rfl
    · exact ⟨4, 0, by norm_num [netValue]⟩
    · exact ⟨5, 3, by norm_num [netValue]⟩)

/-- **C83 (`wstat`, refuted).**  For a ratio of `3/10` the value used as "the next smaller observation" is not the next smaller one: five counts with
background three (net 4.1) have 3.8 as lower value, although four counts without background give 4.0; the weight of such simulations is in neither
end. -/
theorem C83_wstat_refuted : ∃ (c : PitChannel) (sims : List (ℝ × ℝ)), 0 < c.unit ∧ Weighted sims ∧ (∀ s ∈ sims, SimOf .wstat c s) ∧
    c.spec = (5 : ℤ) ∧ c.back = (3 : ℤ) ∧ (pitPair .wstat c sims).1 = 0 ∧ below sims (observed .wstat c) = 1 := by
  have hv : netValue .wstat ⟨5, 3, 3 / 10, 1⟩ 4 0 = 4 := by norm_num [netValue]
  refine ⟨⟨5, 3, 3 / 10, 1⟩, [(1, 4)], by norm_num, ⟨by simp, by simp⟩, ?_, by norm_num, by norm_num, ?_, ?_⟩
  · intro s hs
    simp only [List.mem_singleton] at hs
    subst hs
    exact ⟨4, 0, by push_cast; rw [hv]⟩
  · have : ¬ ((4 : ℝ) ≤ observedMinus .wstat ⟨5, 3, 3 / 10, 1⟩) := by norm_num [observedMinus]
    simp [pitPair, looPit, this]
  · have : (4 : ℝ) < observed .wstat ⟨5, 3, 3 / 10, 1⟩ := by norm_num [observed, netValue]
    simp [below, this]

example : ∃ c : PitChannel, 0 < c.unit ∧ c.ratio = 1 / (5 : ℕ) ∧ SimOf .wstat c (1, netValue .wstat c (7 : ℤ) (3 : ℤ)) :=
  ⟨⟨5, 3, 1 / 5, 1⟩, by norm_num, by norm_num, 7, 3, rfl⟩

/-- A simulated or observed channel value that the transform compares: net counts with a background to subtract, counts without. -/
def Compared (stat : PitStat) (c : PitChannel) (on off : ℝ) : ℝ :=
  if stat = .wstat ∨ stat = .pgstat then on - c.ratio * off else on

/-- What is observed: net counts for `chi2`, `wstat` and `pgstat`, counts for `cstat` and `pstat`. -/
def ComparedTo (stat : PitStat) (c : PitChannel) : ℝ :=
  if stat = .cstat ∨ stat = .pstat then c.spec else c.spec - c.ratio * c.back

/-- **C83 (what is compared).**  For simulated counts `(on, off)` with weights, the upper end of the pair is the weight of the simulations whose net
counts (`chi2`: simulated net counts; `cstat`, `pstat`: counts) do not exceed the observed ones. -/
theorem C83_compared (stat : PitStat) (c : PitChannel) (hu : 0 < c.unit) (draws : List (ℝ × ℝ × ℝ))
    (h : Weighted (draws.map fun d => (d.1, netValue stat c d.2.1 d.2.2))) :
    (pitPair stat c (draws.map fun d => (d.1, netValue stat c d.2.1 d.2.2))).2 =
      ((draws.filter fun d => decide (Compared stat c d.2.1 d.2.2 ≤ ComparedTo stat c)).map (·.1)).sum := by
  show looPit _ _ = _
  rw [looPit_eq _ h, upTo, List.filter_map, List.map_map]
  congr 2
  apply List.filter_congr
  intro d _
  cases stat <;> simp only [Function.comp, observed, netValue, Compared, ComparedTo, mul_le_mul_iff_of_pos_right hu] <;> simp

example : ∃ c : PitChannel, 0 < c.unit ∧ Weighted (([(0.25, 7, 3), (0.75, 2, 1)] : List (ℝ × ℝ × ℝ)).map fun d => (d.1, netValue .pgstat c d.2.1 d.2.2)) :=
  ⟨⟨5, 3, 1 / 5, 1⟩, by norm_num, by intro s hs; simp at hs; rcases hs with rfl | rfl <;> norm_num, by norm_num⟩

/-- **C83 (expectations).**  The leave-one-out expectation of any quantity, of any sign and also zero, is its weighted mean. -/
theorem C83_expectation (draws : List (ℝ × ℝ)) : looExpectation draws = (draws.map fun d => Real.exp d.1 * d.2).sum := by
  unfold looExpectation
  congr 1
  apply List.map_congr_left
  intro d _
  rcases lt_trichotomy d.2 0 with h | h | h
  · rw [Real.sign_of_neg h, Real.exp_add, abs_of_neg h, Real.exp_log (by linarith)]; ring
  · rw [h]; simp
  · rw [Real.sign_of_pos h, Real.exp_add, abs_of_pos h, Real.exp_log h]; ring

example : looExpectation [(0, -3), (1, 0)] = -3 := by rw [C83_expectation]; simp

/-- **C83 (right data set).**  Provided all channel labels are distinct, the values selected for a data set from the array of all channels are its own
values, in its own order, whatever the order of the data sets. -/
theorem C83_own_channels {A : Type} (before own after : List (String × A))
    (h : ((before ++ own ++ after).map (·.1)).Nodup) :
    selChannels (before ++ own ++ after) (own.map (·.1)) = .ok (own.map (·.2)) := by
  unfold selChannels
  rw [List.mapM_map]
  apply mapM_map
  intro x hx
  show dictGet (before ++ own ++ after) x.1 = .ok x.2
  have hd := dictOf_nodup _ h
  have hl := dictOf_get (before ++ own ++ after) x.1 x.2 (List.mem_map.2 ⟨x, by simp [hx], rfl⟩) (by
    intro p hp he
    have := List.inj_on_of_nodup_map h hp (by simp [hx] : x ∈ before ++ own ++ after) he
    rw [this])
  rw [hd] at hl
  unfold dictGet
  rw [hl]

example : selChannels [("A_1", 1), ("A_2", 2), ("B_1", 3)] ["A_1", "A_2"] = .ok [1, 2] := by decide

end Elisa.Infer
