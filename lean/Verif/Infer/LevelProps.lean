import Verif.Infer.Level
import Mathlib.Tactic.Linarith
import Mathlib.Tactic.NormNum
import Mathlib.Tactic.Ring
import Mathlib.Probability.CDF

/-!
# C48: confidence levels and equal-tailed intervals
-/

namespace Elisa.Infer

open Elisa MeasureTheory ProbabilityTheory

/-! ## Helper lemmas: the normal distribution -/

/-- The standard normal distribution. -/
noncomputable abbrev stdNormal : Measure ℝ := gaussianReal 0 1

theorem stdNormal_pos {s : Set ℝ} (hs : IsOpen s) (hne : s.Nonempty) : 0 < stdNormal.real s := by
  have h0 : stdNormal s ≠ 0 := by
    intro h
    have := gaussianReal_absolutelyContinuous' (0 : ℝ) (v := 1) one_ne_zero h
    exact (hs.measure_pos volume hne).ne' this
  exact ENNReal.toReal_pos h0 (measure_ne_top _ _)

theorem stdNormal_neg (s : Set ℝ) (hs : MeasurableSet s) : stdNormal.real (Neg.neg ⁻¹' s) = stdNormal.real s := by
  have h : stdNormal.map (fun x => -x) = stdNormal := by
    have := gaussianReal_map_neg (μ := (0 : ℝ)) (v := 1)
    rwa [neg_zero] at this
  have h2 : stdNormal.map (fun x => -x) s = stdNormal ((fun x => -x) ⁻¹' s) :=
    Measure.map_apply measurable_neg hs
  rw [h] at h2
  unfold Measure.real
  rw [h2]

theorem stdNormal_singleton (c : ℝ) : stdNormal {c} = 0 := by
  haveI := nullSingletonClass_gaussianReal (μ := (0 : ℝ)) (v := 1) one_ne_zero
  exact measure_singleton c

theorem normSf_lower (c : ℝ) : stdNormal.real (Set.Iio (-c)) = normSf c := by
  have := stdNormal_neg (Set.Ioi c) measurableSet_Ioi
  rw [normSf, ← this]
  congr 1
  ext x
  simp only [Set.mem_Iio, Set.mem_preimage, Set.mem_Ioi]
  constructor <;> intro h <;> linarith

/-- `1 - 2 sf(c)` is the probability of `[-c, c]`. -/
theorem central_prob {c : ℝ} (hc : 0 ≤ c) : 1 - 2 * normSf c = stdNormal.real (Set.Icc (-c) c) := by
  have hcompl : (Set.Icc (-c) c)ᶜ = Set.Iio (-c) ∪ Set.Ioi c := by
    ext x
    simp only [Set.mem_compl_iff, Set.mem_Icc, Set.mem_union, Set.mem_Iio, Set.mem_Ioi]
    constructor
    · intro h
      by_contra h'
      push Not at h'
      exact h ⟨h'.1, h'.2⟩
    · rintro (h | h) ⟨h1, h2⟩ <;> linarith
  have h1 : stdNormal.real (Set.Icc (-c) c)ᶜ = 1 - stdNormal.real (Set.Icc (-c) c) :=
    probReal_compl_eq_one_sub measurableSet_Icc
  have h2 : stdNormal.real (Set.Iio (-c) ∪ Set.Ioi c) = stdNormal.real (Set.Iio (-c)) + stdNormal.real (Set.Ioi c) := by
    apply measureReal_union _ measurableSet_Ioi
    rw [Set.disjoint_left]
    intro x hx hx'
    simp only [Set.mem_Iio, Set.mem_Ioi] at hx hx'
    linarith
  rw [hcompl, h2, normSf_lower] at h1
  change normSf c + normSf c = _ at h1
  linarith

theorem normSf_strictAnti : StrictAnti normSf := by
  intro a b hab
  have h : Set.Ioi a = Set.Ioc a b ∪ Set.Ioi b := (Set.Ioc_union_Ioi_eq_Ioi hab.le).symm
  have h2 : stdNormal.real (Set.Ioi a) = stdNormal.real (Set.Ioc a b) + stdNormal.real (Set.Ioi b) := by
    rw [h]
    apply measureReal_union _ measurableSet_Ioi
    rw [Set.disjoint_left]
    intro x hx hx'
    exact absurd hx.2 (not_le.2 hx')
  have h3 : 0 < stdNormal.real (Set.Ioc a b) :=
    lt_of_lt_of_le (stdNormal_pos isOpen_Ioo (Set.nonempty_Ioo.2 hab))
      (measureReal_mono Set.Ioo_subset_Ioc_self)
  change stdNormal.real (Set.Ioi b) < stdNormal.real (Set.Ioi a)
  linarith

theorem normSf_pos (c : ℝ) : 0 < normSf c := stdNormal_pos isOpen_Ioi Set.nonempty_Ioi

theorem central_pos {c : ℝ} (hc : 0 < c) : 0 < 1 - 2 * normSf c := by
  rw [central_prob hc.le]
  exact lt_of_lt_of_le (stdNormal_pos isOpen_Ioo (Set.nonempty_Ioo.2 (by linarith)))
    (measureReal_mono Set.Ioo_subset_Icc_self)

/-- The tail probability becomes arbitrarily small. -/
theorem normSf_small (ε : ℝ) (hε : 0 < ε) : ∃ c, 1 ≤ c ∧ normSf c < ε := by
  have h := tendsto_cdf_atTop stdNormal
  have h1 : ∀ᶠ c in Filter.atTop, 1 - ε < cdf stdNormal c := h.eventually_const_lt (by linarith)
  obtain ⟨c, hc1, hc2⟩ := (h1.and (Filter.eventually_ge_atTop 1)).exists
  refine ⟨c, hc2, ?_⟩
  rw [cdf_eq_real] at hc1
  have h2 : stdNormal.real (Set.Iic c)ᶜ = 1 - stdNormal.real (Set.Iic c) :=
    probReal_compl_eq_one_sub measurableSet_Iic
  rw [Set.compl_Iic] at h2
  change stdNormal.real (Set.Ioi c) < ε
  linarith

/-! ## C48: levels -/

/-- **C48**, levels (exact arithmetic): a level that is not positive is refused; a level below 1 is a
probability and kept; a level `cl ≥ 1` becomes the probability that a standard normal variable lies within
`cl` standard deviations.  The result is strictly between 0 and 1, grows strictly with the number of standard
deviations, and converting it again changes nothing. -/
theorem C48_level (cl : ℝ) :
    (cl ≤ 0 → toUnitCl id cl = .error .valueError) ∧
    (0 < cl → cl < 1 → toUnitCl id cl = .ok cl) ∧
    (1 ≤ cl → toUnitCl id cl = .ok ((gaussianReal 0 1).real (Set.Icc (-cl) cl))) ∧
    (∀ p, toUnitCl id cl = .ok p → 0 < p ∧ p < 1 ∧ toUnitCl id p = .ok p) ∧
    (∀ cl' p p', 1 ≤ cl → cl < cl' → toUnitCl id cl = .ok p → toUnitCl id cl' = .ok p' → p < p') := by
  have hs : 1 ≤ cl → toUnitCl id cl = .ok (1 - 2 * normSf cl) := fun h => by
    unfold toUnitCl; rw [if_neg (by linarith), if_neg (by linarith)]; rfl
  have hu : 0 < cl → cl < 1 → toUnitCl id cl = .ok cl := fun h h' => by
    unfold toUnitCl; rw [if_neg (by linarith), if_pos h']
  have h0 : cl ≤ 0 → toUnitCl id cl = .error .valueError := fun h => by
    unfold toUnitCl; rw [if_pos h]
  refine ⟨h0, hu, fun h => by rw [hs h, central_prob (by linarith)], ?_, ?_⟩
  · intro p hp
    have hp01 : 0 < p ∧ p < 1 := by
      rcases le_or_gt cl 0 with h | h
      · rw [h0 h] at hp; cases hp
      · rcases lt_or_ge cl 1 with h1 | h1
        · rw [hu h h1] at hp; cases hp; exact ⟨h, h1⟩
        · rw [hs h1] at hp; cases hp
          exact ⟨central_pos (by linarith), by linarith [normSf_pos cl]⟩
    refine ⟨hp01.1, hp01.2, ?_⟩
    unfold toUnitCl; rw [if_neg (by linarith [hp01.1]), if_pos hp01.2]
  · intro cl' p p' h1 hlt hp hp'
    rw [hs h1] at hp
    have : toUnitCl id cl' = .ok (1 - 2 * normSf cl') := by
      unfold toUnitCl; rw [if_neg (by linarith), if_neg (by linarith)]; rfl
    rw [this] at hp'
    cases hp; cases hp'
    linarith [normSf_strictAnti hlt]

/-- The levels usually asked for satisfy the hypotheses. -/
example : toUnitCl id 0.9 = .ok 0.9 ∧ ∃ p, toUnitCl id 3 = .ok p ∧ 0 < p ∧ p < 1 := by
  refine ⟨(C48_level 0.9).2.1 (by norm_num) (by norm_num), ?_⟩
  have h := (C48_level 3).2.2.1 (by norm_num)
  exact ⟨_, h, ((C48_level 3).2.2.2.1 _ h).1, ((C48_level 3).2.2.2.1 _ h).2.1⟩

/-- **C48** is violated in floating point: if rounding sends numbers within `2⁻⁵⁴` below 1 to 1 (as round to nearest
does), then for all large numbers of standard deviations the first conversion gives exactly 1, which
the second conversion in the bootstrap interval reads as "one standard deviation": the interval returned
for such a `cl` is the 68% interval. -/
theorem C48_level_twice_refuted (rnd : ℝ → ℝ) (hr : ∀ x, 1 - 2⁻¹ ^ 54 < x → x ≤ 1 → rnd x = 1) :
    ∃ c₀, 1 ≤ c₀ ∧ ∀ cl, c₀ ≤ cl → toUnitCl rnd cl = .ok 1 ∧
      ∀ samples, bootInterval rnd cl samples = (do
        let p ← toUnitCl rnd 1
        let lo ← quantile samples (0.5 - 0.5 * p)
        let hi ← quantile samples (0.5 + 0.5 * p)
        return (lo, hi)) := by
  obtain ⟨c, hc1, hc2⟩ := normSf_small (2⁻¹ ^ 55) (by positivity)
  refine ⟨c, hc1, fun cl hcl => ?_⟩
  have hsf : normSf cl < 2⁻¹ ^ 55 := lt_of_le_of_lt (normSf_strictAnti.antitone hcl) hc2
  have h1 : toUnitCl rnd cl = .ok 1 := by
    unfold toUnitCl
    rw [if_neg (by linarith), if_neg (by linarith), hr]
    · have : (2⁻¹ : ℝ) ^ 54 = 2 * 2⁻¹ ^ 55 := by norm_num
      linarith
    · linarith [normSf_pos cl]
  refine ⟨h1, fun samples => ?_⟩
  simp only [bootInterval, h1, bind, Except.bind]

/-- such a rounding exists -/
example : ∃ rnd : ℝ → ℝ, ∀ x, 1 - 2⁻¹ ^ 54 < x → x ≤ 1 → rnd x = 1 :=
  ⟨fun x => if 1 - 2⁻¹ ^ 54 < x ∧ x ≤ 1 then 1 else x, fun x h1 h2 => if_pos ⟨h1, h2⟩⟩

/-! ## C48: equal-tailed intervals -/

/-- Linear interpolation of a sequence. -/
noncomputable def lerp (s : Nat → ℝ) (h : ℝ) : ℝ := s ⌊h⌋₊ + (s (⌊h⌋₊ + 1) - s ⌊h⌋₊) * (h - ⌊h⌋₊)

theorem lerp_bounds {s : Nat → ℝ} (hs : Monotone s) {h : ℝ} (h0 : 0 ≤ h) :
    s ⌊h⌋₊ ≤ lerp s h ∧ lerp s h ≤ s (⌊h⌋₊ + 1) := by
  have hd : 0 ≤ s (⌊h⌋₊ + 1) - s ⌊h⌋₊ := sub_nonneg.2 (hs (by omega))
  have ht0 : 0 ≤ h - ⌊h⌋₊ := sub_nonneg.2 (Nat.floor_le h0)
  have ht1 : h - ⌊h⌋₊ ≤ 1 := by linarith [Nat.lt_floor_add_one h]
  unfold lerp
  constructor
  · nlinarith
  · nlinarith

theorem lerp_mono {s : Nat → ℝ} (hs : Monotone s) {a b : ℝ} (ha : 0 ≤ a) (hab : a ≤ b) : lerp s a ≤ lerp s b := by
  have hf : ⌊a⌋₊ ≤ ⌊b⌋₊ := Nat.floor_mono hab
  rcases hf.eq_or_lt with h | h
  · unfold lerp
    rw [← h]
    have hd : 0 ≤ s (⌊a⌋₊ + 1) - s ⌊a⌋₊ := sub_nonneg.2 (hs (by omega))
    nlinarith
  · exact (lerp_bounds hs ha).2.trans ((hs h).trans (lerp_bounds hs (ha.trans hab)).1)

theorem lerp_nat (s : Nat → ℝ) (i : Nat) : lerp s i = s i := by
  unfold lerp; simp

theorem getD_lt {α : Type} (l : List α) (d : α) {i : Nat} (h : i < l.length) : l.getD i d = l[i] := by
  simp [List.getD, List.getElem?_eq_getElem h]

/-- the sorted sample, extended beyond its end by its last value -/
noncomputable def sortedSeq (xs : List ℝ) (i : Nat) : ℝ :=
  (xs.insertionSort (· ≤ ·)).getD (min i (xs.length - 1)) 0

theorem sortedSeq_mono (xs : List ℝ) : Monotone (sortedSeq xs) := by
  rcases Nat.eq_zero_or_pos xs.length with h | h
  · have : xs = [] := List.length_eq_zero_iff.1 h
    subst this
    intro i j _
    simp [sortedSeq]
  · intro i j hij
    have hlen : (xs.insertionSort (· ≤ ·)).length = xs.length := List.length_insertionSort _ _
    have hs : (xs.insertionSort (· ≤ ·)).Pairwise (· ≤ ·) := List.pairwise_insertionSort _ _
    unfold sortedSeq
    rw [getD_lt _ _ (by omega), getD_lt _ _ (by omega)]
    have hij' : min i (xs.length - 1) ≤ min j (xs.length - 1) := by omega
    rcases hij'.eq_or_lt with h1 | h1
    · simp only [h1]; exact le_rfl
    · exact List.pairwise_iff_getElem.1 hs _ _ _ _ h1

theorem quantile_eq (xs : List ℝ) (q : ℝ) (hne : xs ≠ []) (h0 : 0 ≤ q) (h1 : q ≤ 1) :
    quantile xs q = .ok (lerp (sortedSeq xs) (q * ((xs.length : ℝ) - 1))) := by
  have hpos : 0 < xs.length := List.length_pos_iff.2 hne
  have hR : (1 : ℝ) ≤ xs.length := by exact_mod_cast hpos
  have hi : ⌊q * ((xs.length : ℝ) - 1)⌋₊ ≤ xs.length - 1 := by
    apply Nat.floor_le_of_le
    rw [Nat.cast_sub hpos]
    push_cast
    nlinarith
  unfold quantile
  rw [if_neg (by push Not; exact ⟨h0, h1⟩), if_neg (by omega)]
  simp only
  unfold lerp sortedSeq
  rw [min_eq_left hi]

/-- **C48**, quantiles: for every non-empty sample, quantiles exist for all orders in `[0, 1]`, increase with the order,
run from the smallest to the largest sample value, and a sample value whose rank lies between two orders lies
between the two quantiles (ranks `0, …, n-1` correspond to orders `i/(n-1)`). -/
theorem C48_quantile (xs : List ℝ) (hne : xs ≠ []) : ∃ Q : ℝ → ℝ,
    (∀ q, 0 ≤ q → q ≤ 1 → quantile xs q = .ok (Q q)) ∧
    (∀ q q', 0 ≤ q → q ≤ q' → q' ≤ 1 → Q q ≤ Q q') ∧
    (∀ x ∈ xs, Q 0 ≤ x ∧ x ≤ Q 1) ∧ Q 0 ∈ xs ∧ Q 1 ∈ xs ∧
    (∀ (i : Nat) x q q', (xs.insertionSort (· ≤ ·))[i]? = some x → 0 ≤ q → q' ≤ 1 →
      q * ((xs.length : ℝ) - 1) ≤ i → (i : ℝ) ≤ q' * ((xs.length : ℝ) - 1) → Q q ≤ x ∧ x ≤ Q q') := by
  have hpos : 0 < xs.length := List.length_pos_iff.2 hne
  have hR : (0 : ℝ) ≤ (xs.length : ℝ) - 1 := by
    have : (1 : ℝ) ≤ xs.length := by exact_mod_cast hpos
    linarith
  have hmono := sortedSeq_mono xs
  have hlen : (xs.insertionSort (· ≤ ·)).length = xs.length := List.length_insertionSort _ _
  have hseq : ∀ (i : Nat) x, (xs.insertionSort (· ≤ ·))[i]? = some x → sortedSeq xs i = x ∧ i < xs.length := by
    intro i x hx
    obtain ⟨hi, hx'⟩ := List.getElem?_eq_some_iff.1 hx
    refine ⟨?_, by omega⟩
    unfold sortedSeq
    rw [min_eq_left (by omega), getD_lt _ _ hi, hx']
  have hmem : ∀ i, sortedSeq xs i ∈ xs := by
    intro i
    unfold sortedSeq
    rw [getD_lt _ _ (by omega)]
    exact (List.mem_insertionSort _).1 (List.getElem_mem _)
  have hQ0 : lerp (sortedSeq xs) (0 * ((xs.length : ℝ) - 1)) = sortedSeq xs 0 := by
    rw [zero_mul]; exact_mod_cast lerp_nat (sortedSeq xs) 0
  have hQ1 : lerp (sortedSeq xs) (1 * ((xs.length : ℝ) - 1)) = sortedSeq xs (xs.length - 1) := by
    rw [one_mul]
    have : ((xs.length : ℝ) - 1) = ((xs.length - 1 : Nat) : ℝ) := by
      rw [Nat.cast_sub hpos]; norm_num
    rw [this, lerp_nat]
  refine ⟨fun q => lerp (sortedSeq xs) (q * ((xs.length : ℝ) - 1)), fun q h0 h1 => quantile_eq xs q hne h0 h1,
    ?_, ?_, ?_, ?_, ?_⟩
  · intro q q' h0 hqq h1
    exact lerp_mono hmono (mul_nonneg h0 hR) (mul_le_mul_of_nonneg_right hqq hR)
  · intro x hx
    simp only
    rw [hQ0, hQ1]
    obtain ⟨i, hi⟩ := List.getElem?_of_mem ((List.mem_insertionSort (· ≤ ·)).2 hx)
    obtain ⟨h1, h2⟩ := hseq i x hi
    rw [← h1]
    exact ⟨hmono (by omega), hmono (by omega)⟩
  · simp only; rw [hQ0]; exact hmem _
  · simp only; rw [hQ1]; exact hmem _
  · intro i x q q' hx h0 h1 hq hq'
    obtain ⟨he, hi⟩ := hseq i x hx
    have hx' : lerp (sortedSeq xs) i = x := by rw [lerp_nat, he]
    rw [← hx']
    exact ⟨lerp_mono hmono (mul_nonneg h0 hR) hq, lerp_mono hmono (by positivity) hq'⟩

example := C48_quantile [3, 1, 2] (by simp)

/-- **C48**, intervals (exact arithmetic): for every positive level and non-empty sample the equal-tailed interval
exists, its two orders `1/2 ∓ p/2` lie strictly inside `(0, 1)` and are symmetric, the median lies in
the interval, the interval lies within the range of the sample, and the bootstrap interval is the same
interval. -/
theorem C48_interval (cl : ℝ) (hcl : 0 < cl) (xs : List ℝ) (hne : xs ≠ []) :
    ∃ p m lo hi, toUnitCl id cl = .ok p ∧ 0 < 0.5 - p / 2 ∧ 0.5 + p / 2 < 1 ∧
      quantile xs 0.5 = .ok m ∧ quantile xs (0.5 - p / 2) = .ok lo ∧ quantile xs (0.5 + p / 2) = .ok hi ∧
      etiInterval id cl xs = .ok (m, lo, hi) ∧ bootInterval id cl xs = .ok (lo, hi) ∧
      lo ≤ m ∧ m ≤ hi ∧ (∃ x ∈ xs, x ≤ lo) ∧ ∃ x ∈ xs, hi ≤ x := by
  obtain ⟨p, hp⟩ : ∃ p, toUnitCl id cl = .ok p := by
    rcases lt_or_ge cl 1 with h | h
    · exact ⟨_, (C48_level cl).2.1 hcl h⟩
    · exact ⟨_, (C48_level cl).2.2.1 h⟩
  obtain ⟨p0, p1, pp⟩ := (C48_level cl).2.2.2.1 p hp
  obtain ⟨Q, hQ, hmono, hr, hm0, hm1, _⟩ := C48_quantile xs hne
  have e1 : (0.5 - 0.5 * p : ℝ) = 0.5 - p / 2 := by ring
  have e2 : (0.5 + 0.5 * p : ℝ) = 0.5 + p / 2 := by ring
  refine ⟨p, Q 0.5, Q (0.5 - p / 2), Q (0.5 + p / 2), hp, by linarith, by linarith,
    hQ _ (by norm_num) (by norm_num), hQ _ (by linarith) (by linarith), hQ _ (by linarith) (by linarith),
    ?_, ?_, hmono _ _ (by linarith) (by linarith) (by norm_num), hmono _ _ (by norm_num) (by linarith) (by linarith),
    ⟨Q 0, hm0, hmono _ _ le_rfl (by linarith) (by linarith)⟩,
    ⟨Q 1, hm1, hmono _ _ (by linarith) (by linarith) le_rfl⟩⟩
  · simp only [etiInterval, hp, bind, Except.bind, hQ 0.5 (by norm_num) (by norm_num),
      hQ (0.5 - p / 2) (by linarith) (by linarith), hQ (0.5 + p / 2) (by linarith) (by linarith), pure, Except.pure]
  · simp only [bootInterval, hp, pp, bind, Except.bind, e1, e2,
      hQ (0.5 - p / 2) (by linarith) (by linarith), hQ (0.5 + p / 2) (by linarith) (by linarith), pure, Except.pure]

/-- A sample of five values: the median is the middle one. -/
example : quantile [3, 1, 2, 5, 4] 0.5 = .ok 3 := by
  rw [quantile_eq _ _ (by simp) (by norm_num) (by norm_num)]
  have h : (0.5 * ((([3, 1, 2, 5, 4] : List ℝ).length : ℝ) - 1)) = ((2 : Nat) : ℝ) := by norm_num
  rw [h, lerp_nat]
  norm_num [sortedSeq, List.insertionSort, List.orderedInsert]

end Elisa.Infer
