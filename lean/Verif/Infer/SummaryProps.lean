import Verif.Infer.Summary
import Verif.Infer.CredibleProps

/-!
# C103: summaries of a posterior
-/

namespace Elisa.Infer.Summary

open Elisa Elisa.Infer

theorem mean_some {chains : List (List ℝ)} (h : chains.flatten ≠ []) : mean chains = some (chains.flatten.sum / (chains.flatten.length : ℝ)) := by
  unfold mean
  rw [if_neg fun h0 => h (List.length_eq_zero_iff.1 h0)]

theorem sum_affine (a b : ℝ) (xs : List ℝ) : (xs.map fun x => a * x + b).sum = a * xs.sum + b * (xs.length : ℝ) := by
  induction xs with
  | nil => simp
  | cons x xs ih =>
    simp only [List.map_cons, List.sum_cons, ih, List.length_cons]
    push_cast
    ring

theorem flatten_map_map {A B : Type} (f : A → B) (chains : List (List A)) : (chains.map fun c => c.map f).flatten = chains.flatten.map f := by
  rw [List.map_flatten]

/-- **C103 (mean).**  The mean of the draws of a parameter lies between any bounds of the draws, does not depend on the order of chains and draws or on how the draws are
distributed over chains, and changes with the unit as it should. -/
theorem C103_mean (chains : List (List ℝ)) (hne : chains.flatten ≠ []) :
    ∃ m, mean chains = some m ∧ (∀ lo hi, (∀ x ∈ chains.flatten, lo ≤ x ∧ x ≤ hi) → lo ≤ m ∧ m ≤ hi) ∧
      (∀ chains' : List (List ℝ), chains'.flatten.Perm chains.flatten → mean chains' = some m) ∧
      ∀ a b : ℝ, mean (chains.map fun c => c.map fun x => a * x + b) = some (a * m + b) := by
  have hpos : 0 < (chains.flatten.length : ℝ) := by exact_mod_cast List.length_pos_iff.2 hne
  refine ⟨_, mean_some hne, ?_, ?_, ?_⟩
  · intro lo hi h
    have h1 : lo * (chains.flatten.length : ℝ) ≤ chains.flatten.sum := by
      have := List.card_nsmul_le_sum chains.flatten lo fun x hx => (h x hx).1
      simpa [nsmul_eq_mul, mul_comm] using this
    have h2 : chains.flatten.sum ≤ hi * (chains.flatten.length : ℝ) := by
      have := List.sum_le_card_nsmul chains.flatten hi fun x hx => (h x hx).2
      simpa [nsmul_eq_mul, mul_comm] using this
    exact ⟨(le_div_iff₀ hpos).2 h1, (div_le_iff₀ hpos).2 h2⟩
  · intro chains' hp
    have hne' : chains'.flatten ≠ [] := fun h => hne (by rw [h] at hp; exact hp.nil_eq.symm)
    rw [mean_some hne', hp.sum_eq, hp.length_eq]
  · intro a b
    have hf := flatten_map_map (fun x : ℝ => a * x + b) chains
    have hne' : (chains.map fun c => c.map fun x => a * x + b).flatten ≠ [] := by
      rw [hf]; simpa using hne
    rw [mean_some hne', hf, sum_affine, List.length_map]
    congr 1
    field_simp

theorem sdev_some {ddof : Nat} {chains : List (List ℝ)} (h : ddof < chains.flatten.length) : ∃ m, mean chains = some m ∧
    sdev ddof chains = some (Real.sqrt ((chains.flatten.map fun x => (x - m) * (x - m)).sum / ((chains.flatten.length - ddof : Nat) : ℝ))) := by
  have hne : chains.flatten ≠ [] := fun h0 => by rw [h0] at h; simp at h
  refine ⟨_, mean_some hne, ?_⟩
  unfold sdev
  rw [mean_some hne]
  simp only [Option.bind_some]
  rw [if_neg (by omega)]

theorem sq_sum_nonneg (m : ℝ) (xs : List ℝ) : 0 ≤ (xs.map fun x => (x - m) * (x - m)).sum := by
  apply List.sum_nonneg
  intro y hy
  obtain ⟨x, -, rfl⟩ := List.mem_map.1 hy
  exact mul_self_nonneg _

theorem sq_sum_zero (m : ℝ) (xs : List ℝ) : (xs.map fun x => (x - m) * (x - m)).sum = 0 ↔ ∀ x ∈ xs, x = m := by
  induction xs with
  | nil => simp
  | cons x xs ih =>
    rw [List.map_cons, List.sum_cons]
    have h1 := mul_self_nonneg (x - m)
    have h2 := sq_sum_nonneg m xs
    constructor
    · intro h y hy
      have hx : (x - m) * (x - m) = 0 := by linarith
      have hs : (xs.map fun x => (x - m) * (x - m)).sum = 0 := by linarith
      rcases List.mem_cons.1 hy with rfl | hy
      · have := mul_self_eq_zero.1 hx
        linarith
      · exact ih.1 hs y hy
    · intro h
      rw [h x (by simp), ih.2 fun y hy => h y (List.mem_cons_of_mem _ hy)]
      ring

/-- **C103 (standard deviation).**  With at least two draws the standard deviation of a parameter is the square root of the sum of squared distances from the mean over the number of
draws minus one; it is zero exactly if all draws are equal, a shift does not change it and a scale factor multiplies it. -/
theorem C103_std (chains : List (List ℝ)) (h2 : 2 ≤ chains.flatten.length) :
    ∃ m s, mean chains = some m ∧ std chains = some s ∧ 0 ≤ s ∧ s ^ 2 * ((chains.flatten.length : ℝ) - 1) = (chains.flatten.map fun x => (x - m) ^ 2).sum ∧
      (s = 0 ↔ ∀ x ∈ chains.flatten, ∀ y ∈ chains.flatten, x = y) ∧
      ∀ a b : ℝ, std (chains.map fun c => c.map fun x => a * x + b) = some (|a| * s) := by
  obtain ⟨m, hm, hs⟩ := sdev_some (ddof := 1) (chains := chains) (by omega)
  have hcast : ((chains.flatten.length - 1 : Nat) : ℝ) = (chains.flatten.length : ℝ) - 1 := by
    rw [Nat.cast_sub (by omega)]; simp
  have hpos : 0 < (chains.flatten.length : ℝ) - 1 := by
    have : (2 : ℝ) ≤ (chains.flatten.length : ℝ) := by exact_mod_cast h2
    linarith
  have hne : chains.flatten ≠ [] := fun h0 => by rw [h0] at h2; simp at h2
  have hq := sq_sum_nonneg m chains.flatten
  refine ⟨m, _, hm, hs, Real.sqrt_nonneg _, ?_, ?_, ?_⟩
  · rw [Real.sq_sqrt (div_nonneg hq (by rw [hcast]; exact hpos.le)), hcast, div_mul_cancel₀ _ hpos.ne']
    congr 1
    apply List.map_congr_left
    intro x _
    ring
  · rw [Real.sqrt_eq_zero (div_nonneg hq (by rw [hcast]; exact hpos.le)), hcast, div_eq_zero_iff, or_iff_left hpos.ne', sq_sum_zero]
    constructor
    · intro h x hx y hy
      rw [h x hx, h y hy]
    · intro h x hx
      obtain ⟨m', hm', hb, -⟩ := C103_mean chains hne
      rw [hm] at hm'
      cases hm'
      have := hb x x fun y hy => by rw [h y hy x hx]; exact ⟨le_refl _, le_refl _⟩
      linarith
  · intro a b
    have hf := flatten_map_map (fun x : ℝ => a * x + b) chains
    obtain ⟨m', hm', hs'⟩ := sdev_some (ddof := 1) (chains := chains.map fun c => c.map fun x => a * x + b) (by rw [hf, List.length_map]; omega)
    obtain ⟨m'', hm'', -, -, haff⟩ := C103_mean chains hne
    rw [hm] at hm''
    cases hm''
    have hme : m' = a * m + b := by
      have := haff a b
      rw [hm'] at this
      exact Option.some.inj this
    show sdev 1 _ = _
    rw [hs', hf, hme, List.length_map, List.map_map]
    have hsum : (chains.flatten.map ((fun x => (x - (a * m + b)) * (x - (a * m + b))) ∘ fun x => a * x + b)).sum =
        a ^ 2 * (chains.flatten.map fun x => (x - m) * (x - m)).sum := by
      rw [← List.sum_map_mul_left]
      congr 1
      apply List.map_congr_left
      intro x _
      simp only [Function.comp]
      ring
    rw [hsum, mul_div_assoc, Real.sqrt_mul (sq_nonneg a), Real.sqrt_sq_eq_abs]

/-- **C103 (standard deviation), refuted between parameters and functions.**  The standard deviation reported for a flux or other function is not the one reported for a
parameter, even if the function returns the parameter: its square is smaller by the factor (n-1)/n, and a single draw has the standard deviation 0 instead of NaN. -/
theorem C103_std_refuted (chains : List (List ℝ)) :
    (2 ≤ chains.flatten.length → ∃ s t, std chains = some s ∧ fnStd chains = some t ∧ t ^ 2 * (chains.flatten.length : ℝ) = s ^ 2 * ((chains.flatten.length : ℝ) - 1) ∧
      (s ≠ 0 → t < s)) ∧
    (chains.flatten.length = 1 → std chains = none ∧ fnStd chains = some 0) := by
  constructor
  · intro h2
    obtain ⟨m, hm, hs⟩ := sdev_some (ddof := 1) (chains := chains) (by omega)
    obtain ⟨m', hm', ht⟩ := sdev_some (ddof := 0) (chains := chains) (by omega)
    rw [hm] at hm'
    cases hm'
    have hcast : ((chains.flatten.length - 1 : Nat) : ℝ) = (chains.flatten.length : ℝ) - 1 := by
      rw [Nat.cast_sub (by omega)]; simp
    have hn : (2 : ℝ) ≤ (chains.flatten.length : ℝ) := by exact_mod_cast h2
    have hq := sq_sum_nonneg m chains.flatten
    refine ⟨_, _, hs, ht, ?_, ?_⟩
    · rw [Real.sq_sqrt (div_nonneg hq (Nat.cast_nonneg _)), Real.sq_sqrt (div_nonneg hq (Nat.cast_nonneg _)), hcast, Nat.sub_zero,
        div_mul_cancel₀ _ (by linarith), div_mul_cancel₀ _ (by linarith)]
    · intro hs0
      rw [hcast, Nat.sub_zero]
      apply Real.sqrt_lt_sqrt (div_nonneg hq (by linarith))
      have hq' : 0 < (chains.flatten.map fun x => (x - m) * (x - m)).sum := by
        rcases hq.lt_or_eq with h | h
        · exact h
        · exact absurd (by rw [← h]; simp) hs0
      exact div_lt_div_of_pos_left hq' (by linarith) (by linarith)
  · intro h1
    constructor
    · unfold std sdev
      cases mean chains with
      | none => rfl
      | some m => simp [h1]
    · obtain ⟨m, hm, ht⟩ := sdev_some (ddof := 0) (chains := chains) (by omega)
      obtain ⟨x, hx⟩ := List.length_eq_one_iff.1 h1
      have hmx : m = x := by
        rw [mean_some (by rw [hx]; simp), hx] at hm
        simpa using (Option.some.inj hm).symm
      show sdev 0 chains = _
      rw [ht, hx, hmx]
      simp

theorem sum_map_add {A : Type} (f g : A → ℝ) (l : List A) : (l.map fun a => f a + g a).sum = (l.map f).sum + (l.map g).sum := by
  induction l with
  | nil => simp
  | cons a l ih => simp only [List.map_cons, List.sum_cons, ih]; ring

theorem sum_swap {A G : Type} (f : G → A → ℝ) (gs : List G) (l : List A) : (l.map fun a => (gs.map fun g => f g a).sum).sum = (gs.map fun g => (l.map (f g)).sum).sum := by
  induction gs with
  | nil => simp
  | cons g gs ih => simp only [List.map_cons, List.sum_cons, sum_map_add, ih]

theorem median_halves (xs : List ℝ) (hne : xs ≠ []) : ∃ m, quantile xs 0.5 = .ok m ∧
    xs.length ≤ 2 * xs.countP (fun x => decide (x ≤ m)) ∧ xs.length ≤ 2 * xs.countP (fun x => decide (m ≤ x)) := by
  obtain ⟨Q, h1, -, -, -, -, h2⟩ := C48_quantile xs hne
  have hpos : 0 < xs.length := List.length_pos_iff.2 hne
  have hlen : (xs.insertionSort (· ≤ ·)).length = xs.length := List.length_insertionSort _ _
  have hperm : (xs.insertionSort (· ≤ ·)).Perm xs := List.perm_insertionSort _ _
  refine ⟨Q 0.5, h1 _ (by norm_num) (by norm_num), ?_, ?_⟩
  · rw [← hperm.countP_eq, ← List.take_append_drop ((xs.length - 1) / 2 + 1) (xs.insertionSort (· ≤ ·)), List.countP_append]
    have : (List.take ((xs.length - 1) / 2 + 1) (xs.insertionSort (· ≤ ·))).countP (fun x => decide (x ≤ Q 0.5)) =
        (List.take ((xs.length - 1) / 2 + 1) (xs.insertionSort (· ≤ ·))).length := by
      rw [List.countP_eq_length]
      intro x hx
      obtain ⟨i, hi⟩ := List.getElem?_of_mem hx
      have hik : i < (xs.length - 1) / 2 + 1 := by
        have := (List.getElem?_eq_some_iff.1 hi).1
        rw [List.length_take] at this
        omega
      rw [List.getElem?_take_of_lt hik] at hi
      have h3 : (i : ℝ) ≤ 0.5 * ((xs.length : ℝ) - 1) := by
        have h4 : 2 * i + 1 ≤ xs.length := by omega
        have h5 : (2 : ℝ) * i + 1 ≤ xs.length := by exact_mod_cast h4
        linarith
      exact decide_eq_true (h2 i x 0 0.5 hi le_rfl (by norm_num) (by simp) h3).2
    rw [this, List.length_take, hlen]
    omega
  · rw [← hperm.countP_eq, ← List.take_append_drop (xs.length / 2) (xs.insertionSort (· ≤ ·)), List.countP_append]
    have : (List.drop (xs.length / 2) (xs.insertionSort (· ≤ ·))).countP (fun x => decide (Q 0.5 ≤ x)) =
        (List.drop (xs.length / 2) (xs.insertionSort (· ≤ ·))).length := by
      rw [List.countP_eq_length]
      intro x hx
      obtain ⟨i, hi⟩ := List.getElem?_of_mem hx
      have hik : i < xs.length - xs.length / 2 := by
        have := (List.getElem?_eq_some_iff.1 hi).1
        rw [List.length_drop, hlen] at this
        exact this
      rw [List.getElem?_drop] at hi
      have h3 : 0.5 * ((xs.length : ℝ) - 1) ≤ ((xs.length / 2 + i : Nat) : ℝ) := by
        have h4 : xs.length ≤ 2 * (xs.length / 2 + i) + 1 := by omega
        have h5 : ((xs.length : Nat) : ℝ) ≤ 2 * ((xs.length / 2 + i : Nat) : ℝ) + 1 := by exact_mod_cast h4
        linarith
      have h6 : ((xs.length / 2 + i : Nat) : ℝ) ≤ 1 * ((xs.length : ℝ) - 1) := by
        have h4 : xs.length / 2 + i + 1 ≤ xs.length := by omega
        have h5 : ((xs.length / 2 + i : Nat) : ℝ) + 1 ≤ ((xs.length : Nat) : ℝ) := by exact_mod_cast h4
        linarith
      exact decide_eq_true (h2 _ x 0.5 1 hi (by norm_num) le_rfl h3 h6).1
    rw [this, List.length_drop, hlen]
    omega

/-- **C103 (median).**  The median reported for a posterior and the median deviance exist whenever there is a draw, and at least half of all draws, of whatever chain,
are not above them and at least half not below them. -/
theorem C103_median (chains : List (List ℝ)) (hne : chains.flatten ≠ []) :
    (∃ m, median chains = .ok m ∧ chains.flatten.length ≤ 2 * chains.flatten.countP (fun x => decide (x ≤ m)) ∧
      chains.flatten.length ≤ 2 * chains.flatten.countP (fun x => decide (m ≤ x))) ∧
    (∃ m, (deviance chains).2 = .ok m ∧ chains.flatten.length ≤ 2 * chains.flatten.countP (fun l => decide (-2 * l ≤ m)) ∧
      chains.flatten.length ≤ 2 * chains.flatten.countP (fun l => decide (m ≤ -2 * l))) := by
  refine ⟨median_halves _ hne, ?_⟩
  have hf : (chains.map fun c => c.map fun l => -2 * l).flatten = chains.flatten.map fun l => -2 * l := flatten_map_map _ _
  obtain ⟨m, h1, h2, h3⟩ := median_halves (chains.flatten.map fun l => -2 * l) (by simpa using hne)
  rw [← hf] at h1
  rw [List.length_map, List.countP_map] at h2 h3
  exact ⟨m, h1, h2, h3⟩

example : ([[1], [3, 2]] : List (List ℝ)).flatten ≠ [] := by simp

/-- **C103 (deviance).**  The mean deviance of the whole fit is the sum of the mean deviances of the data sets, if the log-likelihood of every draw is the sum over data sets (C84). -/
theorem C103_deviance {A G : Type} (chains : List (List A)) (hne : chains.flatten ≠ []) (data : List G) (loglike : G → A → ℝ) (total : A → ℝ)
    (htot : ∀ a ∈ chains.flatten, total a = (data.map fun g => loglike g a).sum) :
    ∃ t : ℝ, ∃ m : G → ℝ, (deviance (chains.map fun c => c.map total)).1 = some t ∧ (∀ g ∈ data, (deviance (chains.map fun c => c.map (loglike g))).1 = some (m g)) ∧ t = (data.map m).sum := by
  have hpos : 0 < (chains.flatten.length : ℝ) := by exact_mod_cast List.length_pos_iff.2 hne
  have key : ∀ f : A → ℝ, (deviance (chains.map fun c => c.map f)).1 = some ((chains.flatten.map fun a => -2 * f a).sum / (chains.flatten.length : ℝ)) := by
    intro f
    unfold deviance
    have hf : ((chains.map fun c => c.map f).map fun c => c.map fun l => -2 * l).flatten = chains.flatten.map fun a => -2 * f a := by
      rw [flatten_map_map, flatten_map_map, List.map_map]
      rfl
    have hne' : ((chains.map fun c => c.map f).map fun c => c.map fun l => -2 * l).flatten ≠ [] := by rw [hf]; simpa using hne
    show mean _ = _
    rw [mean_some hne', hf, List.length_map]
  refine ⟨_, fun g => (chains.flatten.map fun a => -2 * loglike g a).sum / (chains.flatten.length : ℝ), key total, fun g _ => key (loglike g), ?_⟩
  have h1 : (chains.flatten.map fun a => -2 * total a).sum = (data.map fun g => (chains.flatten.map fun a => -2 * loglike g a).sum).sum := by
    rw [← sum_swap (fun g a => -2 * loglike g a) data chains.flatten]
    congr 1
    apply List.map_congr_left
    intro a ha
    rw [htot a ha, ← List.sum_map_mul_left]
  rw [h1]
  simp only [div_eq_mul_inv]
  rw [List.sum_map_mul_right]

/-- **C103 (best fit).**  If the search for the best fit never ends above the deviance where it started, the deviance reported for the best fit of a posterior is that of the parameters
reported and not larger than the deviance of any draw, whatever the number and order of chains and draws; it fails only without draws. -/
theorem C103_best_fit {A U : Type} (toConstr : U → A) (toUnconstr : A → U) (hinv : ∀ u, toUnconstr (toConstr u) = u) (search : U → U) (loglike : U → ℝ)
    (hsearch : ∀ u, -2 * loglike (search u) ≤ -2 * loglike u) (stored : A → ℝ) (draws : List (List U)) (hstored : ∀ u ∈ draws.flatten, stored (toConstr u) = loglike u) :
    ((∃ r, bestFit toUnconstr search loglike stored (draws.map fun c => c.map toConstr) = .ok r) ↔ draws.flatten ≠ []) ∧
    ∀ r, bestFit toUnconstr search loglike stored (draws.map fun c => c.map toConstr) = .ok r → r.2 = -2 * loglike r.1 ∧ ∀ u ∈ draws.flatten, r.2 ≤ -2 * loglike u := by
  unfold bestFit bestDraw
  rw [flatten_map_map]
  cases hb : (draws.flatten.map toConstr).argmax stored with
  | none =>
    have : draws.flatten = [] := by simpa using List.argmax_eq_none.1 hb
    constructor
    · constructor
      · rintro ⟨r, hr⟩; cases hr
      · intro h; exact absurd this h
    · intro r hr; cases hr
  | some a =>
    have hmem : a ∈ draws.flatten.map toConstr := List.argmax_mem hb
    obtain ⟨u₀, hu₀, rfl⟩ := List.mem_map.1 hmem
    constructor
    · exact ⟨fun _ h => by rw [h] at hu₀; simp at hu₀, fun _ => ⟨_, rfl⟩⟩
    · intro r hr
      cases hr
      refine ⟨rfl, ?_⟩
      intro u hu
      have h1 : stored (toConstr u) ≤ stored (toConstr u₀) := List.le_of_mem_argmax (List.mem_map.2 ⟨u, hu, rfl⟩) hb
      rw [hstored u hu, hstored u₀ hu₀] at h1
      have h2 := hsearch u₀
      show -2 * loglike (search (toUnconstr (toConstr u₀))) ≤ _
      rw [hinv]
      linarith

/-- **C103 (divergences), partial.**  The number of divergent draws is reported for samplers that record it, 0 for samplers that record nothing.  Missing: samplers that record
other statistics only, see `C103_divergence_refuted`. -/
theorem C103_divergence_partial (stats : Option (List (String × List Bool))) (h : ∀ l, stats = some l → ∃ b, l.lookup "diverging" = some b) :
    ∃ n, divergence stats = .ok n ∧ (stats = none → n = 0) ∧ ∀ l b, stats = some l → l.lookup "diverging" = some b → n = (b.filter (· = true)).length := by
  cases stats with
  | none => exact ⟨0, rfl, fun _ => rfl, fun l b h => by cases h⟩
  | some l =>
    obtain ⟨b, hb⟩ := h l rfl
    refine ⟨b.count true, by simp only [divergence, hb], by simp, ?_⟩
    intro l' b' hl hb'
    cases hl
    rw [hb] at hb'
    cases hb'
    rw [List.count_eq_countP, List.countP_eq_length_filter]
    refine congrArg List.length (List.filter_congr ?_)
    intro x _
    cases x <;> rfl

/-- **C103 (divergences) fails** for a sampler whose statistics have no entry `diverging`: reading the number raises `KeyError`. -/
theorem C103_divergence_refuted (l : List (String × List Bool)) (h : l.lookup "diverging" = none) : divergence (some l) = .error .keyError := by
  simp only [divergence, h]

/-! ## Examples -/

example : ∃ s, std [[1], [3]] = some s ∧ s ^ 2 = 2 := by
  obtain ⟨m, s, hm, hs, -, h, -⟩ := C103_std [[1], [3]] (by simp)
  refine ⟨s, hs, ?_⟩
  have : m = 2 := by
    rw [mean_some (by simp)] at hm
    have := Option.some.inj hm
    norm_num at this
    linarith
  subst this
  norm_num at h
  linarith

example : divergence (some [("accept_prob", [true]), ("diverging", [true, false, true])]) = .ok 2 := by decide

/-- Two draws of one parameter, unconstrained value `u`, parameter `2 u`, log-likelihood `-u²`, a search that halves the value. -/
example : ∀ r, bestFit (fun a : ℝ => a / 2) (fun u => u / 2) (fun u => -u ^ 2) (fun a => -(a / 2) ^ 2) ([[1], [3]].map fun c => c.map fun u => 2 * u) = .ok r → r.2 ≤ -2 * (-(3 : ℝ) ^ 2) := by
  intro r hr
  have := (C103_best_fit (fun u : ℝ => 2 * u) (fun a => a / 2) (fun u => by ring) (fun u => u / 2) (fun u => -u ^ 2) (fun u => by nlinarith [sq_nonneg u]) (fun a => -(a / 2) ^ 2)
    [[1], [3]] (fun u _ => by ring)).2 r hr
  exact this.2 3 (by simp)

/-- `C103_deviance` for two data sets: the log-likelihood of a draw is the sum of those of the data sets. -/
example : ∃ t : ℝ, ∃ m : ℝ → ℝ, (deviance ([[1], [3, 2]].map fun c => c.map fun a : ℝ => -a + -(2 * a))).1 = some t ∧ t = m 1 + m 2 := by
  obtain ⟨t, m, h1, _, h2⟩ := C103_deviance [[1], [3, 2]] (by simp) [1, 2] (fun g a => -(g * a)) (fun a : ℝ => -a + -(2 * a)) (by intro a _; simp)
  exact ⟨t, m, h1, by simpa using h2⟩

/-- `C103_divergence_partial`: statistics with the field, and a sampler without statistics. -/
example : (∃ n, divergence (some [("diverging", [true, false, true])]) = .ok n ∧ n = 2) ∧ ∃ n, divergence none = .ok n ∧ n = 0 := by
  obtain ⟨n, h, _, h2⟩ := C103_divergence_partial (some [("diverging", [true, false, true])]) (by intro l hl; cases hl; exact ⟨_, rfl⟩)
  obtain ⟨k, h', h3, _⟩ := C103_divergence_partial none (by simp)
  exact ⟨⟨n, h, by rw [h2 _ _ rfl rfl]; decide⟩, k, h', h3 rfl⟩

end Elisa.Infer.Summary
