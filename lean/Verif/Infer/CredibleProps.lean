import Verif.Infer.Credible
import Verif.Infer.LevelProps
import Mathlib.Tactic.NormNum

/-!
# C82: credible intervals contain what they say

`inside a b xs` counts the samples in `[a, b]`.
-/

namespace Elisa.Infer

open Elisa

/-- The number of samples in `[a, b]`. -/
noncomputable def inside (a b : ℝ) (xs : List ℝ) : Nat := xs.countP fun x => decide (a ≤ x ∧ x ≤ b)

section Sorted

theorem sorted_length (xs : List ℝ) : (sorted xs).length = xs.length := List.length_insertionSort _ _
theorem sorted_perm (xs : List ℝ) : (sorted xs).Perm xs := List.perm_insertionSort _ _
theorem sorted_pairwise (xs : List ℝ) : (sorted xs).Pairwise (· ≤ ·) := List.pairwise_insertionSort _ _

theorem sorted_of_perm {xs ys : List ℝ} (h : xs.Perm ys) : sorted xs = sorted ys :=
  List.Perm.eq_of_pairwise' (r := (· ≤ ·)) (sorted_pairwise xs) (sorted_pairwise ys)
    ((sorted_perm xs).trans (h.trans (sorted_perm ys).symm))

theorem sorted_getD_mono (xs : List ℝ) {i j : Nat} (hij : i ≤ j) (hj : j < xs.length) :
    (sorted xs).getD i 0 ≤ (sorted xs).getD j 0 := by
  have hl := sorted_length xs
  rw [getD_lt _ _ (by omega : i < (sorted xs).length), getD_lt _ _ (by omega : j < (sorted xs).length)]
  rcases hij.eq_or_lt with h | h
  · subst h; exact le_refl _
  · exact List.pairwise_iff_getElem.1 (sorted_pairwise xs) i j (by omega) (by omega) h

/-- In a sorted list the elements satisfying a downward closed condition are the first ones. -/
theorem sorted_countP (s : List ℝ) (hs : s.Pairwise (· ≤ ·)) (p : ℝ → Bool) (hp : ∀ x y, x ≤ y → p y = true → p x = true)
    (j : Nat) (hj : j < s.length) : p s[j] = true ↔ j < s.countP p := by
  induction s generalizing j with
  | nil => simp at hj
  | cons x t ih =>
    rw [List.pairwise_cons] at hs
    rw [List.countP_cons]
    by_cases hx : p x = true
    · rw [if_pos hx]
      cases j with
      | zero => simp [hx]
      | succ j =>
        simp only [List.length_cons, Nat.add_lt_add_iff_right] at hj
        rw [List.getElem_cons_succ, ih hs.2 j hj]
        omega
    · have ht : t.countP p = 0 := by
        rw [List.countP_eq_zero]
        intro y hy hpy
        exact hx (hp x y (hs.1 y hy) hpy)
      rw [if_neg hx, ht]
      constructor
      · intro h
        exfalso
        cases j with
        | zero => exact hx h
        | succ j =>
          rw [List.getElem_cons_succ] at h
          exact hx (hp _ _ (hs.1 _ (List.getElem_mem _)) h)
      · intro h; omega

theorem countP_split (s : List ℝ) (a b : ℝ) (hab : a ≤ b) :
    s.countP (fun x => decide (x ≤ b)) = s.countP (fun x => decide (x < a)) + inside a b s := by
  unfold inside
  induction s with
  | nil => rfl
  | cons x t ih =>
    rw [List.countP_cons, List.countP_cons, List.countP_cons, ih]
    by_cases h1 : x < a
    · have h2 : x ≤ b := by linarith
      have h3 : ¬ (a ≤ x ∧ x ≤ b) := fun h => by linarith [h.1]
      rw [if_pos (by simpa using h2), if_pos (by simpa using h1), if_neg (by simpa using h3)]; omega
    · have h1' : a ≤ x := not_lt.1 h1
      by_cases h2 : x ≤ b
      · rw [if_pos (by simpa using h2), if_neg (by simpa using h1), if_pos (by simpa using ⟨h1', h2⟩)]; omega
      · rw [if_neg (by simpa using h2), if_neg (by simpa using h1), if_neg (by simpa using fun _ => not_le.1 h2)]; omega

/-- A run of sorted positions inside `[a, b]` is counted. -/
theorem inside_of_run (xs : List ℝ) (a b : ℝ) (hab : a ≤ b) (i m : Nat) (him : i + m < xs.length)
    (ha : a ≤ (sorted xs).getD i 0) (hb : (sorted xs).getD (i + m) 0 ≤ b) : m + 1 ≤ inside a b xs := by
  have hl := sorted_length xs
  have hc : inside a b (sorted xs) = inside a b xs := (sorted_perm xs).countP_eq _
  have hs := countP_split (sorted xs) a b hab
  rw [getD_lt _ _ (by omega : i < (sorted xs).length)] at ha
  rw [getD_lt _ _ (by omega : i + m < (sorted xs).length)] at hb
  have h1 := (sorted_countP (sorted xs) (sorted_pairwise xs) (fun x => decide (x ≤ b))
    (fun x y hxy hy => by simp only [decide_eq_true_eq] at *; linarith) (i + m) (by omega)).1 (by simpa using hb)
  have h2 : ¬ i < (sorted xs).countP (fun x => decide (x < a)) := by
    rw [← sorted_countP (sorted xs) (sorted_pairwise xs) (fun x => decide (x < a))
      (fun x y hxy hy => by simp only [decide_eq_true_eq] at *; linarith) i (by omega)]
    simpa using ha
  omega

/-- Conversely, an interval with `m + 1` samples contains a run of `m + 1` sorted positions. -/
theorem run_of_inside (xs : List ℝ) (a b : ℝ) (m : Nat) (h : m + 1 ≤ inside a b xs) :
    ∃ i, i + m < xs.length ∧ a ≤ (sorted xs).getD i 0 ∧ (sorted xs).getD (i + m) 0 ≤ b := by
  have hl := sorted_length xs
  have hc : inside a b (sorted xs) = inside a b xs := (sorted_perm xs).countP_eq _
  have hab : a ≤ b := by
    by_contra hn
    have : inside a b xs = 0 := by
      unfold inside
      rw [List.countP_eq_zero]
      intro x _ hx
      simp only [decide_eq_true_eq] at hx
      linarith [hx.1, hx.2]
    omega
  have hs := countP_split (sorted xs) a b hab
  have hle : (sorted xs).countP (fun x => decide (x ≤ b)) ≤ (sorted xs).length := List.countP_le_length
  refine ⟨(sorted xs).countP (fun x => decide (x < a)), by omega, ?_, ?_⟩
  · rw [getD_lt _ _ (by omega)]
    have := (sorted_countP (sorted xs) (sorted_pairwise xs) (fun x => decide (x < a))
      (fun x y hxy hy => by simp only [decide_eq_true_eq] at *; linarith) _ (by omega)).not.2 (lt_irrefl _)
    simpa using this
  · rw [getD_lt _ _ (by omega)]
    have := (sorted_countP (sorted xs) (sorted_pairwise xs) (fun x => decide (x ≤ b))
      (fun x y hxy hy => by simp only [decide_eq_true_eq] at *; linarith) _ (by omega)).2
      (by omega : (sorted xs).countP (fun x => decide (x < a)) + m < _)
    simpa using this

end Sorted

section Claims

/-- **C82 (content of the equal-tailed interval).**  For every sample, order of the chains and level, the interval reported by `ci` brackets the
median (the lower error is never positive, the upper never negative) and contains more than `p (n - 1) - 1` of the `n` samples, `p` being the
probability asked for. -/
theorem C82_eti_content (cl : ℝ) (hcl : 0 < cl) (chains : List (List ℝ)) (hne : chains.flatten ≠ []) :
    ∃ p c, toUnitCl id cl = .ok p ∧ ciParam cl false chains = .ok c ∧
      c.interval.1 ≤ c.median ∧ c.median ≤ c.interval.2 ∧ c.errors.1 ≤ 0 ∧ 0 ≤ c.errors.2 ∧
      p * ((chains.flatten.length : ℝ) - 1) - 1 < inside c.interval.1 c.interval.2 chains.flatten := by
  obtain ⟨p, m, lo, hi, hp, h0, h1, hm, hlo, hhi, he, -, hlm, hmh, -, -⟩ := C48_interval cl hcl chains.flatten hne
  have hp0 : 0 < p := ((C48_level cl).2.2.2.1 p hp).1
  refine ⟨p, .mk' m (lo, hi), hp, ?_, hlm, hmh, ?_, ?_, ?_⟩
  · simp only [ciParam, he, bind, Except.bind, pure, Except.pure]
  · show lo - m ≤ 0; linarith
  · show 0 ≤ hi - m; linarith
  · show _ < (inside lo hi chains.flatten : ℝ)
    obtain ⟨Q, hQ, hQm, hQ3, -, -, hQi⟩ := C48_quantile chains.flatten hne
    have hloQ : lo = Q (0.5 - p / 2) := by
      have := hQ (0.5 - p / 2) h0.le (by norm_num; linarith)
      rw [hlo] at this; simpa using this
    have hhiQ : hi = Q (0.5 + p / 2) := by
      have := hQ (0.5 + p / 2) (by norm_num; linarith) h1.le
      rw [hhi] at this; simpa using this
    have hpos : 0 < chains.flatten.length := List.length_pos_iff.2 hne
    have hn : (0 : ℝ) ≤ (chains.flatten.length : ℝ) - 1 := by
      have : (1 : ℝ) ≤ chains.flatten.length := by exact_mod_cast hpos
      linarith
    have ha0 : 0 ≤ (0.5 - p / 2) * ((chains.flatten.length : ℝ) - 1) := mul_nonneg h0.le hn
    have hb0 : 0 ≤ (0.5 + p / 2) * ((chains.flatten.length : ℝ) - 1) := mul_nonneg (by norm_num; linarith) hn
    have hi1 := Nat.le_ceil ((0.5 - p / 2) * ((chains.flatten.length : ℝ) - 1))
    have hi2 := Nat.ceil_lt_add_one ha0
    have hj1 := Nat.floor_le hb0
    have hj2 := Nat.lt_floor_add_one ((0.5 + p / 2) * ((chains.flatten.length : ℝ) - 1))
    set i := ⌈(0.5 - p / 2) * ((chains.flatten.length : ℝ) - 1)⌉₊
    set j := ⌊(0.5 + p / 2) * ((chains.flatten.length : ℝ) - 1)⌋₊
    by_cases hij : i ≤ j
    · have hjlt : j < chains.flatten.length := by
        have : (j : ℝ) < chains.flatten.length := by nlinarith
        exact_mod_cast this
      have hget : ∀ k, k < chains.flatten.length →
          (chains.flatten.insertionSort (· ≤ ·))[k]? = some ((sorted chains.flatten).getD k 0) := by
        intro k hk
        have : k < (sorted chains.flatten).length := by rw [sorted_length]; exact hk
        rw [getD_lt _ _ this]
        exact List.getElem?_eq_getElem this
      have hrun := inside_of_run chains.flatten lo hi (by linarith) i (j - i) (by omega)
        (by
          rw [hloQ]
          exact (hQi i _ (0.5 - p / 2) 1 (hget i (by omega)) h0.le le_rfl hi1 (by
            have : (i : ℝ) ≤ j := by exact_mod_cast hij
            have hj' : (j : ℝ) ≤ (chains.flatten.length : ℝ) - 1 := by
              have : (j : ℝ) + 1 ≤ chains.flatten.length := by exact_mod_cast hjlt
              linarith
            linarith)).1)
        (by
          rw [hhiQ]
          have : i + (j - i) = j := by omega
          rw [this]
          exact (hQi j _ 0 (0.5 + p / 2) (hget j hjlt) le_rfl h1.le (by simp) hj1).2)
      have hr : ((j - i + 1 : Nat) : ℝ) ≤ inside lo hi chains.flatten := by exact_mod_cast hrun
      rw [Nat.cast_add, Nat.cast_sub hij] at hr
      push_cast at hr
      linarith
    · have : (j : ℝ) + 1 ≤ i := by exact_mod_cast (by omega : j + 1 ≤ i)
      have h0' : (0 : ℝ) ≤ inside lo hi chains.flatten := Nat.cast_nonneg _
      linarith

example := C82_eti_content 0.9 (by norm_num) [[1, 4], [2, 3]] (by simp)

/-- **C82 (nesting).**  A higher level gives an interval that contains the one of a lower level, with the same median (levels given as
probabilities; by C48 levels given in sigmas are ordered in the same way). -/
theorem C82_eti_nested (cl cl' : ℝ) (h0 : 0 < cl) (hle : cl ≤ cl') (h1 : cl' < 1) (chains : List (List ℝ)) (hne : chains.flatten ≠ []) :
    ∃ c c', ciParam cl false chains = .ok c ∧ ciParam cl' false chains = .ok c' ∧
      c'.interval.1 ≤ c.interval.1 ∧ c.interval.2 ≤ c'.interval.2 ∧ c.median = c'.median := by
  obtain ⟨p, m, lo, hi, hp, -, -, hm, hlo, hhi, he, -⟩ := C48_interval cl h0 chains.flatten hne
  obtain ⟨p', m', lo', hi', hp', -, -, hm', hlo', hhi', he', -⟩ := C48_interval cl' (h0.trans_le hle) chains.flatten hne
  rw [(C48_level cl).2.1 h0 (hle.trans_lt h1)] at hp
  rw [(C48_level cl').2.1 (h0.trans_le hle) h1] at hp'
  cases hp; cases hp'
  obtain ⟨Q, hQ, hQm, -⟩ := C48_quantile chains.flatten hne
  have e : ∀ q v, 0 ≤ q → q ≤ 1 → quantile chains.flatten q = .ok v → v = Q q := fun q v h0 h1 h => by
    have := hQ q h0 h1
    rw [h] at this; simpa using this
  refine ⟨.mk' m (lo, hi), .mk' m' (lo', hi'), ?_, ?_, ?_, ?_, ?_⟩
  · simp only [ciParam, he, bind, Except.bind, pure, Except.pure]
  · simp only [ciParam, he', bind, Except.bind, pure, Except.pure]
  · show lo' ≤ lo
    rw [e _ lo (by norm_num; linarith) (by norm_num; linarith) hlo, e _ lo' (by norm_num; linarith) (by norm_num; linarith) hlo']
    exact hQm _ _ (by norm_num; linarith) (by linarith) (by norm_num; linarith)
  · show hi ≤ hi'
    rw [e _ hi (by norm_num; linarith) (by norm_num; linarith) hhi, e _ hi' (by norm_num; linarith) (by norm_num; linarith) hhi']
    exact hQm _ _ (by norm_num; linarith) (by linarith) (by norm_num; linarith)
  · show m = m'
    rw [hm] at hm'; simpa using hm'

example := C82_eti_nested 0.5 0.9 (by norm_num) (by norm_num) (by norm_num) [[1, 4], [2, 3]] (by simp)

theorem quantile_perm {xs ys : List ℝ} (h : xs.Perm ys) (q : ℝ) : quantile xs q = quantile ys q := by
  have hs : xs.insertionSort (· ≤ ·) = ys.insertionSort (· ≤ ·) := sorted_of_perm h
  unfold quantile
  rw [h.length_eq, hs]

theorem hdi_perm {xs ys : List ℝ} (h : xs.Perm ys) (cl : ℝ) : hdi cl xs = hdi cl ys := by
  unfold hdi
  rw [h.length_eq, sorted_of_perm h]

/-- **C82 (order of the draws).**  Neither kind of interval depends on the order of the chains or of the draws, or on how the draws are distributed
over the chains. -/
theorem C82_order (cl : ℝ) (useHdi : Bool) (chains chains' : List (List ℝ)) (h : chains.flatten.Perm chains'.flatten) :
    ciParam cl useHdi chains = ciParam cl useHdi chains' := by
  cases useHdi
  · simp only [ciParam, etiInterval, quantile_perm h]
  · simp only [ciParam, quantile_perm h, hdi_perm h]

example := C82_order 0.9 true [[1, 4], [2]] [[2, 4, 1]] (by
  show ([1, 4, 2] : List ℝ).Perm [2, 4, 1]
  exact (List.reverse_perm [2, 4, 1]))

theorem sorted_map_affine (xs : List ℝ) (a b : ℝ) (ha : 0 < a) : sorted (xs.map fun x => a * x + b) = (sorted xs).map fun x => a * x + b := by
  unfold sorted
  refine (List.map_insertionSort (r := (· ≤ ·)) (s := (· ≤ ·)) (fun x : ℝ => a * x + b) xs ?_).symm
  intro x _ y _
  constructor
  · intro h; nlinarith
  · intro h; by_contra hn; nlinarith

theorem getD_map_affine (s : List ℝ) (a b : ℝ) (i : Nat) (hi : i < s.length) :
    (s.map fun x => a * x + b).getD i 0 = a * s.getD i 0 + b := by
  rw [getD_lt _ _ (by simpa using hi), getD_lt _ _ hi]; simp

theorem quantile_affine (xs : List ℝ) (a b : ℝ) (ha : 0 < a) (q : ℝ) :
    quantile (xs.map fun x => a * x + b) q = (quantile xs q).map fun v => a * v + b := by
  unfold quantile
  by_cases hq : q < 0 ∨ 1 < q
  · simp [hq, Except.map]
  by_cases hl : xs.length = 0
  · simp [hq, hl, Except.map]
  rw [if_neg hq, if_neg hq, if_neg hl, if_neg (by simpa using hl)]
  have hs : (xs.map fun x => a * x + b).insertionSort (· ≤ ·) = (xs.insertionSort (· ≤ ·)).map fun x => a * x + b :=
    sorted_map_affine xs a b ha
  have hlen : (xs.insertionSort (· ≤ ·)).length = xs.length := List.length_insertionSort _ _
  have hpos : 0 < xs.length := Nat.pos_of_ne_zero hl
  have hR : (1 : ℝ) ≤ xs.length := by exact_mod_cast hpos
  have hi : ⌊q * ((xs.length : ℝ) - 1)⌋₊ < xs.length := by
    have : ⌊q * ((xs.length : ℝ) - 1)⌋₊ ≤ xs.length - 1 := by
      apply Nat.floor_le_of_le
      rw [Nat.cast_sub hpos]
      push_cast
      push Not at hq
      nlinarith [hq.1, hq.2]
    omega
  simp only [List.length_map, hs, Except.map]
  rw [getD_map_affine _ _ _ _ (by rw [hlen]; exact hi), getD_map_affine _ _ _ _ (by rw [hlen]; omega)]
  congr 1
  ring

/-- **C82 (units).**  Changing the unit of a quantity (any map `x ↦ a x + b` with `a > 0`) changes median and equal-tailed interval
accordingly. -/
theorem C82_eti_units (cl a b : ℝ) (ha : 0 < a) (chains : List (List ℝ)) :
    ciParam cl false (chains.map fun c => c.map fun x => a * x + b) =
      (ciParam cl false chains).map fun c => .mk' (a * c.median + b) (a * c.interval.1 + b, a * c.interval.2 + b) := by
  have hf : (chains.map fun c => c.map fun x => a * x + b).flatten = chains.flatten.map fun x => a * x + b := by
    rw [List.map_flatten]
  simp only [ciParam, etiInterval, hf, quantile_affine _ a b ha]
  cases toUnitCl id cl with
  | error e => rfl
  | ok p =>
    simp only [bind, Except.bind, pure, Except.pure]
    cases quantile chains.flatten 0.5 with
    | error e => rfl
    | ok m =>
      cases quantile chains.flatten (0.5 - p / 2) with
      | error e => rfl
      | ok lo =>
        cases quantile chains.flatten (0.5 + p / 2) with
        | error e => rfl
        | ok hi => rfl

example := C82_eti_units 0.9 1000 (-3) (by norm_num) [[1, 4], [2, 3]]

/-- **C82 (highest-density interval).**  The interval reported with `hdi=True` has samples as ends, contains at least the fraction asked for, and no
interval whatsoever with as many samples is shorter. -/
theorem C82_hdi (cl : ℝ) (h0 : 0 < cl) (h1 : cl < 1) (xs : List ℝ) (hne : xs ≠ []) :
    ∃ lo hi, hdi cl xs = .ok (lo, hi) ∧ lo ≤ hi ∧ lo ∈ xs ∧ hi ∈ xs ∧
      ⌊cl * (xs.length : ℝ)⌋₊ + 1 ≤ inside lo hi xs ∧ cl * (xs.length : ℝ) < inside lo hi xs ∧
      ∀ a b, ⌊cl * (xs.length : ℝ)⌋₊ + 1 ≤ inside a b xs → hi - lo ≤ b - a := by
  have hpos : 0 < xs.length := List.length_pos_iff.2 hne
  have hR : (0 : ℝ) < xs.length := by exact_mod_cast hpos
  have hl := sorted_length xs
  have hinc : ⌊cl * (xs.length : ℝ)⌋₊ < xs.length := by
    rw [Nat.floor_lt (by positivity)]
    nlinarith
  cases ham : (List.range (xs.length - ⌊cl * (xs.length : ℝ)⌋₊)).argmin
      (fun i => (sorted xs).getD (i + ⌊cl * (xs.length : ℝ)⌋₊) 0 - (sorted xs).getD i 0) with
  | none =>
    rw [List.argmin_eq_none, List.range_eq_nil] at ham
    omega
  | some i =>
    have hi := List.mem_range.1 (List.argmin_mem ham)
    have hmem : ∀ k, k < xs.length → (sorted xs).getD k 0 ∈ xs := by
      intro k hk
      rw [getD_lt _ _ (by omega)]
      exact (sorted_perm xs).mem_iff.1 (List.getElem_mem _)
    have hle := sorted_getD_mono xs (Nat.le_add_right i ⌊cl * (xs.length : ℝ)⌋₊) (by omega)
    have hcount := inside_of_run xs _ _ hle i ⌊cl * (xs.length : ℝ)⌋₊ (by omega) le_rfl le_rfl
    refine ⟨(sorted xs).getD i 0, (sorted xs).getD (i + ⌊cl * (xs.length : ℝ)⌋₊) 0, ?_, hle, hmem _ (by omega), hmem _ (by omega),
      hcount, ?_, ?_⟩
    · unfold hdi
      rw [if_neg (by simp [h0, h1])]
      simp only [ham]
    · have h2 := Nat.lt_floor_add_one (cl * (xs.length : ℝ))
      have h3 : ((⌊cl * (xs.length : ℝ)⌋₊ + 1 : Nat) : ℝ) ≤ inside ((sorted xs).getD i 0)
          ((sorted xs).getD (i + ⌊cl * (xs.length : ℝ)⌋₊) 0) xs := by exact_mod_cast hcount
      push_cast at h3
      linarith
    · intro a b hab
      obtain ⟨k, hk, hka, hkb⟩ := run_of_inside xs a b _ hab
      have := List.le_of_mem_argmin (f := fun i => (sorted xs).getD (i + ⌊cl * (xs.length : ℝ)⌋₊) 0 - (sorted xs).getD i 0)
        (List.mem_range.2 (by omega : k < xs.length - ⌊cl * (xs.length : ℝ)⌋₊)) ham
      linarith

example := C82_hdi 0.68 (by norm_num) (by norm_num) [1, 4, 2, 3] (by simp)

/-- **C82 (highest-density errors, refuted).**  The errors reported with `hdi=True` are measured from the median, which the highest-density
interval need not contain: both errors can be negative. -/
theorem C82_hdi_median_refuted : ∃ (cl : ℝ) (chains : List (List ℝ)) (c : Credible), 0 < cl ∧ cl < 1 ∧
    ciParam cl true chains = .ok c ∧ c.errors.1 < 0 ∧ c.errors.2 < 0 := by
  have hs : sorted [0, 1, 3, 10, 20] = [0, 1, 3, 10, 20] := by
    unfold sorted
    exact List.Pairwise.insertionSort_eq (by norm_num)
  have hf : ⌊(3 / 10 : ℝ) * (([0, 1, 3, 10, 20] : List ℝ).length : ℝ)⌋₊ = 1 := by
    rw [Nat.floor_eq_iff (by norm_num)]; norm_num
  obtain ⟨lo, hi, he, -, -, -, hin, -, hmin⟩ := C82_hdi (3 / 10) (by norm_num) (by norm_num) [0, 1, 3, 10, 20] (by simp)
  rw [hf] at hin hmin
  have h01 : (2 : Nat) ≤ inside 0 1 [0, 1, 3, 10, 20] := by
    simp only [inside, List.countP_cons, List.countP_nil]; norm_num
  have hw := hmin 0 1 h01
  obtain ⟨k, hk, hka, hkb⟩ := run_of_inside _ lo hi 1 hin
  rw [hs] at hka hkb
  have hhi : hi < 3 := by
    have hk' : k < 4 := by simp at hk; omega
    obtain ⟨lo', hi', he', -, hlm, hhm, -⟩ := C82_hdi (3 / 10) (by norm_num) (by norm_num) [0, 1, 3, 10, 20] (by simp)
    rw [he] at he'
    simp only [Except.ok.injEq, Prod.mk.injEq] at he'
    obtain ⟨rfl, rfl⟩ := he'
    simp only [List.mem_cons, List.not_mem_nil, or_false] at hlm hhm
    interval_cases k <;> simp at hka hkb <;>
      rcases hlm with h | h | h | h | h <;> rcases hhm with h' | h' | h' | h' | h' <;> subst h <;> subst h' <;> first | linarith | norm_num
  have hm : quantile [0, 1, 3, 10, 20] 0.5 = .ok 3 := by
    have hs' : ([0, 1, 3, 10, 20] : List ℝ).insertionSort (· ≤ ·) = [0, 1, 3, 10, 20] := hs
    have hfl : ⌊(0.5 : ℝ) * (((5 : Nat) : ℝ) - 1)⌋₊ = 2 := by
      rw [Nat.floor_eq_iff (by norm_num)]; norm_num
    unfold quantile
    rw [if_neg (by norm_num), if_neg (by simp), hs']
    simp only [List.length_cons, List.length_nil, Nat.zero_add, Nat.reduceAdd, hfl]
    norm_num
  refine ⟨3 / 10, [[0, 1, 3], [10, 20]], .mk' 3 (lo, hi), by norm_num, by norm_num, ?_, ?_, ?_⟩
  · have hcl : toUnitCl id (3 / 10) = .ok (3 / 10) := (C48_level _).2.1 (by norm_num) (by norm_num)
    have hfl : ([[0, 1, 3], [10, 20]] : List (List ℝ)).flatten = [0, 1, 3, 10, 20] := rfl
    simp only [ciParam, hcl, hfl, hm, he, bind, Except.bind, pure, Except.pure]
  · show lo - 3 < 0
    have : lo ≤ hi := by
      obtain ⟨lo', hi', he', hle, -⟩ := C82_hdi (3 / 10) (by norm_num) (by norm_num) [0, 1, 3, 10, 20] (by simp)
      rw [he] at he'
      simp only [Except.ok.injEq, Prod.mk.injEq] at he'
      obtain ⟨rfl, rfl⟩ := he'
      exact hle
    linarith
  · show hi - 3 < 0
    linarith

/-- **C82 (functions, part that holds).**  With at most ten thousand draws, asking for the interval of a function that just returns a parameter gives
exactly what asking for the parameter gives (equal-tailed).  Missing: more draws (a random subsample is used), and `hdi=True`
(`C82_hdi_fn_refuted`). -/
theorem C82_fn_partial {A : Type} (cl : ℝ) (devices : Nat) (pick : Nat → Nat × Nat) (f : A → ℝ) (chains : List (List A))
    (hn : chains.flatten.length ≤ 10000) :
    ciFn cl false f (paramsDist devices pick chains) = ciParam cl false (chains.map fun c => c.map f) := by
  have hd : paramsDist devices pick chains = chains.flatten := if_neg (by omega)
  have hf : (chains.map fun c => c.map f).flatten = chains.flatten.map f := by rw [List.map_flatten]
  unfold ciFn ciParam
  rw [hd, hf]
  simp only [etiInterval]
  cases hp : toUnitCl id cl with
  | error e => rfl
  | ok p =>
    have h := ((C48_level cl).2.2.2.1 p hp).2.2
    simp only [bind, Except.bind, h]

example := C82_fn_partial 0.9 2 (fun i => (0, i)) (fun x : ℝ => x ^ 2) [[1, 4], [2, 3]] (by simp)

/-- **C82 (highest-density interval of a function, refuted).**  `ci(fn=…, hdi=True)`, and with it `flux`, `lumin` and `eiso` with `hdi=True`, raise for
every function, sample and level. -/
theorem C82_hdi_fn_refuted {A : Type} (cl : ℝ) (f : A → ℝ) (draws : List A) : ∃ e, ciFn cl true f draws = .error e := by
  unfold ciFn
  cases toUnitCl id cl with
  | error e => exact ⟨e, rfl⟩
  | ok p =>
    simp only [bind, Except.bind]
    cases quantile (draws.map f) 0.5 with
    | error e => exact ⟨e, rfl⟩
    | ok m =>
      cases hdi p (draws.map f) with
      | error e => exact ⟨e, rfl⟩
      | ok i => exact ⟨_, rfl⟩

example : (0 : ℝ) < 0.683 ∧ ([[1, 2], [3]] : List (List ℝ)).flatten ≠ [] := ⟨by norm_num, by simp⟩

end Claims

end Elisa.Infer
