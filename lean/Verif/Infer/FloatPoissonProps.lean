import Verif.Infer.FloatPoisson
import Verif.Infer.FloatFoldProps
import Mathlib.Analysis.Complex.ExponentialBounds

/-!
# The Poisson likelihood in floating point (C149)
-/

namespace Elisa.Infer.Fl

open Elisa Elisa.Infer Elisa.Grouping.Fl

/-! ## Specification -/

/-- A logarithm with a relative error of at most eight units in the last place. -/
def Accurate (lg : ℝ → ℝ) : Prop := ∀ x : ℝ, 0 < x → |lg x - Real.log x| ≤ 2 ^ (-50 : ℤ) * |Real.log x|

/-- The size of the numbers that the log likelihood of a channel with `v` counts and `rate` expected counts is made of. -/
noncomputable def bulk (v rate : ℝ) : ℝ := v * |Real.log rate| + v * |Real.log v| + v + rate

/-! ## Signed rounding -/

theorem Nearest.neg {rnd} (h : Nearest rnd) : Nearest fun x => -rnd (-x) := by
  intro x hx
  obtain ⟨h1, h2⟩ := h (-x) (by rwa [abs_neg])
  refine ⟨rep_neg h1, fun y hy => ?_⟩
  have := h2 (-y) (rep_neg hy)
  rw [show -rnd (-x) - x = -(rnd (-x) - -x) by ring, abs_neg, show y - x = -(-y - -x) by ring, abs_neg]
  exact this

theorem Nearest.err' {rnd} (h : Nearest rnd) {x : ℝ} (h1 : |x| ≤ 2 ^ (1023 : ℤ)) : |rnd x - x| ≤ unit * |x| + tiny := by
  rcases le_total 0 x with hx | hx
  · rw [abs_of_nonneg hx] at h1 ⊢
    exact h.err hx h1
  · rw [abs_of_nonpos hx] at h1 ⊢
    have := h.neg.err (x := -x) (by linarith) h1
    simp only [neg_neg] at this
    rwa [show -rnd x - -x = -(rnd x - x) by ring, abs_neg] at this

theorem tiny_le {S : ℝ} (h : 2 ^ (-1000 : ℤ) ≤ S) : tiny ≤ 2 ^ (-52 : ℤ) * S := by
  have : tiny ≤ (2 : ℝ) ^ (-52 + -1000 : ℤ) := zpow_le (by norm_num)
  rw [zpow_add₀ (by norm_num)] at this
  exact this.trans (mul_le_mul_of_nonneg_left h (two_zpow_pos _).le)

/-- Rounding adds one unit of error to a number of size at most `S`. -/
theorem step {rnd} (h : Nearest rnd) {a x S : ℝ} {k : ℝ} (h1 : 2 ^ (-1000 : ℤ) ≤ S) (h2 : S ≤ 2 ^ (1000 : ℤ)) (hk : k ≤ 8)
    (hx : |x| ≤ S) (ha : |a - x| ≤ k * 2 ^ (-50 : ℤ) * S) : |rnd a - x| ≤ (k + 1) * 2 ^ (-50 : ℤ) * S := by
  have hS : 0 ≤ S := (two_zpow_pos _).le.trans h1
  have hη : k * 2 ^ (-50 : ℤ) * S ≤ S := by
    have : k * 2 ^ (-50 : ℤ) ≤ 1 := (mul_le_mul_of_nonneg_right hk (two_zpow_pos _).le).trans (by norm_num)
    exact (mul_le_mul_of_nonneg_right this hS).trans_eq (one_mul _)
  have hab : |a| ≤ 2 * S := by
    have : |a| ≤ |a - x| + |x| := by
      have := abs_add_le (a - x) x; rwa [sub_add_cancel] at this
    linarith
  have hbig : |a| ≤ 2 ^ (1023 : ℤ) := by
    refine hab.trans ((mul_le_mul_of_nonneg_left h2 (by norm_num)).trans ?_)
    have e : (2 : ℝ) * 2 ^ (1000 : ℤ) = 2 ^ (1 + 1000 : ℤ) := by rw [zpow_add₀ (by norm_num), zpow_one]
    rw [e]
    exact zpow_le (by norm_num)
  have he := h.err' hbig
  have ht := tiny_le h1
  have hu : unit * |a| ≤ unit * (2 * S) := mul_le_mul_of_nonneg_left hab unit_pos.le
  have e1 : unit * (2 * S) = 2 ^ (-52 : ℤ) * S := by unfold unit; rw [← mul_assoc]; norm_num
  have e2 : (2 : ℝ) ^ (-52 : ℤ) * S ≤ 1 / 4 * (2 ^ (-50 : ℤ) * S) := by rw [← mul_assoc]; norm_num
  have h3 := abs_sub_le (rnd a) a x
  have h4 : 0 ≤ (2 : ℝ) ^ (-50 : ℤ) * S := mul_nonneg (two_zpow_pos _).le hS
  generalize (2 : ℝ) ^ (-52 : ℤ) * S = w at *
  rw [mul_assoc] at ha ⊢
  generalize (2 : ℝ) ^ (-50 : ℤ) * S = z at *
  clear hbig h1 h2
  nlinarith

theorem min_lip (a b : ℝ) : |min a 0 - min b 0| ≤ |a - b| := by
  have := abs_min_sub_min_le_max a 0 b 0
  simpa using this

theorem log_bound {x : ℝ} (h1 : 2 ^ (-200 : ℤ) ≤ x) (h2 : x ≤ 2 ^ (60 : ℤ)) : |Real.log x| ≤ 200 := by
  have h0 : 0 < x := (two_zpow_pos _).trans_le h1
  have l2 := Real.log_two_lt_d9
  have l0 := Real.log_pos (by norm_num : (1 : ℝ) < 2)
  have a1 := Real.log_le_log (two_zpow_pos _) h1
  have a2 := Real.log_le_log h0 h2
  rw [Real.log_zpow] at a1 a2
  push_cast at a1 a2
  rw [_root_.abs_le]
  constructor <;> nlinarith

theorem bulk_bounds {n : ℕ} {rate : ℝ} (hn : n ≤ 2 ^ 53) (h1 : 2 ^ (-200 : ℤ) ≤ rate) (h2 : rate ≤ 2 ^ (60 : ℤ)) :
    2 ^ (-200 : ℤ) ≤ bulk n rate ∧ bulk n rate ≤ 2 ^ (100 : ℤ) := by
  have hv : (0 : ℝ) ≤ n := Nat.cast_nonneg n
  have hv2 : (n : ℝ) ≤ 2 ^ 53 := by exact_mod_cast hn
  have l1 := log_bound h1 h2
  have l2 : |Real.log (n : ℝ)| ≤ 200 := by
    rcases Nat.eq_zero_or_pos n with rfl | hp
    · simp
    · have : (1 : ℝ) ≤ n := by exact_mod_cast hp
      refine log_bound (le_trans ?_ this) (hv2.trans (by norm_num))
      rw [show (1 : ℝ) = 2 ^ (0 : ℤ) by norm_num]
      exact zpow_le (by norm_num)
  have m1 := mul_le_mul hv2 l1 (abs_nonneg _) (by norm_num)
  have m2 := mul_le_mul hv2 l2 (abs_nonneg _) (by norm_num)
  unfold bulk
  constructor
  · have := mul_nonneg hv (abs_nonneg (Real.log rate))
    have := mul_nonneg hv (abs_nonneg (Real.log (n : ℝ)))
    exact h1.trans (by linarith)
  · have h60 : (2 : ℝ) ^ (60 : ℤ) = 1152921504606846976 := by norm_num
    have h100 : (2 : ℝ) ^ (100 : ℤ) = 1267650600228229401496703205376 := by norm_num
    rw [h60] at h2
    rw [h100]
    have hv3 : (n : ℝ) ≤ 9007199254740992 := hv2.trans (by norm_num)
    norm_num at m1 m2
    clear h1
    linarith

/-! ## One channel -/

theorem xlogy_error {rnd lg} (h : Nearest rnd) (hl : Accurate lg) {v x S : ℝ} (hv : 0 ≤ v) (hx : v = 0 ∨ 0 < x) (h1 : 2 ^ (-1000 : ℤ) ≤ S) (h2 : S ≤ 2 ^ (1000 : ℤ))
    (hS : v * |Real.log x| ≤ S) : |xlogyF rnd lg v x - Grouping.xlogy v x| ≤ 2 * 2 ^ (-50 : ℤ) * S := by
  have hS0 : 0 ≤ S := (two_zpow_pos _).le.trans h1
  by_cases hv0 : v = 0
  · subst hv0
    simp only [xlogyF, Grouping.xlogy, if_true, sub_self, abs_zero]
    exact mul_nonneg (mul_nonneg (by norm_num) (two_zpow_pos _).le) hS0
  · have hx' : 0 < x := hx.resolve_left hv0
    simp only [xlogyF, Grouping.xlogy, if_neg hv0]
    have := step h (a := v * lg x) (x := v * Real.log x) (k := 1) h1 h2 (by norm_num) (by rw [abs_mul, abs_of_nonneg hv]; exact hS) (by
      rw [← mul_sub, abs_mul, abs_of_nonneg hv]
      refine (mul_le_mul_of_nonneg_left (hl x hx') hv).trans ?_
      have := mul_le_mul_of_nonneg_left hS (two_zpow_pos (-50)).le
      linarith)
    refine this.trans (le_of_eq (by norm_num))

theorem xlogy_le (v x : ℝ) (hv : 0 ≤ v) : |Grouping.xlogy v x| ≤ v * |Real.log x| := by
  unfold Grouping.xlogy
  split
  · rename_i hv0; simp [hv0]
  · rw [abs_mul, abs_of_nonneg hv]

theorem sparse_exact {v rate : ℝ} (hv : 0 ≤ v) :
    poissonLogProb v rate = min (if 0 < v then -rate + (Grouping.xlogy v rate - (Grouping.xlogy v v - v)) else -rate) 0 := by
  unfold poissonLogProb
  dsimp only
  rcases hv.eq_or_lt with rfl | hp
  · simp [Grouping.xlogy]
  · rw [if_pos hp]
    congr 1
    ring

/-- **C149 (channel).** The Poisson log likelihood of a channel is computed with an error of at most `2 ^ -47` of the size of its terms, with a dense or a sparse
distribution; nothing overflows, and the result is never positive. -/
theorem C149_channel {rnd lg} (h : Nearest rnd) (hl : Accurate lg) (sparse : Bool) (n : ℕ) {rate : ℝ} (hn : n ≤ 2 ^ 53) (h1 : 2 ^ (-200 : ℤ) ≤ rate)
    (h2 : rate ≤ 2 ^ (60 : ℤ)) : |poissonF rnd lg sparse n rate - poissonLogProb n rate| ≤ 2 ^ (-47 : ℤ) * bulk n rate ∧ poissonF rnd lg sparse n rate ≤ 0 := by
  have hv : (0 : ℝ) ≤ n := Nat.cast_nonneg n
  have hr : 0 < rate := (two_zpow_pos _).trans_le h1
  obtain ⟨b1', b2'⟩ := bulk_bounds hn h1 h2
  have b1 : 2 ^ (-1000 : ℤ) ≤ bulk n rate := (zpow_le (by norm_num)).trans b1'
  have b2 : bulk n rate ≤ 2 ^ (1000 : ℤ) := b2'.trans (zpow_le (by norm_num))
  have p1 := mul_nonneg hv (abs_nonneg (Real.log rate))
  have p2 := mul_nonneg hv (abs_nonneg (Real.log (n : ℝ)))
  have hself : (n : ℝ) = 0 ∨ (0 : ℝ) < n := hv.eq_or_lt.imp Eq.symm id
  have q1 := xlogy_le n rate hv
  have q2 := xlogy_le n n hv
  have eA := xlogy_error h hl hv (Or.inr hr) b1 b2 (x := rate) (by unfold bulk; linarith)
  have eB := xlogy_error h hl hv hself b1 b2 (x := n) (by unfold bulk; linarith)
  have hbulk : bulk n rate = n * |Real.log rate| + n * |Real.log (n : ℝ)| + n + rate := rfl
  have hG : |gofF rnd lg n - (Grouping.xlogy n n - n)| ≤ 3 * 2 ^ (-50 : ℤ) * bulk n rate := by
    have := step h (a := xlogyF rnd lg n n - n) (x := Grouping.xlogy n n - n) (k := 2) b1 b2 (by norm_num)
      ((abs_sub _ _).trans (by rw [abs_of_nonneg hv]; linarith)) (by rwa [sub_sub_sub_cancel_right])
    exact this.trans (le_of_eq (by norm_num))
  have h8 : (2 : ℝ) ^ (-47 : ℤ) * bulk n rate = 8 * 2 ^ (-50 : ℤ) * bulk n rate := by norm_num
  have hz : 0 ≤ (2 : ℝ) ^ (-50 : ℤ) * bulk n rate := mul_nonneg (two_zpow_pos _).le ((two_zpow_pos _).le.trans b1)
  refine ⟨?_, by unfold poissonF; split <;> exact min_le_right _ _⟩
  rw [h8]
  cases sparse with
  | false =>
    simp only [poissonF, Bool.false_eq_true, if_false, poissonLogProb]
    refine (min_lip _ _).trans ?_
    have hA : |rnd (xlogyF rnd lg n rate - rate) - (Grouping.xlogy n rate - rate)| ≤ 3 * 2 ^ (-50 : ℤ) * bulk n rate := by
      have := step h (a := xlogyF rnd lg n rate - rate) (x := Grouping.xlogy n rate - rate) (k := 2) b1 b2 (by norm_num)
        ((abs_sub _ _).trans (by rw [abs_of_pos hr]; linarith)) (by rwa [sub_sub_sub_cancel_right])
      exact this.trans (le_of_eq (by norm_num))
    have := step h (a := rnd (xlogyF rnd lg n rate - rate) - gofF rnd lg n) (x := Grouping.xlogy n rate - rate - (Grouping.xlogy n n - n)) (k := 6) b1 b2 (by norm_num)
      (by
        refine (abs_sub _ _).trans ((add_le_add (abs_sub _ _) (abs_sub _ _)).trans ?_)
        rw [abs_of_pos hr, abs_of_nonneg hv]; linarith)
      (by
        rw [show ∀ a b c d : ℝ, a - b - (c - d) = a - c - (b - d) from fun a b c d => by ring]
        refine (abs_sub _ _).trans ((add_le_add hA hG).trans (le_of_eq (by ring))))
    refine this.trans ?_
    rw [mul_assoc, mul_assoc]
    nlinarith
  | true =>
    rw [sparse_exact hv]
    simp only [poissonF, if_true]
    refine (min_lip _ _).trans ?_
    split
    · have hA : |rnd (xlogyF rnd lg n rate - gofF rnd lg n) - (Grouping.xlogy n rate - (Grouping.xlogy n n - n))| ≤ 6 * 2 ^ (-50 : ℤ) * bulk n rate := by
        have := step h (a := xlogyF rnd lg n rate - gofF rnd lg n) (x := Grouping.xlogy n rate - (Grouping.xlogy n n - n)) (k := 5) b1 b2 (by norm_num)
          (by
            refine (abs_sub _ _).trans ((add_le_add (le_refl _) (abs_sub _ _)).trans ?_)
            rw [abs_of_nonneg hv]; linarith)
          (by
            rw [show ∀ a b c d : ℝ, a - b - (c - d) = a - c - (b - d) from fun a b c d => by ring]
            refine (abs_sub _ _).trans ((add_le_add eA hG).trans (le_of_eq (by ring))))
        exact this.trans (le_of_eq (by norm_num))
      have := step h (a := -rate + rnd (xlogyF rnd lg n rate - gofF rnd lg n)) (x := -rate + (Grouping.xlogy n rate - (Grouping.xlogy n n - n))) (k := 6) b1 b2 (by norm_num)
        (by
          refine (abs_add_le _ _).trans ((add_le_add (le_refl _) ((abs_sub _ _).trans (add_le_add (le_refl _) (abs_sub _ _)))).trans ?_)
          rw [abs_neg, abs_of_pos hr, abs_of_nonneg hv]; linarith)
        (by rwa [add_sub_add_left_eq_sub])
      refine this.trans ?_
      rw [mul_assoc, mul_assoc]
      nlinarith
    · rw [sub_self, abs_zero, mul_assoc]
      linarith

/-- **C149 (perfect channel).** A channel whose expected counts are the observed counts adds exactly zero to the statistic (dense distribution). -/
theorem C149_perfect {rnd lg} (h : Nearest rnd) (v : ℝ) : poissonF rnd lg false v v = 0 := by
  simp only [poissonF, Bool.false_eq_true, if_false, gofF, sub_self]
  rw [h.fix rep_zero (by rw [abs_zero]; exact (two_zpow_pos _).le), min_self]

/-- **C149 (in practice).** With up to a million counts and up to ten million expected counts in a channel, its part of the statistic is off by less than `2e-6`. -/
theorem C149_practice {rnd lg} (h : Nearest rnd) (hl : Accurate lg) (sparse : Bool) (n : ℕ) {rate : ℝ} (hn : n ≤ 10 ^ 6) (h1 : 1e-30 ≤ rate) (h2 : rate ≤ 1e7) :
    |-2 * poissonF rnd lg sparse n rate - -2 * poissonLogProb n rate| ≤ 2e-6 := by
  have g1 : (2 : ℝ) ^ (-200 : ℤ) ≤ rate := le_trans (by norm_num) h1
  have g2 : rate ≤ (2 : ℝ) ^ (60 : ℤ) := h2.trans (by norm_num)
  have he := (C149_channel h hl sparse n (le_trans hn (by norm_num)) g1 g2).1
  have hr : 0 < rate := lt_of_lt_of_le (by norm_num) h1
  have hv : (0 : ℝ) ≤ n := Nat.cast_nonneg n
  have hv2 : (n : ℝ) ≤ 1000000 := by exact_mod_cast hn
  have l2 := Real.log_two_lt_d9
  have l0 := Real.log_pos (by norm_num : (1 : ℝ) < 2)
  have la : |Real.log rate| ≤ 70 := by
    have a1 := Real.log_le_log (two_zpow_pos (-100)) (le_trans (by norm_num) h1 : (2 : ℝ) ^ (-100 : ℤ) ≤ rate)
    have a2 := Real.log_le_log hr (h2.trans (by norm_num) : rate ≤ (2 : ℝ) ^ (24 : ℤ))
    rw [Real.log_zpow] at a1 a2
    push_cast at a1 a2
    rw [_root_.abs_le]
    constructor <;> linarith
  have lb : |Real.log (n : ℝ)| ≤ 14 := by
    rcases Nat.eq_zero_or_pos n with rfl | hp
    · simp
    · have h1n : (1 : ℝ) ≤ n := by exact_mod_cast hp
      have b1 := Real.log_nonneg h1n
      have b2 := Real.log_le_log (by linarith) (hv2.trans (by norm_num) : (n : ℝ) ≤ (2 : ℝ) ^ (20 : ℤ))
      rw [Real.log_zpow] at b2
      push_cast at b2
      rw [abs_of_nonneg b1]
      linarith
  have m1 := mul_le_mul hv2 la (abs_nonneg _) (by norm_num)
  have m2 := mul_le_mul hv2 lb (abs_nonneg _) (by norm_num)
  have hb : bulk n rate ≤ 95000000 := by
    unfold bulk
    norm_num at m1 m2 h2
    clear g1 g2 h1
    linarith
  have := mul_le_mul_of_nonneg_left hb (two_zpow_pos (-47)).le
  rw [← mul_sub, abs_mul, abs_neg, abs_two]
  have h3 := he.trans this
  refine (mul_le_mul_of_nonneg_left h3 (by norm_num)).trans ?_
  norm_num

/-! ## The statistic of a data set -/

theorem counts_bounds {rnd} (h : Nearest rnd) (p : Prog) (A T : ℝ) : 2 ^ (-200 : ℤ) ≤ counts rnd p A T ∧ counts rnd p A T ≤ 2 ^ (60 : ℤ) := by
  have h30 : (2 : ℝ) ^ (-200 : ℤ) ≤ rnd 1e-30 :=
    h.ge ((abs_bound (q := 0) (by norm_num) (by norm_num) (by norm_num))) (rep_pow (by norm_num) (by norm_num)) (by norm_num)
  unfold counts
  exact ⟨le_min (h30.trans (le_max_right _ _)) (by norm_num), (min_le_right _ _).trans (by norm_num)⟩

theorem log_near {m μ ε : ℝ} (hμ : 0 < μ) (he : ε ≤ 1 / 2) (h : |m - μ| ≤ ε * μ) : |Real.log m - Real.log μ| ≤ 2 * ε := by
  obtain ⟨h1, h2⟩ := _root_.abs_le.1 h
  have hm : 0 < m := by nlinarith
  have e0 : 0 ≤ ε := by
    by_contra hc
    have := (abs_nonneg _).trans h
    nlinarith
  have a1 := Real.log_le_sub_one_of_pos (div_pos hm hμ)
  have a2 := Real.log_le_sub_one_of_pos (div_pos hμ hm)
  rw [Real.log_div hm.ne' hμ.ne'] at a1
  rw [Real.log_div hμ.ne' hm.ne'] at a2
  have b1 : m / μ - 1 ≤ ε := by rw [sub_le_iff_le_add, div_le_iff₀ hμ]; linarith
  have b2 : μ / m - 1 ≤ 2 * ε := by rw [sub_le_iff_le_add, div_le_iff₀ hm]; nlinarith
  rw [_root_.abs_le]
  constructor <;> linarith

theorem bulk_near {n : ℕ} {m μ ε : ℝ} (hμ : 0 < μ) (he : ε ≤ 1 / 2) (h : |m - μ| ≤ ε * μ) : bulk n m ≤ 2 * bulk n μ := by
  have hl := log_near hμ he h
  have hv : (0 : ℝ) ≤ n := Nat.cast_nonneg n
  have h3 : |Real.log m| ≤ |Real.log μ| + 1 := by
    have := abs_sub_abs_le_abs_sub (Real.log m) (Real.log μ); linarith
  have h4 := mul_le_mul_of_nonneg_left h3 hv
  have h5 : m ≤ μ + ε * μ := by have := (_root_.abs_le.1 h).2; linarith
  have p1 := mul_nonneg hv (abs_nonneg (Real.log μ))
  have p2 := mul_nonneg hv (abs_nonneg (Real.log (n : ℝ)))
  unfold bulk
  nlinarith

theorem exact_near {n : ℕ} {m μ ε : ℝ} (hμ : 0 < μ) (he : ε ≤ 1 / 2) (h : |m - μ| ≤ ε * μ) : |poissonLogProb n m - poissonLogProb n μ| ≤ 2 * ε * bulk n μ := by
  have hl := log_near hμ he h
  have hv : (0 : ℝ) ≤ n := Nat.cast_nonneg n
  have p1 := mul_nonneg hv (abs_nonneg (Real.log μ))
  have p2 := mul_nonneg hv (abs_nonneg (Real.log (n : ℝ)))
  have e0 : 0 ≤ ε := by
    by_contra hc
    have := (abs_nonneg _).trans h
    nlinarith
  unfold poissonLogProb
  refine (min_lip _ _).trans ?_
  have hx : |Grouping.xlogy n m - Grouping.xlogy n μ| ≤ n * (2 * ε) := by
    unfold Grouping.xlogy
    split
    · rename_i h0; simp [h0]
    · rw [← mul_sub, abs_mul, abs_of_nonneg hv]
      exact mul_le_mul_of_nonneg_left hl hv
  rw [show ∀ a b c d e : ℝ, a - b - c - (d - e - c) = a - d - (b - e) from fun a b c d e => by ring]
  refine (abs_sub _ _).trans ((add_le_add hx h).trans ?_)
  have : n + μ ≤ bulk n μ := by unfold bulk; linarith
  have := mul_le_mul_of_nonneg_left this e0
  nlinarith

/-- The additions of a sum as a sum of products. -/
def toProg : Tree → Prog
  | .leaf x => .prod true 1 (-x)
  | .node l r => .add (toProg l) (toProg r)

theorem toProg_value (rnd : ℝ → ℝ) : ∀ t : Tree, (toProg t).value (fun x => -rnd (-x)) = -t.value rnd
  | .leaf x => by simp [toProg, Prog.value, Tree.value]
  | .node l r => by
    simp only [toProg, Prog.value, Tree.value, toProg_value rnd l, toProg_value rnd r]
    congr 2
    ring

theorem toProg_terms : ∀ t : Tree, (toProg t).terms = t.leaves.map fun x => (1, -x)
  | .leaf x => by simp [toProg, Prog.terms, Tree.leaves]
  | .node l r => by simp [toProg, Prog.terms, Tree.leaves, toProg_terms l, toProg_terms r]

theorem toProg_size : ∀ t : Tree, (toProg t).size = t.leaves.length
  | .leaf x => by simp [toProg, Prog.size, Tree.leaves]
  | .node l r => by simp [toProg, Prog.size, Tree.leaves, toProg_size l, toProg_size r]

theorem sum_neg_list : ∀ xs : List ℝ, (xs.map fun x => 1 * -x).sum = -xs.sum
  | [] => by simp
  | x :: xs => by
    have := sum_neg_list xs
    simp only [one_mul] at this
    simp [this]; ring

/-- Adding up non-positive numbers. -/
theorem total_error {F : Impl} (h : F.Legal) (t : ℕ) (xs : List ℝ) (hx : ∀ x ∈ xs, x ≤ 0) (hs : -xs.sum ≤ 2 ^ (500 : ℤ)) (hn : xs.length ≤ 2 ^ 50) :
    |F.sum t xs - xs.sum| ≤ xs.length * 2 ^ (-52 : ℤ) * -xs.sum + 4 * xs.length * tiny := by
  cases xs with
  | nil => simp [Impl.sum]
  | cons x r =>
    have hN : Nearest F.rnd := h.nearest
    generalize hxs : x :: r = ys at *
    have hne : ys ≠ [] := by rw [← hxs]; simp
    have hp := h.leaves t ys hne
    have hval : F.sum t ys = (F.order t ys).value F.rnd := by rw [← hxs]; rfl
    rw [hval]
    generalize F.order t ys = T at hp
    have hlen : (toProg T).size = ys.length := by rw [toProg_size, hp.length_eq]
    have hsum : (toProg T).exact = -ys.sum := by
      unfold Prog.exact
      rw [toProg_terms, List.map_map]
      rw [show ((fun t : ℝ × ℝ => t.1 * t.2) ∘ fun x : ℝ => ((1 : ℝ), -x)) = fun x : ℝ => 1 * -x from rfl, sum_neg_list, hp.sum_eq]
    have hd : (1 + unit) ^ (toProg T).depth ≤ (1 + unit) ^ ys.length :=
      pow_le_pow_right₀ (by linarith [unit_pos]) (hlen ▸ Prog.depth_le _)
    have hg := grow ys.length (by omega)
    have hu2 : 2 * (ys.length : ℝ) * unit = ys.length * 2 ^ (-52 : ℤ) := by unfold unit; rw [mul_comm 2, mul_assoc]; norm_num
    have hsmall : (ys.length : ℝ) * 2 ^ (-52 : ℤ) ≤ 1 := by
      have : (ys.length : ℝ) ≤ 2 ^ 50 := by exact_mod_cast hn
      exact (mul_le_mul_of_nonneg_right this (two_zpow_pos _).le).trans (by norm_num)
    rw [hu2] at hg
    have hs0 : 0 ≤ -ys.sum := by
      have := List.sum_nonneg (l := ys.map fun x => 1 * -x) (by
        intro z hz
        obtain ⟨y, hy, rfl⟩ := List.mem_map.1 hz
        have := hx y hy
        simpa using this)
      rwa [sum_neg_list] at this
    have hl0 : (0 : ℝ) ≤ ys.length := Nat.cast_nonneg _
    have h1len : (1 : ℝ) ≤ ys.length := by
      have : 0 < ys.length := List.length_pos_iff.2 hne
      exact_mod_cast this
    have htiny := tiny_pos
    have hbig : (toProg T).exact * (1 + unit) ^ (toProg T).depth + (2 * (toProg T).size - 1) * tiny * (1 + unit) ^ (toProg T).depth ≤ 2 ^ (1023 : ℤ) := by
      rw [hsum, hlen]
      have hP : (1 + unit) ^ (toProg T).depth ≤ 2 := by linarith
      have t1 : tiny ≤ 1 := by
        unfold tiny
        rw [show (1 : ℝ) = 2 ^ (0 : ℤ) by norm_num]
        exact zpow_le (by norm_num)
      have hlr : (ys.length : ℝ) ≤ 2 ^ 50 := by exact_mod_cast hn
      have c1 : -ys.sum * (1 + unit) ^ (toProg T).depth ≤ 2 ^ (500 : ℤ) * 2 := mul_le_mul hs hP (by linarith [one_le_pow₀ (n := (toProg T).depth) (by linarith [unit_pos] : (1 : ℝ) ≤ 1 + unit)]) (two_zpow_pos _).le
      have c2 : (2 * (ys.length : ℝ) - 1) * tiny * (1 + unit) ^ (toProg T).depth ≤ 2 ^ 51 * 1 * 2 := by
        refine mul_le_mul (mul_le_mul (by
          rw [show (2 : ℝ) ^ 51 = 2 * 2 ^ 50 by norm_num]
          exact (sub_le_self _ zero_le_one).trans (mul_le_mul_of_nonneg_left hlr (by norm_num))) t1 htiny.le (by norm_num)) hP ?_ (by norm_num)
        linarith [one_le_pow₀ (n := (toProg T).depth) (by linarith [unit_pos] : (1 : ℝ) ≤ 1 + unit)]
      refine (add_le_add c1 c2).trans ?_
      have e1 : (2 : ℝ) ^ (500 : ℤ) * 2 ≤ 2 ^ (1022 : ℤ) := by
        rw [show (2 : ℝ) ^ (500 : ℤ) * 2 = 2 ^ (500 + 1 : ℤ) by rw [zpow_add₀ (by norm_num), zpow_one]]
        exact zpow_le (by norm_num)
      have e2 : (2 : ℝ) ^ 51 * 1 * 2 ≤ 2 ^ (1022 : ℤ) := by
        rw [show (2 : ℝ) ^ 51 * 1 * 2 = 2 ^ (52 : ℤ) by norm_num]
        exact zpow_le (by norm_num)
      have e3 : (2 : ℝ) ^ (1023 : ℤ) = 2 ^ (1022 : ℤ) + 2 ^ (1022 : ℤ) := by
        rw [show (1023 : ℤ) = 1022 + 1 by norm_num, zpow_add₀ (by norm_num), zpow_one]; ring
      rw [e3]
      exact add_le_add e1 e2
    obtain ⟨-, -, hw⟩ := prog_error hN.neg (toProg T) (by
      intro z hz
      rw [toProg_terms] at hz
      obtain ⟨y, hy, rfl⟩ := List.mem_map.1 hz
      have := hx y (hp.subset hy)
      exact ⟨by norm_num, by simpa using this⟩) hbig
    unfold Within at hw
    rw [toProg_value, hsum, hlen] at hw
    rw [show -T.value F.rnd - -ys.sum = -(T.value F.rnd - ys.sum) by ring, abs_neg] at hw
    refine hw.trans ?_
    clear hbig hs
    have hP : (1 + unit) ^ (toProg T).depth ≤ 1 + ys.length * 2 ^ (-52 : ℤ) := by linarith
    generalize (1 + unit) ^ (toProg T).depth = P at *
    generalize (2 : ℝ) ^ (-52 : ℤ) = z at *
    have k1 : (P - 1) * -ys.sum ≤ ys.length * z * -ys.sum := mul_le_mul_of_nonneg_right (by linarith) hs0
    have k2 : (2 * (ys.length : ℝ) - 1) * tiny * P ≤ (2 * (ys.length : ℝ) - 1) * tiny * 2 :=
      mul_le_mul_of_nonneg_left (by linarith) (mul_nonneg (by linarith) htiny.le)
    nlinarith

theorem sum_near {l : List ℕ} {f g w : ℕ → ℝ} (h : ∀ j ∈ l, |f j - g j| ≤ w j) : |(l.map f).sum - (l.map g).sum| ≤ (l.map w).sum := by
  induction l with
  | nil => simp
  | cons a l ih =>
    simp only [List.map_cons, List.sum_cons]
    rw [add_sub_add_comm]
    exact (abs_add_le _ _).trans (add_le_add (h a (by simp)) (ih fun j hj => h j (List.mem_cons_of_mem _ hj)))

theorem sum_mono {l : List ℕ} {f g : ℕ → ℝ} (h : ∀ j ∈ l, f j ≤ g j) : (l.map f).sum ≤ (l.map g).sum := by
  induction l with
  | nil => simp
  | cons a l ih =>
    simp only [List.map_cons, List.sum_cons]
    exact add_le_add (h a (by simp)) (ih fun j hj => h j (List.mem_cons_of_mem _ hj))

theorem sum_scale (l : List ℕ) (c : ℝ) (f : ℕ → ℝ) : (l.map fun j => c * f j).sum = c * (l.map f).sum := by
  induction l with
  | nil => simp
  | cons a l ih => simp only [List.map_cons, List.sum_cons, ih]; ring

theorem sum_plus (l : List ℕ) (f g : ℕ → ℝ) : (l.map fun j => f j + g j).sum = (l.map f).sum + (l.map g).sum := by
  induction l with
  | nil => simp
  | cons a l ih => simp only [List.map_cons, List.sum_cons, ih]; ring

theorem exact_le {n : ℕ} {μ : ℝ} (hμ : 0 < μ) : |poissonLogProb n μ| ≤ bulk n μ := by
  have hv : (0 : ℝ) ≤ n := Nat.cast_nonneg n
  have q1 := xlogy_le n μ hv
  have q2 := xlogy_le n n hv
  unfold poissonLogProb bulk
  have : |min (Grouping.xlogy n μ - μ - (Grouping.xlogy n n - n)) 0| ≤ |Grouping.xlogy n μ - μ - (Grouping.xlogy n n - n)| := by
    have := min_lip (Grouping.xlogy n μ - μ - (Grouping.xlogy n n - n)) 0
    simpa using this
  refine this.trans ((abs_sub _ _).trans ((add_le_add (abs_sub _ _) (abs_sub _ _)).trans ?_))
  rw [abs_of_pos hμ, abs_of_nonneg hv]
  linarith

/-- What the theorem below asks of a data set and of the model values: non-negative response, model values within the limits they are clipped to, area scales and exposure that
are not astronomical, whole numbers of counts. -/
structure Sane (d : FitData) (unfold : List ℝ) (progs : ℕ → Prog) : Prop where
  way : ∀ j < d.size, Computes (progs j) (column d unfold j) ∧ (progs j).size ≤ 2 ^ 48
  whole : ∀ j < d.size, ∃ n : ℕ, nth d.specCounts j = n ∧ n ≤ 2 ^ 53
  response : ∀ j < d.size, ∀ r < d.matrix.length, 0 ≤ nth (d.matrix.getD r []) j
  model : ∀ r < d.matrix.length, 1e-300 ≤ nth unfold r ∧ nth unfold r ≤ 1e300
  area : ∀ j < d.size, 0 ≤ nth d.areaScale j ∧ nth d.areaScale j ≤ 2 ^ (60 : ℤ)
  exposure : 0 ≤ d.exposure ∧ d.exposure ≤ 2 ^ (60 : ℤ)
  rate : ∀ j < d.size, ((column d unfold j).map fun t => t.1 * t.2).sum ≤ 2 ^ (900 : ℤ)
  channels : d.size ≤ 2 ^ 48

theorem exact_counts_bounds (d : FitData) (unfold : List ℝ) (j : ℕ) : 1e-30 ≤ d.sourceCounts unfold j ∧ d.sourceCounts unfold j ≤ 1e15 := by
  unfold FitData.sourceCounts clip
  exact ⟨le_min (le_max_right _ _) (by norm_num), min_le_right _ _⟩

theorem one_channel {rnd lg} (h : Nearest rnd) (hl : Accurate lg) (sparse : Bool) {d : FitData} {unfold : List ℝ} {progs : ℕ → Prog} (hs : Sane d unfold progs) {j : ℕ}
    (hj : j < d.size) :
    |poissonF rnd lg sparse (nth d.specCounts j) (counts rnd (progs j) (nth d.areaScale j) d.exposure) - poissonLogProb (nth d.specCounts j) (d.sourceCounts unfold j)|
      ≤ ((progs j).size + 35) * 2 ^ (-51 : ℤ) * bulk (nth d.specCounts j) (d.sourceCounts unfold j) ∧
    poissonF rnd lg sparse (nth d.specCounts j) (counts rnd (progs j) (nth d.areaScale j) d.exposure) ≤ 0 ∧
    2 ^ (-200 : ℤ) ≤ bulk (nth d.specCounts j) (d.sourceCounts unfold j) ∧ bulk (nth d.specCounts j) (d.sourceCounts unfold j) ≤ 2 ^ (100 : ℤ) ∧
    |poissonLogProb (nth d.specCounts j) (d.sourceCounts unfold j)| ≤ bulk (nth d.specCounts j) (d.sourceCounts unfold j) := by
  obtain ⟨n, hn, hn2⟩ := hs.whole j hj
  rw [hn]
  have hK := (hs.way j hj).2
  have hKr : ((progs j).size : ℝ) ≤ 2 ^ 48 := by exact_mod_cast hK
  have hc := C147_counts h d unfold j (progs j) (hs.way j hj).1 (hK.trans (by norm_num)) (hs.response j hj) hs.model (hs.area j hj) hs.exposure (hs.rate j hj)
  obtain ⟨c1, c2⟩ := counts_bounds h (progs j) (nth d.areaScale j) d.exposure
  obtain ⟨m1, m2⟩ := exact_counts_bounds d unfold j
  have hμ : 0 < d.sourceCounts unfold j := lt_of_lt_of_le (by norm_num) m1
  have g1 : (2 : ℝ) ^ (-200 : ℤ) ≤ d.sourceCounts unfold j := le_trans (by norm_num) m1
  have g2 : d.sourceCounts unfold j ≤ (2 : ℝ) ^ (60 : ℤ) := m2.trans (by norm_num)
  have hε : (((progs j).size : ℝ) + 3) * 2 ^ (-52 : ℤ) ≤ 1 / 2 :=
    (mul_le_mul_of_nonneg_right (add_le_add hKr (le_refl _)) (two_zpow_pos _).le).trans (by norm_num)
  have hch := C149_channel h hl sparse n hn2 c1 c2
  have hb := bulk_near (n := n) hμ hε hc
  have he := exact_near (n := n) hμ hε hc
  have hbb := bulk_bounds hn2 g1 g2
  refine ⟨?_, hch.2, hbb.1, hbb.2, exact_le hμ⟩
  refine (abs_sub_le _ (poissonLogProb n (counts rnd (progs j) (nth d.areaScale j) d.exposure)) _).trans ((add_le_add hch.1 he).trans ?_)
  refine (add_le_add (mul_le_mul_of_nonneg_left hb (two_zpow_pos _).le) (le_refl _)).trans (le_of_eq ?_)
  rw [show (2 : ℝ) ^ (-47 : ℤ) = 16 * 2 ^ (-51 : ℤ) by norm_num, show (2 : ℝ) ^ (-52 : ℤ) = 1 / 2 * 2 ^ (-51 : ℤ) by norm_num]
  ring

/-- **C149.** The C-statistic of a data set as computed in float64, from the product with the response to the sum over the channels, differs from the exact one
by at most `2 ^ -50` times the sum over the channels of the size of their terms, times the number of operations a channel goes through (photon bins, channels, and 39 more):
in whatever order the sums are taken, and with a dense or a sparse Poisson distribution. -/
theorem C149_statistic {F : Impl} (h : F.Legal) {lg : ℝ → ℝ} (hl : Accurate lg) (sparse : Bool) {d : FitData} {unfold : List ℝ} {progs : ℕ → Prog}
    (hs : Sane d unfold progs) {sites : Sites} (hsites : likelihood .cstat d unfold = .ok sites) :
    |devianceF F lg sparse d progs - (deviance (getLoglike [sites])).total| ≤
      ((List.range d.size).map fun j : ℕ => ((progs j).size + d.size + 39) * 2 ^ (-50 : ℤ) * bulk (nth d.specCounts j) (d.sourceCounts unfold j)).sum := by
  have hN : Nearest F.rnd := h.nearest
  have hex : (deviance (getLoglike [sites])).total = -2 * ((List.range d.size).map fun j : ℕ => poissonLogProb (nth d.specCounts j) (d.sourceCounts unfold j)).sum := by
    simp only [likelihood, Except.ok.injEq] at hsites
    subst hsites
    simp only [deviance, getLoglike, List.map_cons, List.map_nil, List.flatten_cons, List.flatten_nil, List.append_nil]
    congr 2
    apply List.map_congr_left
    intro j hj
    have hj' := List.mem_range.1 hj
    simp [nth, hj']
  rw [hex]
  have hmain := fun j (hj : j ∈ List.range d.size) => one_channel hN hl sparse hs (List.mem_range.1 hj)
  unfold devianceF
  have hneg : ∀ x ∈ loglikeF F.rnd lg sparse d progs, x ≤ 0 := by
    intro x hx
    obtain ⟨j, hj, rfl⟩ := List.mem_map.1 hx
    exact (hmain j hj).2.1
  have hlen : (loglikeF F.rnd lg sparse d progs).length = d.size := by simp [loglikeF]
  have hdef : loglikeF F.rnd lg sparse d progs = (List.range d.size).map fun j : ℕ =>
      poissonF F.rnd lg sparse (nth d.specCounts j) (counts F.rnd (progs j) (nth d.areaScale j) d.exposure) := rfl
  have hsum := sum_near (fun j hj => (hmain j hj).1)
  rw [← hdef] at hsum
  have hchan : (d.size : ℝ) ≤ 2 ^ 48 := by exact_mod_cast hs.channels
  have hK : ∀ j ∈ List.range d.size, ((progs j).size : ℝ) ≤ 2 ^ 48 := fun j hj => by exact_mod_cast (hs.way j (List.mem_range.1 hj)).2
  -- the computed numbers are at most twice the size of the terms
  have hC : -(loglikeF F.rnd lg sparse d progs).sum ≤ 2 * ((List.range d.size).map fun j : ℕ => bulk (nth d.specCounts j) (d.sourceCounts unfold j)).sum := by
    rw [← sum_scale, hdef, ← sum_neg_list, List.map_map]
    refine sum_mono fun j hj => ?_
    obtain ⟨a1, a2, a3, a4, a5⟩ := hmain j hj
    have hB : 0 ≤ bulk (nth d.specCounts j) (d.sourceCounts unfold j) := (two_zpow_pos _).le.trans a3
    have : (((progs j).size : ℝ) + 35) * 2 ^ (-51 : ℤ) ≤ 1 :=
      (mul_le_mul_of_nonneg_right (add_le_add (hK j hj) (le_refl _)) (two_zpow_pos _).le).trans (by norm_num)
    have := mul_le_mul_of_nonneg_right this hB
    have b1 := (_root_.abs_le.1 a1).1
    have b2 := (_root_.abs_le.1 a5).1
    simp only [Function.comp_apply]
    clear a3 a4
    linarith
  have hBlow : (d.size : ℝ) * tiny ≤ 2 ^ (-52 : ℤ) * ((List.range d.size).map fun j : ℕ => bulk (nth d.specCounts j) (d.sourceCounts unfold j)).sum := by
    have := sum_mono (l := List.range d.size) (f := fun _ => tiny) (g := fun j => 2 ^ (-52 : ℤ) * bulk (nth d.specCounts j) (d.sourceCounts unfold j))
      fun j hj => tiny_le ((zpow_le (by norm_num)).trans (hmain j hj).2.2.1)
    rw [sum_scale] at this
    simpa using this
  have hBhigh : ((List.range d.size).map fun j : ℕ => bulk (nth d.specCounts j) (d.sourceCounts unfold j)).sum ≤ 2 ^ (200 : ℤ) := by
    have := sum_mono (l := List.range d.size) (g := fun _ => (2 : ℝ) ^ (100 : ℤ)) fun j hj => (hmain j hj).2.2.2.1
    refine this.trans ?_
    simp only [List.map_const', List.length_range, List.sum_replicate, nsmul_eq_mul]
    exact (mul_le_mul_of_nonneg_right hchan (two_zpow_pos _).le).trans (by norm_num)
  have hB0 : 0 ≤ ((List.range d.size).map fun j : ℕ => bulk (nth d.specCounts j) (d.sourceCounts unfold j)).sum :=
    List.sum_nonneg fun x hx => by
      obtain ⟨j, hj, rfl⟩ := List.mem_map.1 hx
      exact (two_zpow_pos _).le.trans (hmain j hj).2.2.1
  have hsplit : ((List.range d.size).map fun j : ℕ => ((progs j).size + d.size + 39) * 2 ^ (-50 : ℤ) * bulk (nth d.specCounts j) (d.sourceCounts unfold j)).sum =
      2 * ((List.range d.size).map fun j : ℕ => ((progs j).size + 35) * 2 ^ (-51 : ℤ) * bulk (nth d.specCounts j) (d.sourceCounts unfold j)).sum +
      (d.size + 4) * 2 ^ (-50 : ℤ) * ((List.range d.size).map fun j : ℕ => bulk (nth d.specCounts j) (d.sourceCounts unfold j)).sum := by
    rw [← sum_scale, ← sum_scale, ← sum_plus]
    congr 1
    apply List.map_congr_left
    intro j _
    rw [show (2 : ℝ) ^ (-51 : ℤ) = 1 / 2 * 2 ^ (-50 : ℤ) by norm_num]
    ring
  rw [hsplit]
  generalize ((List.range d.size).map fun j : ℕ => bulk (nth d.specCounts j) (d.sourceCounts unfold j)).sum = B at *
  generalize ((List.range d.size).map fun j : ℕ => ((progs j).size + 35) * 2 ^ (-51 : ℤ) * bulk (nth d.specCounts j) (d.sourceCounts unfold j)).sum = E at *
  generalize ((List.range d.size).map fun j : ℕ => poissonLogProb (nth d.specCounts j) (d.sourceCounts unfold j)).sum = X at *
  have hS500 : -(loglikeF F.rnd lg sparse d progs).sum ≤ 2 ^ (500 : ℤ) := by
    refine hC.trans ((mul_le_mul_of_nonneg_left hBhigh (by norm_num)).trans ?_)
    rw [show (2 : ℝ) * 2 ^ (200 : ℤ) = 2 ^ (201 : ℤ) by norm_num]
    exact zpow_le (by norm_num)
  have htot := total_error h 0 _ hneg hS500 (by rw [hlen]; exact hs.channels.trans (by norm_num))
  rw [hlen] at htot
  clear hS500 hex hsplit
  by_cases hz : d.size = 0
  · have hnil : loglikeF F.rnd lg sparse d progs = [] := by rw [← List.length_eq_zero_iff, hlen, hz]
    rw [hnil] at hsum ⊢
    simp only [List.sum_nil, zero_sub, abs_neg] at hsum
    simp only [Impl.sum, mul_zero]
    rw [hN.fix rep_zero (by rw [abs_zero]; exact (two_zpow_pos _).le), zero_sub, abs_neg, abs_mul, abs_neg, abs_two]
    have : (0 : ℝ) ≤ (d.size + 4) * 2 ^ (-50 : ℤ) * B := mul_nonneg (mul_nonneg (by positivity) (two_zpow_pos _).le) hB0
    linarith
  have h1 : (1 : ℝ) ≤ d.size := by exact_mod_cast Nat.pos_of_ne_zero hz
  have ht0 := tiny_pos
  have hC0 : (loglikeF F.rnd lg sparse d progs).sum ≤ 0 := by
    have := List.sum_nonneg (l := (loglikeF F.rnd lg sparse d progs).map fun x => 1 * -x) (by
      intro z hz
      obtain ⟨y, hy, rfl⟩ := List.mem_map.1 hz
      simpa using hneg y hy)
    rw [sum_neg_list] at this
    linarith
  generalize (loglikeF F.rnd lg sparse d progs).sum = C at *
  generalize F.sum 0 (loglikeF F.rnd lg sparse d progs) = V at *
  have hz50 : (2 : ℝ) ^ (-50 : ℤ) = 4 * 2 ^ (-52 : ℤ) := by norm_num
  have hu : unit = 1 / 2 * 2 ^ (-52 : ℤ) := by unfold unit; norm_num
  have hzs : (d.size : ℝ) * 2 ^ (-52 : ℤ) ≤ 1 := (mul_le_mul_of_nonneg_right hchan (two_zpow_pos _).le).trans (by norm_num)
  have hzp : (0 : ℝ) ≤ 2 ^ (-52 : ℤ) := (two_zpow_pos _).le
  have hz1 : (2 : ℝ) ^ (-52 : ℤ) ≤ 1 / 100 := by norm_num
  have hBbig : 2 * (5 * B) ≤ (2 : ℝ) ^ (1023 : ℤ) := by
    have : 2 * (5 * B) ≤ 2 * (5 * 2 ^ (200 : ℤ)) := by
      exact mul_le_mul_of_nonneg_left (mul_le_mul_of_nonneg_left hBhigh (by norm_num)) (by norm_num)
    refine this.trans ?_
    rw [show (2 : ℝ) * (5 * 2 ^ (200 : ℤ)) = 5 / 8 * 2 ^ (204 : ℤ) by norm_num]
    refine (mul_le_mul_of_nonneg_right (by norm_num : (5 / 8 : ℝ) ≤ 1) (two_zpow_pos _).le).trans ?_
    rw [one_mul]
    exact zpow_le (by norm_num)
  have hE : ∀ x : ℝ, |x| ≤ 2 ^ (1023 : ℤ) → |F.rnd x - x| ≤ unit * |x| + tiny := fun x hx => hN.err' hx
  generalize (2 : ℝ) ^ (1023 : ℤ) = Big at *
  have hcase : |V - C| ≤ d.size * 2 ^ (-52 : ℤ) * (2 * B) + 4 * (2 ^ (-52 : ℤ) * B) := by
    refine htot.trans (add_le_add (mul_le_mul_of_nonneg_left hC (mul_nonneg (by linarith) hzp)) ?_)
    linarith
  rw [hz50]
  clear hBhigh hchan hK hmain hz50
  generalize (2 : ℝ) ^ (-52 : ℤ) = z at *
  have hV : |V| ≤ 5 * B := by
    have a1 := abs_add_le (V - C) C
    rw [sub_add_cancel, abs_of_nonpos hC0] at a1
    have a2 := mul_le_mul_of_nonneg_right hzs (by linarith : 0 ≤ 2 * B)
    have a3 := mul_le_mul_of_nonneg_right hz1 hB0
    linarith
  have hV2 : |-2 * V| ≤ 10 * B := by rw [abs_mul, abs_neg, abs_two]; linarith
  have hr := hE (-2 * V) (hV2.trans (by linarith))
  have hr2 := hr.trans (add_le_add (mul_le_mul_of_nonneg_left hV2 unit_pos.le) (le_refl _))
  have ht1 : tiny ≤ z * B := le_trans (by nlinarith) hBlow
  have k1 := abs_sub_le (F.rnd (-2 * V)) (-2 * V) (-2 * X)
  have k2 : |-2 * V - -2 * X| ≤ 2 * (|V - C| + |C - X|) := by
    rw [← mul_sub, abs_mul, abs_neg, abs_two]
    exact mul_le_mul_of_nonneg_left (abs_sub_le _ _ _) (by norm_num)
  rw [hu] at hr2
  have zB : 0 ≤ z * B := mul_nonneg hzp hB0
  nlinarith

/-! ## Concrete cases -/

/-- A logarithm that is always a little off. -/
noncomputable def exLog (x : ℝ) : ℝ := (1 + 2 ^ (-51 : ℤ)) * Real.log x

theorem exLog_ok : Accurate exLog := by
  intro x _
  unfold exLog
  rw [show (1 + (2 : ℝ) ^ (-51 : ℤ)) * Real.log x - Real.log x = 2 ^ (-51 : ℤ) * Real.log x by ring, abs_mul, abs_of_pos (two_zpow_pos _)]
  exact mul_le_mul_of_nonneg_right (zpow_le (by norm_num)) (abs_nonneg _)

theorem exSane : Sane exFold [4, 5] fun _ => .add (.prod false (1 / 2) 4) (.prod true 0 5) := by
  have hj : ∀ j < exFold.size, j = 0 := by simp only [exFold, FitData.size, List.length_cons, List.length_nil]; omega
  refine ⟨?_, ?_, ?_, exFold_ok.2.1, ?_, exFold_ok.2.2.2.1, ?_, by simp [exFold, FitData.size]⟩
  · intro j h; obtain rfl := hj j h; exact ⟨exFold_dense, by norm_num [Prog.size]⟩
  · intro j h; obtain rfl := hj j h; exact ⟨3, by simp [exFold, nth], by norm_num⟩
  · intro j h; obtain rfl := hj j h; exact exFold_ok.1
  · intro j h; obtain rfl := hj j h; exact exFold_ok.2.2.1
  · intro j h; obtain rfl := hj j h; exact exFold_ok.2.2.2.2

example := C149_channel leftNearest exLog_ok true 7 (rate := 3) (by norm_num) (by norm_num) (by norm_num)
example := C149_perfect (lg := exLog) leftNearest 7
example := C149_practice leftNearest exLog_ok false 1000000 (rate := 1e6) (by norm_num) (by norm_num) (by norm_num)
example := C149_statistic leftImpl_legal exLog_ok false exSane rfl

end Elisa.Infer.Fl
