import Verif.Grouping.FloatLima
import Verif.Grouping.SigValue
import Verif.Grouping.SigProps
import Verif.Infer.FloatPoissonProps

/-!
# The significance of Li and Ma in floating point (C151)
-/

namespace Elisa.Grouping.Fl

open Elisa Elisa.Grouping Elisa.Infer.Fl

/-! ## Relative errors -/

/-- One rounding adds two units to a relative error. -/
theorem relstep {rnd} (h : Nearest rnd) {x y : ℝ} {k : ℝ} (h1 : 2 ^ (-200 : ℤ) ≤ x) (h2 : x ≤ 2 ^ (200 : ℤ)) (hk : k ≤ 100) (hy : |y - x| ≤ k * unit * x) :
    |rnd y - x| ≤ (k + 2) * unit * x := by
  have hx : 0 < x := (two_zpow_pos _).trans_le h1
  have hu : 100 * unit ≤ 1 / 2 := by unfold unit; norm_num
  have hk2 : k * unit ≤ 1 / 2 := (mul_le_mul_of_nonneg_right hk unit_pos.le).trans hu
  have hk3 : k * unit * x ≤ 1 / 2 * x := mul_le_mul_of_nonneg_right hk2 hx.le
  obtain ⟨y1, y2⟩ := abs_le.1 hy
  have b1 : 2 ^ (-201 : ℤ) ≤ y := by
    have : (2 : ℝ) ^ (-201 : ℤ) = 1 / 2 * 2 ^ (-200 : ℤ) := by norm_num
    rw [this]
    refine (mul_le_mul_of_nonneg_left h1 (by norm_num)).trans ?_
    clear h1 h2 this
    linarith
  have b2 : y ≤ 2 ^ (201 : ℤ) := by
    have : (2 : ℝ) ^ (201 : ℤ) = 2 * 2 ^ (200 : ℤ) := by norm_num
    rw [this]
    refine le_trans ?_ (mul_le_mul_of_nonneg_left h2 (by norm_num))
    clear h1 h2 this b1
    linarith
  have hr := h.rel ⟨b1, b2⟩ (by norm_num) (by norm_num)
  have h3 := abs_sub_le (rnd y) y x
  have hy3 : unit * y ≤ unit * (2 * x) := mul_le_mul_of_nonneg_left (by linarith) unit_pos.le
  clear b1 b2 h1 h2
  nlinarith [unit_pos]

theorem rel_div {x y k c : ℝ} (hc : 0 < c) (h : |y - x| ≤ k * unit * x) : |y / c - x / c| ≤ k * unit * (x / c) := by
  rw [← sub_div, abs_div, abs_of_pos hc, ← mul_div_assoc]
  exact div_le_div_of_nonneg_right h hc.le

theorem rel_mul {x y k c : ℝ} (hc : 0 < c) (h : |y - x| ≤ k * unit * x) : |y * c - x * c| ≤ k * unit * (x * c) := by
  rw [← sub_mul, abs_mul, abs_of_pos hc, ← mul_assoc]
  exact mul_le_mul_of_nonneg_right h hc.le

/-- Bounds with a whole exponent of two. -/
theorem within {x : ℝ} {p q : ℤ} (h : 2 ^ p ≤ x ∧ x ≤ 2 ^ q) (hp : -200 ≤ p) (hq : q ≤ 200) : 2 ^ (-200 : ℤ) ≤ x ∧ x ≤ 2 ^ (200 : ℤ) :=
  ⟨(zpow_le hp).trans h.1, h.2.trans (zpow_le hq)⟩

theorem nat_bounds {n : ℕ} (h0 : 0 < n) (h1 : n ≤ 2 ^ 50) : 2 ^ (0 : ℤ) ≤ (n : ℝ) ∧ (n : ℝ) ≤ 2 ^ (50 : ℤ) := by
  constructor
  · rw [zpow_zero]; exact_mod_cast h0
  · have : (n : ℝ) ≤ 2 ^ 50 := by exact_mod_cast h1
    refine this.trans (le_of_eq (by norm_num))

theorem total_fix {rnd} (h : Nearest rnd) {n m : ℕ} (hnm : n + m ≤ 2 ^ 50) : rnd ((n : ℝ) + m) = (n : ℝ) + m := by
  have e : (n : ℝ) + m = ((n + m : ℕ) : ℤ) := by push_cast; ring
  rw [e]
  refine h.fix (rep_int ?_) ?_
  · rw [abs_of_nonneg (by positivity)]; exact_mod_cast hnm.trans (by norm_num)
  · refine abs_bound (q := 50) (by positivity) ?_ (by norm_num)
    have : ((n + m : ℕ) : ℝ) ≤ 2 ^ 50 := by exact_mod_cast hnm
    refine le_trans ?_ (this.trans (le_of_eq (by norm_num)))
    exact_mod_cast le_refl _

theorem plus_in {a : ℝ} (ha : In (-30) 30 a) : 2 ^ (0 : ℤ) ≤ 1 + a ∧ 1 + a ≤ 2 ^ (31 : ℤ) := by
  have h0 := ha.pos
  have h1 := ha.2.2
  norm_num at h1 ⊢
  constructor <;> linarith

/-- The argument of the first logarithm. -/
theorem onRatio_error {rnd} (h : Nearest rnd) {n m : ℕ} {a : ℝ} (hn : 0 < n) (hnm : n + m ≤ 2 ^ 50) (ha : In (-30) 30 a) :
    |onRatioF rnd n m a - (1 + a) / a * n / ((n : ℝ) + m)| ≤ 2 ^ (-50 : ℤ) * ((1 + a) / a * n / ((n : ℝ) + m)) ∧
    2 ^ (-50 : ℤ) ≤ (1 + a) / a * n / ((n : ℝ) + m) ∧ (1 + a) / a * n / ((n : ℝ) + m) ≤ 2 ^ (50 : ℤ) := by
  have a0 := ha.pos
  have p1 := plus_in ha
  have hN := nat_bounds hn ((Nat.le_add_right n m).trans hnm)
  have hn0 : (0 : ℝ) < n := by exact_mod_cast hn
  have hS := nat_bounds (n := n + m) (by omega) hnm
  push_cast at hS
  have hs0 : (0 : ℝ) < (n : ℝ) + m := (two_zpow_pos _).trans_le hS.1
  have d1 := div_in p1 ha.2
  have d2 := mul_in d1 hN
  have d3 := div_in d2 hS
  have z0 : |(1 + a) - (1 + a)| ≤ 0 * unit * (1 + a) := by simp
  obtain ⟨w1, w2⟩ := within p1 (by norm_num) (by norm_num)
  have s1 := relstep h w1 w2 (by norm_num) z0
  obtain ⟨w1, w2⟩ := within d1 (by norm_num) (by norm_num)
  have s2 := relstep h w1 w2 (by norm_num) (rel_div a0 s1)
  obtain ⟨w1, w2⟩ := within d2 (by norm_num) (by norm_num)
  have s3 := relstep h w1 w2 (by norm_num) (rel_mul hn0 s2)
  obtain ⟨w1, w2⟩ := within d3 (by norm_num) (by norm_num)
  have s4 := relstep h w1 w2 (by norm_num) (rel_div hs0 s3)
  refine ⟨?_, ?_, ?_⟩
  · unfold onRatioF
    rw [total_fix h hnm]
    refine s4.trans (le_of_eq ?_)
    unfold unit
    norm_num
  · -- the first factor is at least one, the second at least one over the total
    rw [le_div_iff₀ hs0]
    have e1 : 1 ≤ (1 + a) / a := by rw [le_div_iff₀ a0]; linarith
    have e2 : 1 ≤ (1 + a) / a * n := by
      have : (1 : ℝ) ≤ n := by exact_mod_cast hn
      nlinarith
    refine le_trans ?_ e2
    refine (mul_le_mul_of_nonneg_left hS.2 (two_zpow_pos _).le).trans (le_of_eq ?_)
    rw [← zpow_add₀ (by norm_num)]; norm_num
  · rw [div_le_iff₀ hs0]
    have e1 : (1 + a) / a ≤ 2 ^ (31 : ℤ) := by
      rw [div_le_iff₀ a0]
      have := mul_le_mul_of_nonneg_left ha.2.1 (two_zpow_pos 31).le
      rw [← zpow_add₀ (by norm_num)] at this
      norm_num at this ⊢
      nlinarith
    have e2 : (1 + a) / a * n ≤ 2 ^ (31 : ℤ) * ((n : ℝ) + m) :=
      mul_le_mul e1 (by linarith [(Nat.cast_nonneg m : (0 : ℝ) ≤ m)]) hn0.le (two_zpow_pos _).le
    exact e2.trans (mul_le_mul_of_nonneg_right (zpow_le (by norm_num)) hs0.le)

/-- The argument of the second logarithm. -/
theorem offRatio_error {rnd} (h : Nearest rnd) {n m : ℕ} {a : ℝ} (hm : 0 < m) (hnm : n + m ≤ 2 ^ 50) (ha : In (-30) 30 a) :
    |offRatioF rnd n m a - (1 + a) * m / ((n : ℝ) + m)| ≤ 2 ^ (-50 : ℤ) * ((1 + a) * m / ((n : ℝ) + m)) ∧
    2 ^ (-50 : ℤ) ≤ (1 + a) * m / ((n : ℝ) + m) ∧ (1 + a) * m / ((n : ℝ) + m) ≤ 2 ^ (50 : ℤ) := by
  have a0 := ha.pos
  have p1 := plus_in ha
  have hM := nat_bounds hm ((Nat.le_add_left m n).trans hnm)
  have hm0 : (0 : ℝ) < m := by exact_mod_cast hm
  have hS := nat_bounds (n := n + m) (by omega) hnm
  push_cast at hS
  have hs0 : (0 : ℝ) < (n : ℝ) + m := (two_zpow_pos _).trans_le hS.1
  have d2 := mul_in p1 hM
  have d3 := div_in d2 hS
  have z0 : |(1 + a) - (1 + a)| ≤ 0 * unit * (1 + a) := by simp
  obtain ⟨w1, w2⟩ := within p1 (by norm_num) (by norm_num)
  have s1 := relstep h w1 w2 (by norm_num) z0
  obtain ⟨w1, w2⟩ := within d2 (by norm_num) (by norm_num)
  have s3 := relstep h w1 w2 (by norm_num) (rel_mul hm0 s1)
  obtain ⟨w1, w2⟩ := within d3 (by norm_num) (by norm_num)
  have s4 := relstep h w1 w2 (by norm_num) (rel_div hs0 s3)
  refine ⟨?_, ?_, ?_⟩
  · unfold offRatioF
    rw [total_fix h hnm]
    refine s4.trans ?_
    have hx : 0 < (1 + a) * m / ((n : ℝ) + m) := div_pos (mul_pos (by linarith) hm0) hs0
    refine mul_le_mul_of_nonneg_right ?_ hx.le
    unfold unit
    norm_num
  · rw [le_div_iff₀ hs0]
    have e2 : 1 ≤ (1 + a) * m := by
      have : (1 : ℝ) ≤ m := by exact_mod_cast hm
      nlinarith
    refine le_trans ?_ e2
    refine (mul_le_mul_of_nonneg_left hS.2 (two_zpow_pos _).le).trans (le_of_eq ?_)
    rw [← zpow_add₀ (by norm_num)]; norm_num
  · rw [div_le_iff₀ hs0]
    have e2 : (1 + a) * m ≤ 2 ^ (31 : ℤ) * ((n : ℝ) + m) :=
      mul_le_mul p1.2 (by linarith [(Nat.cast_nonneg n : (0 : ℝ) ≤ n)]) hm0.le (two_zpow_pos _).le
    exact e2.trans (mul_le_mul_of_nonneg_right (zpow_le (by norm_num)) hs0.le)

/-! ## The terms -/

theorem log50 {x : ℝ} (h1 : 2 ^ (-50 : ℤ) ≤ x) (h2 : x ≤ 2 ^ (50 : ℤ)) : |Real.log x| ≤ 35 := by
  have h0 : 0 < x := (two_zpow_pos _).trans_le h1
  have l2 := Real.log_two_lt_d9
  have a1 := Real.log_le_log (two_zpow_pos _) h1
  have a2 := Real.log_le_log h0 h2
  rw [Real.log_zpow] at a1 a2
  push_cast at a1 a2
  rw [abs_le]
  constructor <;> linarith

/-- One term, `S` the common size. -/
theorem term_error {rnd lg} (h : Nearest rnd) (hl : Accurate lg) {n : ℕ} {x x' S : ℝ} (hS : 40 * (n : ℝ) ≤ S) (hS1 : 2 ^ (-1000 : ℤ) ≤ S) (hS2 : S ≤ 2 ^ (1000 : ℤ))
    (hx : 0 < n → |x' - x| ≤ 2 ^ (-50 : ℤ) * x ∧ 2 ^ (-50 : ℤ) ≤ x ∧ x ≤ 2 ^ (50 : ℤ)) :
    |(if 0 < (n : ℝ) then xlogyF rnd lg n x' else 0) - (if 0 < (n : ℝ) then xlogy n x else 0)| ≤ 2 * 2 ^ (-50 : ℤ) * S ∧
    |(if 0 < (n : ℝ) then xlogy n x else 0)| ≤ 35 * n := by
  have hS0 : 0 ≤ S := (two_zpow_pos _).le.trans hS1
  rcases Nat.eq_zero_or_pos n with rfl | hn
  · simp only [Nat.cast_zero, lt_self_iff_false, if_false, sub_self, abs_zero, mul_zero, le_refl, and_true]
    exact mul_nonneg (mul_nonneg (by norm_num) (two_zpow_pos _).le) hS0
  · obtain ⟨e1, e2, e3⟩ := hx hn
    have hn0 : (0 : ℝ) < n := by exact_mod_cast hn
    have x0 : 0 < x := (two_zpow_pos _).trans_le e2
    have hl1 := log50 e2 e3
    have hl2 := log_near x0 (by norm_num) e1
    have hx' : 0 < x' := by
      have := (abs_le.1 e1).1
      have : (2 : ℝ) ^ (-50 : ℤ) * x ≤ 1 / 2 * x := mul_le_mul_of_nonneg_right (by norm_num) x0.le
      generalize (2 : ℝ) ^ (-50 : ℤ) * x = z at *
      linarith
    rw [if_pos hn0, if_pos hn0]
    simp only [xlogyF, xlogy, if_neg hn0.ne']
    have hsz : |(n : ℝ) * Real.log x| ≤ 35 * n := by
      rw [abs_mul, abs_of_pos hn0, mul_comm]; exact mul_le_mul_of_nonneg_right hl1 hn0.le
    refine ⟨?_, hsz⟩
    have := step h (a := n * lg x') (x := n * Real.log x) (k := 1) hS1 hS2 (by norm_num) (hsz.trans (by linarith)) (by
      have t1 := hl x' hx'
      have t2 : |Real.log x'| ≤ 36 := by
        have := abs_sub_abs_le_abs_sub (Real.log x') (Real.log x)
        have h5 : 2 * (2 : ℝ) ^ (-50 : ℤ) ≤ 1 := by norm_num
        linarith
      have t3 : |lg x' - Real.log x| ≤ 38 * 2 ^ (-50 : ℤ) := by
        refine (abs_sub_le _ (Real.log x') _).trans ((add_le_add (t1.trans (mul_le_mul_of_nonneg_left t2 (two_zpow_pos _).le)) hl2).trans (le_of_eq ?_))
        norm_num
      rw [← mul_sub, abs_mul, abs_of_pos hn0, one_mul]
      refine (mul_le_mul_of_nonneg_left t3 hn0.le).trans ?_
      have := mul_le_mul_of_nonneg_left hS (two_zpow_pos (-50)).le
      generalize (2 : ℝ) ^ (-50 : ℤ) = z at *
      clear hS1 hS2 e1 e2 e3
      nlinarith [mul_nonneg (hn0.le) (show 0 ≤ z by nlinarith [abs_nonneg (lg x' - Real.log x)])])
    exact this.trans (le_of_eq (by norm_num))

theorem terms_error {rnd lg} (h : Nearest rnd) (hl : Accurate lg) {n m : ℕ} {a : ℝ} (hnm : n + m ≤ 2 ^ 50) (ha : In (-30) 30 a) :
    |limaTermsF rnd lg n m a - 2 * limaTerms n m a| ≤ 2 ^ (-41 : ℤ) * ((n : ℝ) + m) ∧ |limaTerms n m a| ≤ 35 * ((n : ℝ) + m) := by
  have zfix : rnd 0 = 0 := h.fix rep_zero (by rw [abs_zero]; exact (two_zpow_pos _).le)
  by_cases hz : n + m = 0
  · obtain ⟨rfl, rfl⟩ : n = 0 ∧ m = 0 := by omega
    simp [limaTermsF, limaTerms, zfix]
  have hS := nat_bounds (n := n + m) (by omega) hnm
  push_cast at hS
  have hn0 : (0 : ℝ) ≤ n := Nat.cast_nonneg n
  have hm0 : (0 : ℝ) ≤ m := Nat.cast_nonneg m
  have s1 : 2 ^ (-1000 : ℤ) ≤ 40 * ((n : ℝ) + m) := (zpow_le (q := 0) (by norm_num)).trans (hS.1.trans (by linarith))
  have s2 : 40 * ((n : ℝ) + m) ≤ 2 ^ (1000 : ℤ) := by
    refine (mul_le_mul_of_nonneg_left hS.2 (by norm_num)).trans (le_trans ?_ (zpow_le (p := 60) (by norm_num)))
    norm_num
  obtain ⟨e1, z1⟩ := term_error h hl (n := n) (x := (1 + a) / a * n / ((n : ℝ) + m)) (x' := onRatioF rnd n m a) (S := 40 * ((n : ℝ) + m)) (by linarith) s1 s2
    fun hn => onRatio_error h hn hnm ha
  obtain ⟨e2, z2⟩ := term_error h hl (n := m) (x := (1 + a) * m / ((n : ℝ) + m)) (x' := offRatioF rnd n m a) (S := 40 * ((n : ℝ) + m)) (by linarith) s1 s2
    fun hm => offRatio_error h hm hnm ha
  unfold limaTermsF limaTerms
  generalize (if 0 < (n : ℝ) then xlogyF rnd lg n (onRatioF rnd n m a) else 0) = T1 at *
  generalize (if 0 < (m : ℝ) then xlogyF rnd lg m (offRatioF rnd n m a) else 0) = T2 at *
  generalize (if 0 < (n : ℝ) then xlogy n ((1 + a) / a * n / ((n : ℝ) + m)) else 0) = U1 at *
  generalize (if 0 < (m : ℝ) then xlogy m ((1 + a) * m / ((n : ℝ) + m)) else 0) = U2 at *
  have hsum := step h (a := T1 + T2) (x := U1 + U2) (k := 4) s1 s2 (by norm_num) ((abs_add_le _ _).trans (by linarith)) (by
    rw [add_sub_add_comm]
    refine (abs_add_le _ _).trans ((add_le_add e1 e2).trans (le_of_eq (by ring))))
  have s1' : 2 ^ (-1000 : ℤ) ≤ 80 * ((n : ℝ) + m) := s1.trans (by linarith)
  have s2' : 80 * ((n : ℝ) + m) ≤ 2 ^ (1000 : ℤ) := by
    refine (mul_le_mul_of_nonneg_left hS.2 (by norm_num)).trans (le_trans ?_ (zpow_le (p := 60) (by norm_num)))
    norm_num
  have hfin := step h (a := 2 * rnd (T1 + T2)) (x := 2 * (U1 + U2)) (k := 5) s1' s2' (by norm_num)
    (by
      rw [abs_mul, abs_two]
      have := abs_add_le U1 U2
      clear s1 s2 s1' s2'
      linarith)
    (by
      rw [← mul_sub, abs_mul, abs_two]
      refine (mul_le_mul_of_nonneg_left hsum (by norm_num)).trans (le_of_eq (by ring)))
  refine ⟨hfin.trans ?_, (abs_add_le _ _).trans (by linarith)⟩
  have hs0 : 0 ≤ (n : ℝ) + m := by linarith
  rw [show (5 + 1 : ℝ) * 2 ^ (-50 : ℤ) * (80 * ((n : ℝ) + m)) = 480 * 2 ^ (-50 : ℤ) * ((n : ℝ) + m) by ring]
  exact mul_le_mul_of_nonneg_right (by norm_num) hs0

/-- **C151 (terms).** Twice the log likelihood ratio is computed with an error of at most `2 ^ -41` times the number of counts. -/
theorem C151_terms {rnd lg} (h : Nearest rnd) (hl : Accurate lg) {n m : ℕ} {a : ℝ} (hnm : n + m ≤ 2 ^ 50) (ha : In (-30) 30 a) :
    |limaTermsF rnd lg n m a - 2 * limaTerms n m a| ≤ 2 ^ (-41 : ℤ) * ((n : ℝ) + m) := (terms_error h hl hnm ha).1

/-! ## The significance -/

/-- The log likelihood ratio is at most the square of the excess, over its scale. -/
theorem limaTerms_le {n m a : ℝ} (hn : 0 ≤ n) (hm : 0 ≤ m) (ha : 0 < a) (h0 : 0 < n + m) : limaTerms n m a ≤ (n - a * m) ^ 2 / (a * (n + m)) := by
  have t1 : (if 0 < n then xlogy n ((1 + a) / a * n / (n + m)) else 0) ≤ n * ((1 + a) / a * n / (n + m) - 1) := by
    split
    · next hc =>
      rw [xlogy, if_neg hc.ne']
      exact mul_le_mul_of_nonneg_left (Real.log_le_sub_one_of_pos (by positivity)) hn
    · next hc => obtain rfl : n = 0 := le_antisymm (not_lt.1 hc) hn; simp
  have t2 : (if 0 < m then xlogy m ((1 + a) * m / (n + m)) else 0) ≤ m * ((1 + a) * m / (n + m) - 1) := by
    split
    · next hc =>
      rw [xlogy, if_neg hc.ne']
      exact mul_le_mul_of_nonneg_left (Real.log_le_sub_one_of_pos (by positivity)) hm
    · next hc => obtain rfl : m = 0 := le_antisymm (not_lt.1 hc) hm; simp
  unfold limaTerms
  refine (add_le_add t1 t2).trans (le_of_eq ?_)
  field_simp
  ring

/-- The square root costs three units. -/
theorem root_error {rnd} (h : Nearest rnd) {t : ℝ} (h1 : 2 ^ (-42 : ℤ) ≤ t) (h2 : t ≤ 2 ^ (60 : ℤ)) : 0 < rnd (Real.sqrt t) ∧ |rnd (Real.sqrt t) ^ 2 - t| ≤ 3 * unit * t := by
  have t0 : 0 < t := (two_zpow_pos _).trans_le h1
  have r1 : (2 : ℝ) ^ (-21 : ℤ) ≤ Real.sqrt t := by
    refine Real.le_sqrt_of_sq_le (le_trans (le_of_eq ?_) h1)
    norm_num
  have r2 : Real.sqrt t ≤ 2 ^ (30 : ℤ) := by
    refine Real.sqrt_le_iff.2 ⟨(two_zpow_pos _).le, h2.trans (le_of_eq ?_)⟩
    norm_num
  have hr := h.rel ⟨r1, r2⟩ (by norm_num) (by norm_num)
  have hm := h.mem r1 r2 (by norm_num) (by norm_num)
  refine ⟨hm.pos, ?_⟩
  have hq := Real.sq_sqrt t0.le
  have hp := Real.sqrt_pos.2 t0
  have hu : unit ≤ 1 := by unfold unit; norm_num
  generalize rnd (Real.sqrt t) = r at *
  generalize Real.sqrt t = q at *
  rw [← hq, sq_sub_sq, abs_mul, mul_comm]
  have h3 : |r + q| ≤ 3 * q := by
    have := abs_add_le (r - q) (2 * q)
    rw [show r - q + 2 * q = r + q by ring, abs_of_pos (by linarith : 0 < 2 * q)] at this
    have : unit * q ≤ 1 * q := mul_le_mul_of_nonneg_right hu hp.le
    linarith
  refine (mul_le_mul hr h3 (abs_nonneg _) (mul_nonneg unit_pos.le hp.le)).trans (le_of_eq (by ring))

/-- **C151 (error), partial.** A significance whose square is at least `2 ^ -40` times the number of counts is computed: with the right sign, and its square
with an error of at most `2 ^ -40` times the number of counts.  Missing: the smaller significances, where the code can give NaN; see `C151_refuted`. -/
theorem C151_error_partial {rnd lg} (h : Nearest rnd) (hl : Accurate lg) {n m : ℕ} {a : ℝ} (h0 : 0 < n + m) (hnm : n + m ≤ 2 ^ 50) (ha : In (-30) 30 a)
    (hS : 2 ^ (-40 : ℤ) * ((n : ℝ) + m) ≤ significanceLima n m a ^ 2) :
    ∃ s, limaF rnd lg n m a = some s ∧ |s ^ 2 - significanceLima n m a ^ 2| ≤ 2 ^ (-40 : ℤ) * ((n : ℝ) + m) ∧
      (0 < s ↔ 0 < significanceLima n m a) ∧ (s < 0 ↔ significanceLima n m a < 0) := by
  have a0 := ha.pos
  have hn0 : (0 : ℝ) ≤ n := Nat.cast_nonneg n
  have hm0 : (0 : ℝ) ≤ m := Nat.cast_nonneg m
  have hs0 : (0 : ℝ) < (n : ℝ) + m := by exact_mod_cast h0
  have hN := nat_bounds h0 hnm
  push_cast at hN
  obtain ⟨c1, c2, c3, c4, c5⟩ := C10_lima (n : ℝ) m a hn0 hm0 a0
  obtain ⟨e1, e2⟩ := terms_error h hl hnm ha
  have hT := c2
  rw [c2] at hS
  have hle := limaTerms_le hn0 hm0 a0 hs0
  -- the sign
  have hsign : rnd (a * m) ≤ n ↔ a * m ≤ n := by
    have hb : |a * (m : ℝ)| ≤ 2 ^ (1023 : ℤ) := by
      have hm50 : (m : ℝ) ≤ 2 ^ (50 : ℤ) := by linarith [hN.2]
      have := mul_le_mul ha.2.2 hm50 hm0 (two_zpow_pos _).le
      rw [← zpow_add₀ (by norm_num)] at this
      exact abs_bound (mul_nonneg a0.le hm0) this (by norm_num)
    have hrep : Rep (n : ℝ) := by
      have := rep_int (k := n) (by
        rw [abs_of_nonneg (by positivity)]
        exact_mod_cast (show n ≤ 2 ^ 53 by omega))
      simpa using this
    refine ⟨fun hc => ?_, fun hc => h.le hb hrep hc⟩
    by_contra hgt
    push Not at hgt
    have hmp : (0 : ℝ) < m := by
      rcases hm0.eq_or_lt with hz | hz
      · rw [← hz, mul_zero] at hgt; linarith
      · exact hz
    have hm1 : (1 : ℝ) ≤ m := by exact_mod_cast hmp
    -- rounded up to `n`, the product is within a unit of it
    have hlow : (2 : ℝ) ^ (-30 : ℤ) ≤ a * m := ha.2.1.trans (le_mul_of_one_le_right a0.le hm1)
    have hup : a * (m : ℝ) ≤ 2 ^ (80 : ℤ) := by
      have hm50 : (m : ℝ) ≤ 2 ^ (50 : ℤ) := by linarith [hN.2]
      have := mul_le_mul ha.2.2 hm50 hm0 (two_zpow_pos _).le
      rwa [← zpow_add₀ (by norm_num)] at this
    have hr := (_root_.abs_le.1 (h.rel ⟨hlow, hup⟩ (by norm_num) (by norm_num))).1
    have hd : a * m - n ≤ unit * (a * m) := by linarith
    have hu : unit ≤ 1 / 2 ^ 52 := by unfold unit; norm_num
    have hu0 := unit_pos
    have ham : 0 < a * (m : ℝ) := mul_pos a0 hmp
    have hd2 : a * (m : ℝ) ≤ 2 * n := by
      have : unit * (a * m) ≤ 1 / 2 * (a * m) := mul_le_mul_of_nonneg_right (hu.trans (by norm_num)) ham.le
      linarith
    have hsq : (n - a * m) ^ 2 ≤ (unit * (a * m)) ^ 2 := by
      rw [← neg_sub, neg_sq]
      exact pow_le_pow_left₀ (by linarith) hd 2
    have key : limaTerms n m a ≤ unit ^ 2 * (2 * ((n : ℝ) + m)) := by
      refine hle.trans ?_
      rw [div_le_iff₀ (mul_pos a0 hs0)]
      refine hsq.trans ?_
      have k1 : (a * m) ^ 2 ≤ 2 * (n + m) * (a * (n + m)) := by
        have : a * (m : ℝ) ≤ a * (n + m) := mul_le_mul_of_nonneg_left (by linarith) a0.le
        have h5 : a * (m : ℝ) ≤ 2 * (n + m) := by linarith
        nlinarith [mul_le_mul h5 this ham.le (by linarith : (0 : ℝ) ≤ 2 * (n + m))]
      have := mul_le_mul_of_nonneg_left k1 (sq_nonneg unit)
      nlinarith
    have k2 : 2 * (unit ^ 2 * (2 * ((n : ℝ) + m))) < 2 ^ (-40 : ℤ) * ((n : ℝ) + m) := by
      have : 4 * unit ^ 2 < 2 ^ (-40 : ℤ) := by unfold unit; norm_num
      have := mul_lt_mul_of_pos_right this hs0
      nlinarith
    linarith
  -- the value
  have t1 : (2 : ℝ) ^ (-41 : ℤ) * ((n : ℝ) + m) ≤ limaTermsF rnd lg n m a := by
    have := (_root_.abs_le.1 e1).1
    have e : (2 : ℝ) ^ (-40 : ℤ) * ((n : ℝ) + m) = 2 * (2 ^ (-41 : ℤ) * ((n : ℝ) + m)) := by
      rw [← mul_assoc]; congr 1; norm_num
    rw [e] at hS
    generalize (2 : ℝ) ^ (-41 : ℤ) * ((n : ℝ) + m) = z at *
    linarith
  have t2 : limaTermsF rnd lg n m a ≤ 71 * ((n : ℝ) + m) := by
    have := (_root_.abs_le.1 e1).2
    have e : (2 : ℝ) ^ (-41 : ℤ) * ((n : ℝ) + m) ≤ 1 * ((n : ℝ) + m) := mul_le_mul_of_nonneg_right (by norm_num) hs0.le
    have := (_root_.abs_le.1 e2).2
    generalize (2 : ℝ) ^ (-41 : ℤ) * ((n : ℝ) + m) = z at *
    linarith
  have t3 : (2 : ℝ) ^ (-42 : ℤ) ≤ limaTermsF rnd lg n m a := by
    refine le_trans ?_ t1
    refine le_trans ?_ (mul_le_mul_of_nonneg_left hN.1 (two_zpow_pos _).le)
    rw [zpow_zero, mul_one]
    exact zpow_le (by norm_num)
  have t4 : limaTermsF rnd lg n m a ≤ 2 ^ (60 : ℤ) := by
    refine t2.trans ((mul_le_mul_of_nonneg_left hN.2 (by norm_num)).trans ?_)
    norm_num
  obtain ⟨r0, r1⟩ := root_error h t3 t4
  have tp : 0 < limaTermsF rnd lg n m a := (two_zpow_pos _).trans_le t3
  have hT0 : 0 < limaTerms n m a := by
    have : 0 < (2 : ℝ) ^ (-40 : ℤ) * ((n : ℝ) + m) := mul_pos (two_zpow_pos _) hs0
    generalize (2 : ℝ) ^ (-40 : ℤ) * ((n : ℝ) + m) = z at *
    linarith
  refine ⟨_, by rw [limaF, if_neg (not_lt.2 tp.le)], ?_, ?_, ?_⟩
  · rw [mul_pow, show (if rnd (a * m) ≤ (n : ℝ) then (1 : ℝ) else -1) ^ 2 = 1 by split <;> norm_num, one_mul, hT]
    refine (abs_sub_le _ (limaTermsF rnd lg n m a) _).trans ((add_le_add (r1.trans (mul_le_mul_of_nonneg_left t2 (mul_nonneg (by norm_num) unit_pos.le))) e1).trans ?_)
    rw [show 3 * unit * (71 * ((n : ℝ) + m)) + 2 ^ (-41 : ℤ) * ((n : ℝ) + m) = (213 * unit + 2 ^ (-41 : ℤ)) * ((n : ℝ) + m) by ring]
    refine mul_le_mul_of_nonneg_right ?_ hs0.le
    unfold unit
    norm_num
  · rw [c4]
    by_cases hc : a * (m : ℝ) ≤ n
    · rw [if_pos (hsign.2 hc), one_mul]
      refine ⟨fun _ => lt_of_le_of_ne hc fun he => ?_, fun _ => r0⟩
      have := (limaTerms_zero_iff hn0 hm0 a0).2 he.symm
      exact hT0.ne' this
    · rw [if_neg (fun hd => hc (hsign.1 hd))]
      constructor <;> intro hx <;> linarith
  · rw [c5]
    by_cases hc : a * (m : ℝ) ≤ n
    · rw [if_pos (hsign.2 hc), one_mul]
      constructor <;> intro hx <;> linarith
    · rw [if_neg (fun hd => hc (hsign.1 hd))]
      push Not at hc
      exact ⟨fun _ => hc, fun _ => by linarith⟩

/-- **C151 (practice).** With at most a million counts and a significance of at least one, the error of the significance is at most one millionth. -/
theorem C151_practice {rnd lg} (h : Nearest rnd) (hl : Accurate lg) {n m : ℕ} {a : ℝ} (hnm : n + m ≤ 10 ^ 6) (ha : In (-30) 30 a)
    (hS : 1 ≤ |significanceLima n m a|) : ∃ s, limaF rnd lg n m a = some s ∧ |s - significanceLima n m a| ≤ 1 / 10 ^ 6 := by
  have h0 : 0 < n + m := by
    rcases Nat.eq_zero_or_pos (n + m) with hz | hz
    · obtain ⟨rfl, rfl⟩ : n = 0 ∧ m = 0 := by omega
      simp [significanceLima, limaTerms] at hS
      exact absurd hS (by norm_num)
    · exact hz
  have hN : (n : ℝ) + m ≤ 10 ^ 6 := by exact_mod_cast hnm
  have hz : (2 : ℝ) ^ (-40 : ℤ) * ((n : ℝ) + m) ≤ 1 / 10 ^ 6 := (mul_le_mul_of_nonneg_left hN (two_zpow_pos _).le).trans (by norm_num)
  have hq : 1 ≤ significanceLima n m a ^ 2 := by
    rw [← sq_abs]; nlinarith [abs_nonneg (significanceLima (n : ℝ) m a)]
  obtain ⟨s, e, e1, e2, e3⟩ := C151_error_partial h hl h0 (hnm.trans (by norm_num)) ha (hz.trans (le_trans (by norm_num) hq))
  refine ⟨s, e, ?_⟩
  have e4 := e1.trans hz
  generalize significanceLima (n : ℝ) m a = S at *
  have hs : 1 ≤ |s + S| := by
    rcases lt_trichotomy S 0 with hc | hc | hc
    · rw [abs_of_neg hc] at hS
      have := e3.2 hc
      rw [abs_of_neg (by linarith)]; linarith
    · rw [hc, abs_zero] at hS; exact absurd hS (by norm_num)
    · rw [abs_of_pos hc] at hS
      have := e2.2 hc
      rw [abs_of_pos (by linarith)]; linarith
  rw [sq_sub_sq, abs_mul] at e4
  nlinarith [abs_nonneg (s - S)]

/-! ## The grouping -/

theorem greedy_same {s : ℕ → ℕ → Option ℝ} {sig : ℝ} {ok : ℕ → ℕ → Bool} {nd : ℕ} (hr : ∀ a b, a < b → b ≤ nd → reaches sig (s a b) = ok a b)
    (hf : ∀ a, a < nd → falls sig (s a nd) = !(ok a nd)) : ∀ (left i start : ℕ) (idx : List ℕ), start ≤ i → i + left = nd →
      greedyLoopF s sig left i start idx = greedyLoop ok left i start idx
  | 0, _, _, _, _, _ => rfl
  | 1, i, start, idx, h1, h2 => by
    unfold greedyLoopF greedyLoop
    subst h2
    rw [hf start (by omega)]
  | left + 2, i, start, idx, h1, h2 => by
    unfold greedyLoopF greedyLoop
    rw [hr start (i + 1) (by omega) (by omega), greedy_same hr hf (left + 1) (i + 1) (i + 1) _ (le_refl _) (by omega),
      greedy_same hr hf (left + 1) (i + 1) start _ (by omega) (by omega)]

theorem total_cast (xs : List ℕ) (a b : ℕ) : total (xs.map fun k : ℕ => (k : ℝ)) a b = ((total xs a b : ℕ) : ℝ) := by
  unfold total
  rw [Nat.cast_sum]
  refine Finset.sum_congr rfl fun k _ => ?_
  simp only [List.getD_eq_getElem?_getD, List.getElem?_map]
  cases xs[k]? <;> simp

theorem total_le_sum (xs : List ℕ) {a b : ℕ} (hb : b ≤ xs.length) : total xs a b ≤ xs.sum := by
  have e : xs.sum = total xs 0 xs.length := by
    unfold total
    rw [← Finset.range_eq_Ico, Finset.sum_range, ← List.sum_ofFn]
    congr 1
    refine List.ext_getElem (by simp) fun k h1 h2 => ?_
    simp [List.getD_eq_getElem?_getD, h1]
  rw [e]
  exact Finset.sum_le_sum_of_subset (Finset.Ico_subset_Ico (Nat.zero_le _) hb)

/-- A computed significance stays below `1001 / 1000` if the exact one is below one. -/
theorem small_significance {rnd lg} (h : Nearest rnd) (hl : Accurate lg) {n m : ℕ} {a : ℝ} (hnm : n + m ≤ 10 ^ 6) (ha : In (-30) 30 a)
    (hS : |significanceLima n m a| < 1) {s : ℝ} (e : limaF rnd lg n m a = some s) : s < 1001 / 1000 := by
  have hn0 : (0 : ℝ) ≤ n := Nat.cast_nonneg n
  have hm0 : (0 : ℝ) ≤ m := Nat.cast_nonneg m
  have hN : (n : ℝ) + m ≤ 10 ^ 6 := by exact_mod_cast hnm
  have hz : (2 : ℝ) ^ (-41 : ℤ) * ((n : ℝ) + m) ≤ 1 / 10 ^ 6 := (mul_le_mul_of_nonneg_left hN (two_zpow_pos _).le).trans (by norm_num)
  obtain ⟨-, c2, -⟩ := C10_lima (n : ℝ) m a hn0 hm0 ha.pos
  have e1 := (C151_terms h hl (hnm.trans (by norm_num)) ha).trans hz
  have hq : significanceLima n m a ^ 2 < 1 := by rw [← sq_abs]; nlinarith [abs_nonneg (significanceLima (n : ℝ) m a)]
  have t1 : limaTermsF rnd lg n m a ≤ 1 + 1 / 10 ^ 6 := by linarith [(_root_.abs_le.1 e1).2]
  unfold limaF at e
  split at e
  · exact absurd e (by simp)
  · next hc =>
    have hr0 : 0 ≤ Real.sqrt (limaTermsF rnd lg n m a) := Real.sqrt_nonneg _
    have hr1 : Real.sqrt (limaTermsF rnd lg n m a) ≤ 1 + 1 / 10 ^ 6 :=
      Real.sqrt_le_iff.2 ⟨by norm_num, t1.trans (by norm_num)⟩
    have hb : Real.sqrt (limaTermsF rnd lg n m a) ≤ 2 ^ (1 : ℤ) := hr1.trans (by norm_num)
    obtain ⟨-, u1, -⟩ := h.upto hr0 hb (by norm_num) (by norm_num)
    have u2 := h.err hr0 (hb.trans (zpow_le (by norm_num)))
    have u3 : tiny ≤ 1 / 10 ^ 6 := by
      have : tiny ≤ (2 : ℝ) ^ (-30 : ℤ) := zpow_le (by norm_num)
      exact this.trans (by norm_num)
    have u4 : unit * Real.sqrt (limaTermsF rnd lg n m a) ≤ 1 / 10 ^ 6 * (1 + 1 / 10 ^ 6) :=
      mul_le_mul (by unfold unit; norm_num) hr1 hr0 (by norm_num)
    have u5 := (_root_.abs_le.1 u2).2
    have hlt : rnd (Real.sqrt (limaTermsF rnd lg n m a)) < 1001 / 1000 := by
      norm_num at u3 u4 hr1 ⊢
      linarith
    obtain rfl := Option.some.inj e
    split
    · rwa [one_mul]
    · linarith

/-- **C151 (grouping).** If the wanted significance is above one, no interval of channels has a significance within one millionth of it, and no interval that
ends at the last channel has one below one thousandth in size, then the grouping by Li-Ma significance in double precision is the exact one. -/
theorem C151_grouping {rnd lg} (h : Nearest rnd) (hl : Accurate lg) (on off : List ℕ) (d : RatioData) (sig : ℝ) (hsum : on.sum + off.sum ≤ 10 ^ 6)
    (hr : ∀ a b, a < b → b ≤ on.length → In (-30) 30 (d.ratio a b)) (hsig : 1001 / 1000 ≤ sig)
    (hS : ∀ a b, a < b → b ≤ on.length → 1 / 10 ^ 6 < |significanceLima (total on a b : ℕ) (total off a b : ℕ) (d.ratio a b) - sig|)
    (hE : ∀ a < on.length, 1 / 10 ^ 3 ≤ |significanceLima (total on a on.length : ℕ) (total off a on.length : ℕ) (d.ratio a on.length)|) :
    groupSigLimaF rnd lg (on.map fun k : ℕ => (k : ℝ)) (off.map fun k : ℕ => (k : ℝ)) d.ratio sig =
      groupSigLima (on.map fun k : ℕ => (k : ℝ)) (off.map fun k : ℕ => (k : ℝ)) d sig := by
  unfold groupSigLimaF groupSigLima
  by_cases hlen : on.length = off.length
  swap
  · have hx : (on.map fun k : ℕ => (k : ℝ)).length ≠ (off.map fun k : ℕ => (k : ℝ)).length := by simpa using hlen
    rw [if_pos hx, if_pos hx]
  have hx : ¬ (on.map fun k : ℕ => (k : ℝ)).length ≠ (off.map fun k : ℕ => (k : ℝ)).length := by simpa using hlen
  have hsig0 : ¬ sig ≤ 0 := by linarith
  rw [if_neg hx, if_neg hx, if_neg hsig0, if_neg hsig0]
  by_cases hne : on = []
  · subst hne; rfl
  have hy : ¬ (on.map fun k : ℕ => (k : ℝ)) = [] := by simpa using hne
  rw [if_neg hy, if_neg hy]
  dsimp only
  rw [List.length_map]
  have hpos : 0 < on.length := List.length_pos_of_ne_nil hne
  have cnt : ∀ a b, b ≤ on.length → total on a b + total off a b ≤ 10 ^ 6 := by
    intro a b hb
    have t1 := total_le_sum on (a := a) hb
    have t2 := total_le_sum off (a := a) (hlen ▸ hb)
    omega
  -- one interval
  have key : ∀ a b, a < b → b ≤ on.length → ∀ s, limaF rnd lg (total on a b : ℕ) (total off a b : ℕ) (d.ratio a b) = some s →
      (sig ≤ s ↔ sig ≤ significanceLima (total on a b : ℕ) (total off a b : ℕ) (d.ratio a b)) := by
    intro a b hab hb s hs
    have h2 := hS a b hab hb
    rcases lt_or_ge |significanceLima (total on a b : ℕ) (total off a b : ℕ) (d.ratio a b)| 1 with hc | hc
    · have := small_significance h hl (cnt a b hb) (hr a b hab hb) hc hs
      have := (_root_.abs_lt.1 hc).2
      constructor <;> intro <;> linarith
    obtain ⟨s', e, he⟩ := C151_practice h hl (cnt a b hb) (hr a b hab hb) hc
    obtain rfl : s' = s := by rw [e] at hs; exact Option.some.inj hs
    obtain ⟨e1, e2⟩ := _root_.abs_le.1 he
    generalize significanceLima (total on a b : ℕ) (total off a b : ℕ) (d.ratio a b) = S at *
    rcases le_total 0 (S - sig) with hc | hc
    · rw [abs_of_nonneg hc] at h2
      exact ⟨fun _ => by linarith, fun _ => by linarith⟩
    · rw [abs_of_nonpos hc] at h2
      exact ⟨fun _ => by linarith, fun _ => by linarith⟩
  have keyR : ∀ a b, a < b → b ≤ on.length → reaches sig (limaF rnd lg (total on a b : ℕ) (total off a b : ℕ) (d.ratio a b)) =
      decide (sig ≤ significanceLima (total on a b : ℕ) (total off a b : ℕ) (d.ratio a b)) := by
    intro a b hab hb
    cases hc : limaF rnd lg (total on a b : ℕ) (total off a b : ℕ) (d.ratio a b) with
    | some s => simp only [reaches, key a b hab hb s hc]
    | none =>
      have : ¬ sig ≤ significanceLima (total on a b : ℕ) (total off a b : ℕ) (d.ratio a b) := by
        intro hge
        obtain ⟨s', e, -⟩ := C151_practice h hl (cnt a b hb) (hr a b hab hb) (le_trans (by linarith) (le_abs_self _))
        rw [hc] at e
        exact absurd e (by simp)
      simp only [reaches, this, decide_false]
  have keyF : ∀ a < on.length, falls sig (limaF rnd lg (total on a on.length : ℕ) (total off a on.length : ℕ) (d.ratio a on.length)) =
      !decide (sig ≤ significanceLima (total on a on.length : ℕ) (total off a on.length : ℕ) (d.ratio a on.length)) := by
    intro a ha
    have hbig := hE a ha
    have hc := cnt a on.length (le_refl _)
    have h0 : 0 < total on a on.length + total off a on.length := by
      rcases Nat.eq_zero_or_pos (total on a on.length + total off a on.length) with hz | hz
      · obtain ⟨z1, z2⟩ : total on a on.length = 0 ∧ total off a on.length = 0 := by omega
        rw [z1, z2] at hbig
        simp [significanceLima, limaTerms] at hbig
        exact absurd hbig (by norm_num)
      · exact hz
    have hN : ((total on a on.length : ℕ) : ℝ) + (total off a on.length : ℕ) ≤ 10 ^ 6 := by exact_mod_cast hc
    have hq : (2 : ℝ) ^ (-40 : ℤ) * (((total on a on.length : ℕ) : ℝ) + (total off a on.length : ℕ)) ≤
        significanceLima (total on a on.length : ℕ) (total off a on.length : ℕ) (d.ratio a on.length) ^ 2 := by
      refine (mul_le_mul_of_nonneg_left hN (two_zpow_pos _).le).trans ?_
      rw [← sq_abs]
      refine le_trans (by norm_num) (pow_le_pow_left₀ (by norm_num) hbig 2)
    obtain ⟨s, e, -⟩ := C151_error_partial h hl h0 (hc.trans (by norm_num)) (hr a _ ha (le_refl _)) hq
    have hk := key a _ ha (le_refl _) s e
    rw [e]
    simp only [falls, ← not_le, hk, decide_not]
  have hloop : greedyLoopF (fun a b : ℕ => limaF rnd lg (intervalSum (prefixSum (on.map fun k : ℕ => (k : ℝ))) a b)
      (intervalSum (prefixSum (off.map fun k : ℕ => (k : ℝ))) a b) (d.ratio a b)) sig on.length 0 0 [0] =
      greedyLoop (limaOk (on.map fun k : ℕ => (k : ℝ)) (off.map fun k : ℕ => (k : ℝ)) d sig) on.length 0 0 [0] := by
    refine greedy_same (nd := on.length) (fun a b hab hb => ?_) (fun a hab => ?_) _ _ _ _ (le_refl _) (by omega)
    · rw [limaOk, intervalSum_prefix _ hab.le (by rwa [List.length_map]), intervalSum_prefix _ hab.le (by rw [List.length_map]; omega), total_cast, total_cast]
      exact keyR a b hab hb
    · rw [limaOk, intervalSum_prefix _ hab.le (by rw [List.length_map]), intervalSum_prefix _ hab.le (by rw [List.length_map]; omega), total_cast, total_cast]
      exact keyF a hab
  rw [hloop]
  have hdesc := (greedy_out (limaOk (on.map fun k : ℕ => (k : ℝ)) (off.map fun k : ℕ => (k : ℝ)) d sig) hpos).desc
  generalize greedyLoop (limaOk (on.map fun k : ℕ => (k : ℝ)) (off.map fun k : ℕ => (k : ℝ)) d sig) on.length 0 0 [0] = r at *
  have hp : r.reverse.Pairwise (· < ·) := by rw [List.pairwise_reverse]; exact hdesc.pw
  congr 2
  rw [Bool.eq_iff_iff, limaSuccess_iff (by simpa using hlen) (by simpa using hdesc), List.length_map]
  rw [reduceat_eq _ _ hp, reduceat_eq _ _ hp, List.length_map, List.length_map, ← hlen, List.zip_map', List.zip_map', List.all_map, List.all_eq_true]
  simp only [mem_edges_reverse, Function.comp, total_cast]
  refine forall_congr' fun e => forall_congr' fun he => ?_
  obtain ⟨h1, h2⟩ := mem_revEdges_lt hdesc.pw hdesc.lt he
  rw [keyR _ _ h1 h2, decide_eq_true_eq]

/-! ## Without an excess -/

theorem rnd_fifth {rnd} (h : Nearest rnd) : rnd (1 / 5) = 7205759403792794 * 2 ^ (-55 : ℤ) :=
  h.eq 7205759403792794 (-55) (by norm_num) (by norm_num) (by norm_num) (by norm_num) (by norm_num) (by norm_num [abs_lt])

theorem fifth_in {rnd} (h : Nearest rnd) : In (-30) 30 (rnd (1 / 5)) :=
  h.mem (p := -30) (q := 30) (by norm_num) (by norm_num) (by norm_num) (by norm_num)

theorem rnd_sixfifth {rnd} (h : Nearest rnd) : rnd (1 + rnd (1 / 5)) = 5404319552844595 * 2 ^ (-52 : ℤ) := by
  rw [rnd_fifth h]
  exact h.eq 5404319552844595 (-52) (by norm_num) (by norm_num) (by norm_num) (by norm_num) (by norm_num) (by norm_num [abs_lt])

theorem rnd_whole {rnd} (h : Nearest rnd) (k : ℕ) (hk : k ≤ 1000) : rnd (k : ℝ) = k := by
  have := total_fix h (n := k) (m := 0) (by omega)
  simpa using this

/-- The two computed ratios of one count and five counts of background. -/
theorem ratios_fifth {rnd} (h : Nearest rnd) : onRatioF rnd 1 5 (rnd (1 / 5)) = 1 - 2 ^ (-53 : ℤ) ∧ offRatioF rnd 1 5 (rnd (1 / 5)) = 1 := by
  have e6 : rnd (1 + 5 : ℝ) = 6 := by
    have := rnd_whole h 6 (by norm_num)
    norm_num at this ⊢
    exact this
  constructor
  · unfold onRatioF
    rw [rnd_sixfifth h, rnd_fifth h, e6]
    have e1 : rnd (5404319552844595 * 2 ^ (-52 : ℤ) / (7205759403792794 * 2 ^ (-55 : ℤ))) = 6755399441055743 * 2 ^ (-50 : ℤ) :=
      h.eq 6755399441055743 (-50) (by norm_num) (by norm_num) (by norm_num) (by norm_num) (by norm_num) (by norm_num [abs_lt])
    have e2 : rnd (6755399441055743 * 2 ^ (-50 : ℤ) * 1) = 6755399441055743 * 2 ^ (-50 : ℤ) :=
      h.eq 6755399441055743 (-50) (by norm_num) (by norm_num) (by norm_num) (by norm_num) (by norm_num) (by norm_num [abs_lt])
    rw [e1, e2]
    refine h.eq 9007199254740991 (-53) (by norm_num) (by norm_num) (by norm_num) (by norm_num) (by norm_num) ?_
    norm_num [abs_lt]
  · unfold offRatioF
    rw [rnd_sixfifth h, e6]
    have e1 : rnd (5404319552844595 * 2 ^ (-52 : ℤ) * 5) = 6 := by
      refine h.eq 6755399441055744 (-50) (by norm_num) (by norm_num) (by norm_num) (by norm_num) (by norm_num) ?_
      norm_num [abs_lt]
    rw [e1, div_self (by norm_num)]
    have := rnd_whole h 1 (by norm_num)
    simpa using this

theorem lg_one {lg} (hl : Accurate lg) : lg 1 = 0 := by
  have := hl 1 one_pos
  simpa using this

/-- **C151 (refuted).** One count, with five counts in a background of five times the exposure, has significance zero.  The code gives NaN for it, whatever
the last bit of the logarithm. -/
theorem C151_refuted {rnd lg} (h : Nearest rnd) (hl : Accurate lg) : significanceLima 1 5 (1 / 5) = 0 ∧ limaF rnd lg 1 5 (rnd (1 / 5)) = none := by
  constructor
  · rw [(C10_lima 1 5 (1 / 5) (by norm_num) (by norm_num) (by norm_num)).2.2.1]; norm_num
  · obtain ⟨r1, r2⟩ := ratios_fifth h
    have x0 : (0 : ℝ) < 1 - 2 ^ (-53 : ℤ) := by norm_num
    have hlog : Real.log (1 - 2 ^ (-53 : ℤ)) ≤ -2 ^ (-53 : ℤ) := by
      have := Real.log_le_sub_one_of_pos x0
      linarith
    have hneg : lg (1 - 2 ^ (-53 : ℤ)) ≤ -2 ^ (-54 : ℤ) := by
      have h1 := hl _ x0
      have l0 : Real.log (1 - 2 ^ (-53 : ℤ)) < 0 := lt_of_le_of_lt hlog (neg_neg_of_pos (two_zpow_pos _))
      rw [abs_of_neg l0] at h1
      have h2 := (_root_.abs_le.1 h1).2
      have e : (2 : ℝ) ^ (-53 : ℤ) = 2 * 2 ^ (-54 : ℤ) := by norm_num
      have e5 : (2 : ℝ) ^ (-50 : ℤ) ≤ 1 / 2 := by norm_num
      generalize Real.log (1 - 2 ^ (-53 : ℤ)) = L at *
      have : (2 : ℝ) ^ (-50 : ℤ) * -L ≤ 1 / 2 * -L := mul_le_mul_of_nonneg_right e5 (by linarith)
      rw [e] at hlog
      generalize (2 : ℝ) ^ (-54 : ℤ) = z at *
      generalize (2 : ℝ) ^ (-50 : ℤ) * -L = w at *
      linarith
    have hlow : -2 ^ (0 : ℤ) ≤ lg (1 - 2 ^ (-53 : ℤ)) := by
      have h1 := hl _ x0
      have h3 : -(1 / 4) ≤ Real.log (1 - 2 ^ (-53 : ℤ)) := by
        have := Real.one_sub_inv_le_log_of_pos x0
        refine le_trans ?_ this
        norm_num
      have l0 : Real.log (1 - 2 ^ (-53 : ℤ)) < 0 := lt_of_le_of_lt hlog (neg_neg_of_pos (two_zpow_pos _))
      rw [abs_of_neg l0] at h1
      have h2 := (_root_.abs_le.1 h1).1
      have e5 : (2 : ℝ) ^ (-50 : ℤ) ≤ 1 / 2 := by norm_num
      generalize Real.log (1 - 2 ^ (-53 : ℤ)) = L at *
      have : (2 : ℝ) ^ (-50 : ℤ) * -L ≤ 1 / 2 * -L := mul_le_mul_of_nonneg_right e5 (by linarith)
      generalize (2 : ℝ) ^ (-50 : ℤ) * -L = w at *
      rw [zpow_zero]
      linarith
    -- rounding keeps the sign
    have keep : ∀ (x : ℝ) (p : ℤ), -1000 ≤ p → p ≤ 0 → x ≤ -2 ^ p → -2 ^ (3 : ℤ) ≤ x → rnd x ≤ -2 ^ p := by
      intro x p hp hp0 hx hx2
      refine h.le ?_ (rep_neg (rep_pow (by omega) (by omega))) hx
      have : 0 < (2 : ℝ) ^ p := two_zpow_pos p
      rw [abs_of_neg (by linarith)]
      refine le_trans (by linarith) (zpow_le (p := 3) (by norm_num))
    have keep2 : ∀ (x : ℝ) (p : ℤ), 0 ≤ p → p ≤ 10 → -2 ^ p ≤ x → x ≤ 0 → -2 ^ p ≤ rnd x := by
      intro x p hp hp0 hx hx2
      refine h.ge ?_ (rep_neg (rep_pow (by omega) (by omega))) hx
      rw [abs_of_nonpos hx2]
      exact le_trans (by linarith) (zpow_le (p := p) (by omega))
    have z54 : (0 : ℝ) < 2 ^ (-54 : ℤ) := two_zpow_pos _
    have z3 : -(2 : ℝ) ^ (3 : ℤ) = -8 := by norm_num
    have z1 : -(2 : ℝ) ^ (0 : ℤ) = -1 := by norm_num
    have zz : (2 : ℝ) ^ (-53 : ℤ) = 2 * 2 ^ (-54 : ℤ) := by norm_num
    rw [z1] at hlow
    have zfix : rnd 0 = 0 := by simpa using rnd_whole h 0 (by norm_num)
    have hfin : ∀ L : ℝ, L ≤ -2 ^ (-54 : ℤ) → -1 ≤ L → rnd (2 * rnd (rnd L)) < 0 := by
      intro L hneg hlow
      have a1 := keep L (-54) (by norm_num) (by norm_num) hneg (by rw [z3]; linarith)
      have a2 := keep2 L 0 (by norm_num) (by norm_num) (by rw [z1]; exact hlow) (by linarith)
      rw [z1] at a2
      have a3 := keep (rnd L) (-54) (by norm_num) (by norm_num) a1 (by rw [z3]; linarith)
      have a4 := keep2 (rnd L) 0 (by norm_num) (by norm_num) (by rw [z1]; exact a2) (by linarith)
      rw [z1] at a4
      have a5 := keep (2 * rnd (rnd L)) (-53) (by norm_num) (by norm_num) (by rw [zz]; linarith) (by rw [z3]; linarith)
      exact lt_of_le_of_lt a5 (neg_neg_of_pos (two_zpow_pos _))
    have neg : limaTermsF rnd lg 1 5 (rnd (1 / 5)) < 0 := by
      unfold limaTermsF
      rw [r1, r2, if_pos one_pos, if_pos (by norm_num)]
      simp only [xlogyF, one_ne_zero, if_false, one_mul, lg_one hl, mul_zero, zfix, add_zero, ite_self]
      exact hfin _ hneg hlow
    rw [limaF, if_pos neg]

/-- Two channels, exposures 100 s and 500 s, all scales one. -/
noncomputable def exFifth : RatioData :=
  let one : ScaleGroupData ℝ := ⟨[1, 1], [1, 1], [1, 1], [1, 1], [1, 1], [1, 1]⟩
  ⟨100, 500, one, one, one, one⟩

theorem exFifth_ratio {a b : ℕ} (hab : a < b) (hb : b ≤ 2) : exFifth.ratio a b = 1 / 5 := by
  have : (a = 0 ∧ b = 1) ∨ (a = 0 ∧ b = 2) ∨ (a = 1 ∧ b = 2) := by omega
  rcases this with ⟨rfl, rfl⟩ | ⟨rfl, rfl⟩ | ⟨rfl, rfl⟩ <;>
  norm_num [RatioData.ratio, exFifth, intervalBackRatio, buildScalePrefix, scaleFromInterval, prefixSum, cumsum, cumsumFrom]

/-- A lower bound of the significance from two powers of two. -/
theorem signif_ge {n m a : ℝ} {p q : ℤ} (hn : 0 < n) (hm : 0 < m) (ha : 0 < a) (hex : a * m ≤ n) (h1 : 2 ^ p ≤ (1 + a) / a * n / (n + m))
    (h2 : 2 ^ q ≤ (1 + a) * m / (n + m)) {r : ℝ} (hr : r ^ 2 ≤ 2 * ((n * p + m * q) * Real.log 2)) : r ≤ significanceLima n m a := by
  unfold significanceLima limaTerms
  rw [if_pos hex, one_mul, if_pos hn, if_pos hm, xlogy, xlogy, if_neg hn.ne', if_neg hm.ne']
  refine Real.le_sqrt_of_sq_le (hr.trans ?_)
  have l1 := Real.log_le_log (two_zpow_pos p) h1
  have l2 := Real.log_le_log (two_zpow_pos q) h2
  rw [Real.log_zpow] at l1 l2
  have m1 := mul_le_mul_of_nonneg_left l1 hn.le
  have m2 := mul_le_mul_of_nonneg_left l2 hm.le
  nlinarith

/-- **C151 (grouping, refuted).** Two channels with 20 and 1 counts, 5 counts of background in each and five times the exposure, grouped to a significance of
three: the last channel is below it and joins the first, which is a success.  The code leaves it alone, because its significance is NaN, which is not below
three, and reports failure. -/
theorem C151_grouping_refuted {rnd lg} (h : Nearest rnd) (hl : Accurate lg) :
    groupSigLima [20, 1] [5, 5] exFifth 3 = .ok ([1, -1], true) ∧
    groupSigLimaF rnd lg [20, 1] [5, 5] (fun a b => rnd (exFifth.ratio a b)) 3 = .ok ([1, 1], false) := by
  have l2 := Real.log_two_gt_d9
  have i01 : ∀ x y : ℝ, intervalSum (prefixSum [x, y]) 0 1 = x := by intro x y; simp [intervalSum, prefixSum, cumsum, cumsumFrom]
  have i12 : ∀ x y : ℝ, intervalSum (prefixSum [x, y]) 1 2 = y := by intro x y; simp [intervalSum, prefixSum, cumsum, cumsumFrom]
  constructor
  · have s1 : limaOk [20, 1] [5, 5] exFifth 3 0 1 = true := by
      rw [limaOk, i01, i01, exFifth_ratio (by norm_num) (by norm_num), decide_eq_true_eq]
      refine signif_ge (p := 2) (q := -3) (by norm_num) (by norm_num) (by norm_num) (by norm_num) (by norm_num) (by norm_num) ?_
      norm_num; linarith
    have s2 : limaOk [20, 1] [5, 5] exFifth 3 1 2 = false := by
      rw [limaOk, i12, i12, exFifth_ratio (by norm_num) (by norm_num), (C151_refuted h hl).1]
      norm_num
    have s3 : (3 : ℝ) ≤ significanceLima 21 10 (1 / 5) := by
      refine signif_ge (p := 2) (q := -2) (by norm_num) (by norm_num) (by norm_num) (by norm_num) (by norm_num) (by norm_num) ?_
      norm_num; linarith
    have s4 : exFifth.ratios [0] 2 = [1 / 5] := by
      have := exFifth_ratio (a := 0) (b := 2) (by norm_num) (by norm_num)
      simpa [RatioData.ratios, intervalRatios, edges, RatioData.ratio] using this
    have hg : greedyLoop (limaOk [20, 1] [5, 5] exFifth 3) 2 0 0 [0] = [0] := by simp [greedyLoop, s1, s2]
    unfold groupSigLima
    rw [if_neg (by simp), if_neg (by norm_num), if_neg (by simp)]
    simp only [List.length_cons, List.length_nil, Nat.zero_add, Nat.reduceAdd, hg, List.reverse_cons, List.reverse_nil, List.nil_append]
    congr 2
    simp only [limaSuccess, List.length_cons, List.length_nil, Nat.zero_add, Nat.reduceAdd, s4, reduceat, List.zip_cons_cons, List.zip_nil_left, List.all_cons, List.all_nil,
      Bool.and_true, List.drop_zero, decide_eq_true_eq]
    norm_num
    exact s3
  · have a0 := fifth_in h
    have r01 : exFifth.ratio 0 1 = 1 / 5 := exFifth_ratio (by norm_num) (by norm_num)
    have r12 : exFifth.ratio 1 2 = 1 / 5 := exFifth_ratio (by norm_num) (by norm_num)
    have hS : 5 ≤ significanceLima 20 5 (rnd (1 / 5)) := by
      rw [rnd_fifth h]
      refine signif_ge (p := 2) (q := -3) (by norm_num) (by norm_num) (by norm_num) (by norm_num) (by norm_num) (by norm_num) ?_
      norm_num; linarith
    obtain ⟨s, e, he⟩ := C151_practice h hl (n := 20) (m := 5) (by norm_num) a0 (by
      norm_num only [Nat.cast_ofNat] at hS ⊢
      exact le_trans (by linarith) (le_abs_self _))
    push_cast at e he
    have hs : 3 ≤ s := by linarith [(_root_.abs_le.1 he).1]
    have hnone := (C151_refuted h hl).2
    unfold groupSigLimaF
    rw [if_neg (by simp), if_neg (by norm_num), if_neg (by simp)]
    have hg : greedyLoopF (fun a b : ℕ => limaF rnd lg (intervalSum (prefixSum [20, 1]) a b) (intervalSum (prefixSum [5, 5]) a b) (rnd (exFifth.ratio a b))) 3 2 0 0 [0] = [1, 0] := by
      simp only [greedyLoopF, Nat.zero_add, Nat.reduceAdd, i01, i12, r01, r12, e, hnone, reaches, falls, hs, decide_true, if_true, Bool.false_eq_true, false_and, if_false]
    simp only [List.length_cons, List.length_nil, Nat.zero_add, Nat.reduceAdd, hg, List.reverse_cons, List.reverse_nil, List.nil_append, List.cons_append]
    congr 2
    simp only [edges, List.map_cons, List.map_nil, reduceat, List.zip_cons_cons, List.zip_nil_left, List.all_cons, List.all_nil, r12, List.drop_succ_cons, List.drop_zero,
      List.sum_cons, List.sum_nil, add_zero, hnone, reaches, Bool.false_and, Bool.and_false]

/-! ## Concrete cases -/

theorem exIn : In (-30) 30 (1 / 2 : ℝ) := by
  have := rep_pow (p := -1) (by norm_num) (by norm_num)
  refine ⟨?_, by norm_num, by norm_num⟩
  norm_num at this ⊢
  exact this

theorem exLarge : 3 ≤ significanceLima 20 5 (1 / 2) ∧ 3 ≤ significanceLima 40 10 (1 / 2) := by
  have l2 := Real.log_two_gt_d9
  constructor
  · refine signif_ge (p := 1) (q := -2) (by norm_num) (by norm_num) (by norm_num) (by norm_num) (by norm_num) (by norm_num) ?_
    norm_num; linarith
  · refine signif_ge (p := 1) (q := -2) (by norm_num) (by norm_num) (by norm_num) (by norm_num) (by norm_num) (by norm_num) ?_
    norm_num; linarith

theorem exRatio_half {a b : ℕ} (hab : a < b) (hb : b ≤ 2) : exRatio.ratio a b = 1 / 2 := by
  have : (a = 0 ∧ b = 1) ∨ (a = 0 ∧ b = 2) ∨ (a = 1 ∧ b = 2) := by omega
  rcases this with ⟨rfl, rfl⟩ | ⟨rfl, rfl⟩ | ⟨rfl, rfl⟩ <;>
  norm_num [RatioData.ratio, exRatio, intervalBackRatio, buildScalePrefix, scaleFromInterval, prefixSum, cumsum, cumsumFrom]

theorem exTotals {a b : ℕ} (hab : a < b) (hb : b ≤ 2) : 3 ≤ significanceLima (total [20, 20] a b : ℕ) (total [5, 5] a b : ℕ) (exRatio.ratio a b) := by
  rw [exRatio_half hab hb]
  have : (a = 0 ∧ b = 1) ∨ (a = 0 ∧ b = 2) ∨ (a = 1 ∧ b = 2) := by omega
  obtain ⟨h1, h2⟩ := exLarge
  rcases this with ⟨rfl, rfl⟩ | ⟨rfl, rfl⟩ | ⟨rfl, rfl⟩
  · exact h1
  · rw [show total [20, 20] 0 2 = 40 from rfl, show total [5, 5] 0 2 = 10 from rfl]; exact_mod_cast h2
  · exact h1

example := C151_terms leftNearest exLog_ok (n := 20) (m := 5) (by norm_num) exIn
example := C151_error_partial leftNearest exLog_ok (n := 20) (m := 5) (by norm_num) (by norm_num) exIn (by
  have := exLarge.1
  norm_num at this ⊢
  nlinarith)
example := C151_practice leftNearest exLog_ok (n := 20) (m := 5) (by norm_num) exIn (by
  have := exLarge.1
  exact le_trans (by linarith) (le_abs_self _))
example := C151_grouping leftNearest exLog_ok [20, 20] [5, 5] exRatio 2 (by norm_num) (fun a b hab hb => by rw [exRatio_half hab hb]; exact exIn) (by norm_num)
  (fun a b hab hb => by
    have := exTotals hab hb
    rw [abs_of_pos (by linarith)]
    refine lt_of_lt_of_le ?_ (sub_le_sub_right this 2)
    norm_num)
  (fun a ha => by
    have := exTotals (a := a) (b := 2) ha (le_refl _)
    refine le_trans ?_ (le_abs_self _)
    refine le_trans ?_ this
    norm_num)
example := C151_refuted leftNearest exLog_ok
example := C151_grouping_refuted leftNearest exLog_ok

end Elisa.Grouping.Fl
