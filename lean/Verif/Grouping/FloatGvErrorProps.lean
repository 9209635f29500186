import Verif.Grouping.FloatGvProps
import Verif.Infer.FloatPgProps

/-!
# The accuracy of the significance over a Gaussian background (C154)
-/

namespace Elisa.Grouping.Fl

open Elisa Elisa.Grouping Elisa.Infer.Fl

/-! ## Tools -/

/-- The rounding of an exact result. -/
theorem carry0 {rnd} (h : Nearest rnd) {θ x L : ℝ} (hθ : 2 ^ (-52 : ℤ) ≤ θ) (hx : |x| ≤ L) (hL : Mid L) : |rnd x - x| ≤ θ * L := by
  have := carry h (k := 0) hθ hx (by rw [sub_self, abs_zero, zero_mul, zero_mul]) (by norm_num) hL
  rwa [zero_add, one_mul] at this

/-- The rounding of an inexact result. -/
theorem carryE {rnd} (h : Nearest rnd) {θ ε a x L : ℝ} (hθ : 2 ^ (-52 : ℤ) ≤ θ) (hx : |x| ≤ L) (ha : |a - x| ≤ ε) (hε : ε ≤ 1 / 4 * L) (hL : Mid L) : |rnd a - x| ≤ ε + θ * L := by
  have L0 : 0 ≤ L := (two_zpow_pos _).le.trans hL.1
  have h1 : |a| ≤ 5 / 4 * L := by
    have := abs_add_le (a - x) x
    rw [sub_add_cancel] at this
    linarith
  have h2 := absstep' h h1 hL.1 hL.2
  have h3 := mul_le_mul_of_nonneg_right hθ L0
  have h4 := abs_sub_le (rnd a) a x
  linarith

/-- The product of two inexact numbers. -/
theorem prod_near {θ j k x x' y y' X Y : ℝ} (θ0 : 0 ≤ θ) (hj : 0 ≤ j) (hx : |x| ≤ X) (hxx : |x' - x| ≤ j * θ * X) (hy : |y| ≤ Y) (hyy : |y' - y| ≤ k * θ * Y)
    (hjk : j * k * θ ≤ 1) : |x' * y' - x * y| ≤ (j + k + 1) * θ * (X * Y) := by
  have X0 : 0 ≤ X := (abs_nonneg _).trans hx
  have Y0 : 0 ≤ Y := (abs_nonneg _).trans hy
  rw [show x' * y' - x * y = (x' - x) * (y' - y) + (x' - x) * y + x * (y' - y) by ring]
  have h1 : |(x' - x) * (y' - y)| ≤ j * θ * X * (k * θ * Y) := by
    rw [abs_mul]
    exact mul_le_mul hxx hyy (abs_nonneg _) (by positivity)
  have h2 : |(x' - x) * y| ≤ j * θ * X * Y := by
    rw [abs_mul]
    exact mul_le_mul hxx hy (abs_nonneg _) (by positivity)
  have h3 : |x * (y' - y)| ≤ X * (k * θ * Y) := by
    rw [abs_mul]
    exact mul_le_mul hx hyy (abs_nonneg _) X0
  have h4 : j * θ * X * (k * θ * Y) ≤ 1 * (θ * (X * Y)) := by
    rw [show j * θ * X * (k * θ * Y) = j * k * θ * (θ * (X * Y)) by ring]
    exact mul_le_mul_of_nonneg_right hjk (by positivity)
  have h5 := abs_add_le ((x' - x) * (y' - y) + (x' - x) * y) (x * (y' - y))
  have h6 := abs_add_le ((x' - x) * (y' - y)) ((x' - x) * y)
  nlinarith

/-! ## The scaled background and its variance -/

section
variable {rnd : ℝ → ℝ} {θ : ℝ}

theorem scaled_near (h : Nearest rnd) (hθ : 2 ^ (-52 : ℤ) ≤ θ) (hθ1 : θ ≤ 1 / 10 ^ 6) {s' s : ℝ} (s0 : 0 < s) (hs : |s' - s| ≤ θ * s) (h1 : Mid s) (h2 : Mid (s * s)) :
    |rnd (rnd s' * rnd s') - s * s| ≤ 6 * θ * (s * s) := by
  have θ0 : 0 ≤ θ := (two_zpow_pos _).le.trans hθ
  have e1 := carry h (k := 1) hθ (le_of_eq (abs_of_pos s0)) (by rwa [one_mul]) (by linarith) h1
  have e1' : |rnd s' - s| ≤ 2 * θ * s := e1.trans (le_of_eq (by ring))
  have e2 := prod_near θ0 zero_le_two (le_of_eq (abs_of_pos s0)) e1' (le_of_eq (abs_of_pos s0)) e1' (by linarith)
  have e3 := carry h (k := 5) hθ (le_of_eq (abs_of_nonneg (mul_self_nonneg s))) (a := rnd s' * rnd s') (e2.trans (le_of_eq (by ring))) (by linarith) h2
  exact e3.trans (le_of_eq (by ring))

/-! ## The radicand of the profile background -/

theorem gvRad_near (h : Nearest rnd) (hθ : 2 ^ (-52 : ℤ) ≤ θ) (hθ1 : θ ≤ 1 / 10 ^ 6) {n : ℕ} (hn : n ≤ 2 ^ 50) {b b' p p' G : ℝ} (b0 : 0 < b) (p0 : 0 < p)
    (hb : |b' - b| ≤ θ * b) (hp : |p' - p| ≤ 6 * θ * p) (hG : (b + p) * (b + p) + 4 * n * p = G) (m1 : Mid (2 * b)) (m2 : Mid (b * b)) (m3 : Mid (2 * b * p)) (m4 : Mid (p * p)) (m5 : Mid G) :
    |gvRadF rnd n b' p' - (b * b - 2 * b * p + 4 * n * p + p * p)| ≤ 18 * θ * G := by
  have θ0 : 0 < θ := (two_zpow_pos _).trans_le hθ
  have n0 : (0 : ℝ) ≤ n := Nat.cast_nonneg n
  have q1 : 0 < b * b := mul_pos b0 b0
  have q2 : 0 < b * p := mul_pos b0 p0
  have q3 : 0 ≤ 4 * (n : ℝ) * p := by positivity
  have q4 : 0 < p * p := mul_pos p0 p0
  have hb1 : |b' - b| ≤ 1 * θ * b := by rwa [one_mul]
  have eG : G = b * b + 2 * b * p + p * p + 4 * n * p := by rw [← hG]; ring
  have G0 : 0 < G := by rw [eG]; linarith
  have θG : θ * G ≤ 1 / 10 ^ 6 * G := mul_le_mul_of_nonneg_right hθ1 G0.le
  have w1 := mul_pos θ0 q1
  have w2 := mul_pos θ0 q2
  have w3 := mul_nonneg θ0.le q3
  have w4 := mul_pos θ0 q4
  have wG : θ * G = θ * (b * b) + 2 * (θ * (b * p)) + θ * (p * p) + θ * (4 * n * p) := by rw [eG]; ring
  -- the square of the background
  have e1 := carry h (k := 3) hθ (a := b' * b') (x := b * b) (le_of_eq (abs_of_pos q1))
    ((prod_near θ0.le zero_le_one (le_of_eq (abs_of_pos b0)) hb1 (le_of_eq (abs_of_pos b0)) hb1 (by linarith)).trans (le_of_eq (by ring))) (by linarith) m2
  -- the mixed term
  have e2 := carry h (k := 1) hθ (a := 2 * b') (x := 2 * b) (L := 2 * b) (le_of_eq (abs_of_pos (by linarith)))
    (by rw [← mul_sub, abs_mul, abs_two]; linarith) (by linarith) m1
  have e3 := carry h (k := 9) hθ (a := rnd (2 * b') * p') (x := 2 * b * p) (L := 2 * b * p) (le_of_eq (abs_of_pos (by linarith)))
    ((prod_near (j := 2) (k := 6) θ0.le zero_le_two (le_of_eq (abs_of_pos (by linarith : 0 < 2 * b))) (e2.trans (le_of_eq (by ring))) (le_of_eq (abs_of_pos p0)) hp
      (by linarith)).trans (le_of_eq (by ring))) (by linarith) m3
  have e4 := carryE h (ε := 10 * (θ * (b * b) + 2 * (θ * (b * p)))) hθ (a := rnd (b' * b') - rnd (rnd (2 * b') * p')) (x := b * b - 2 * b * p) (L := G)
    (by rw [_root_.abs_le]; constructor <;> linarith)
    (by
      rw [show rnd (b' * b') - rnd (rnd (2 * b') * p') - (b * b - 2 * b * p) = (rnd (b' * b') - b * b) - (rnd (rnd (2 * b') * p') - 2 * b * p) by ring]
      refine (abs_sub _ _).trans ((add_le_add e1 e3).trans ?_)
      linarith) (by linarith) m5
  -- the counts
  have e5 : rnd (4 * n) = 4 * n := by
    have := h.fix (rep_int (k := 4 * n) (by
      rw [abs_of_nonneg (by positivity)]
      exact_mod_cast (show 4 * n ≤ 2 ^ 53 by omega)))
    push_cast at this
    refine this ?_
    rw [abs_of_nonneg (by positivity)]
    have h1 : 4 * (n : ℝ) ≤ 2 ^ (52 : ℤ) := by
      have : 4 * n ≤ 2 ^ 52 := by omega
      exact_mod_cast this
    exact h1.trans (zpow_le (by norm_num))
  have e6 := carryE h (ε := 6 * (θ * (4 * n * p))) hθ (a := rnd (4 * n) * p') (x := 4 * n * p) (L := G) (by rw [abs_of_nonneg q3]; linarith)
    (by
      rw [e5, ← mul_sub, abs_mul, abs_of_nonneg (by positivity)]
      refine (mul_le_mul_of_nonneg_left hp (by positivity)).trans (le_of_eq (by ring))) (by linarith) m5
  have e7 := carryE h (ε := 10 * (θ * (b * b) + 2 * (θ * (b * p))) + 6 * (θ * (4 * n * p)) + 2 * (θ * G)) hθ
    (a := rnd (rnd (b' * b') - rnd (rnd (2 * b') * p')) + rnd (rnd (4 * n) * p')) (x := b * b - 2 * b * p + 4 * n * p) (L := G)
    (by rw [_root_.abs_le]; constructor <;> linarith)
    (by
      rw [show rnd (rnd (b' * b') - rnd (rnd (2 * b') * p')) + rnd (rnd (4 * n) * p') - (b * b - 2 * b * p + 4 * n * p) =
        (rnd (rnd (b' * b') - rnd (rnd (2 * b') * p')) - (b * b - 2 * b * p)) + (rnd (rnd (4 * n) * p') - 4 * n * p) by ring]
      refine (abs_add_le _ _).trans ((add_le_add e4 e6).trans (le_of_eq (by ring)))) (by linarith) m5
  -- the square of the variance
  have e8 := carry h (k := 13) hθ (a := p' * p') (x := p * p) (le_of_eq (abs_of_pos q4))
    ((prod_near θ0.le (by norm_num) (le_of_eq (abs_of_pos p0)) hp (le_of_eq (abs_of_pos p0)) hp (by linarith)).trans (le_of_eq (by ring))) (by linarith) m4
  have e9 := carryE h (ε := 17 * (θ * G)) hθ (a := rnd (rnd (rnd (b' * b') - rnd (rnd (2 * b') * p')) + rnd (rnd (4 * n) * p')) + rnd (p' * p'))
    (x := b * b - 2 * b * p + 4 * n * p + p * p) (L := G) (by rw [_root_.abs_le]; constructor <;> linarith)
    (by
      rw [show rnd (rnd (rnd (b' * b') - rnd (rnd (2 * b') * p')) + rnd (rnd (4 * n) * p')) + rnd (p' * p') - (b * b - 2 * b * p + 4 * n * p + p * p) =
        (rnd (rnd (rnd (b' * b') - rnd (rnd (2 * b') * p')) + rnd (rnd (4 * n) * p')) - (b * b - 2 * b * p + 4 * n * p)) + (rnd (p' * p') - p * p) by ring]
      refine (abs_add_le _ _).trans ((add_le_add e7 e8).trans ?_)
      linarith) (by linarith) m5
  refine e9.trans (le_of_eq (by ring))

/-! ## The profile background -/

/-- Where the variance of the background is at most half of it, little is lost in its profile. -/
theorem gvBack_near (h : Nearest rnd) (hθ : 2 ^ (-52 : ℤ) ≤ θ) (hθ1 : θ ≤ 1 / 10 ^ 6) {n b b' p p' R B0 : ℝ} (n0 : 0 ≤ n) (b0 : 0 < b) (p0 : 0 < p) (hbp : 2 * p ≤ b)
    (hb : |b' - b| ≤ θ * b) (hp : |p' - p| ≤ 6 * θ * p) (hR : b * b - 2 * b * p + 4 * n * p + p * p = R) (hB : B0 = 1 / 2 * (b - p + Real.sqrt R))
    (hrad : |gvRadF rnd n b' p' - R| ≤ 18 * θ * ((b + p) * (b + p) + 4 * n * p)) (m1 : Mid b) (m2 : Mid (Real.sqrt R)) (m3 : Mid (2 * Real.sqrt R)) :
    0 < gvRadF rnd n b' p' ∧ |gvBackF rnd n b' p' - B0| ≤ 178 * θ * B0 ∧ b ≤ 2 * B0 ∧ 0 < gvBackF rnd n b' p' := by
  have θ0 : 0 < θ := (two_zpow_pos _).trans_le hθ
  have np : 0 ≤ n * p := mul_nonneg n0 p0.le
  have eR : R = (b - p) * (b - p) + 4 * n * p := by rw [← hR]; ring
  have hG : (b + p) * (b + p) + 4 * n * p ≤ 9 * R := by rw [eR]; nlinarith
  have hR0 : 0 < R := by rw [eR]; nlinarith
  have hr : |gvRadF rnd n b' p' - R| ≤ 162 * θ * R := hrad.trans (by nlinarith)
  have hr0 : 0 < gvRadF rnd n b' p' := by
    have := (_root_.abs_le.1 hr).1
    nlinarith
  have s0 := Real.sqrt_pos.2 hR0
  have ss := Real.mul_self_sqrt hR0.le
  have t0 := Real.sqrt_pos.2 hr0
  have tt := Real.mul_self_sqrt hr0.le
  have sge : b - p ≤ Real.sqrt R := Real.le_sqrt_of_sq_le (by rw [eR]; nlinarith)
  have hroot : |Real.sqrt (gvRadF rnd n b' p') - Real.sqrt R| ≤ 162 * θ * Real.sqrt R := by
    have e : (Real.sqrt (gvRadF rnd n b' p') - Real.sqrt R) * (Real.sqrt (gvRadF rnd n b' p') + Real.sqrt R) = gvRadF rnd n b' p' - R := by
      linear_combination tt - ss
    have e2 : |Real.sqrt (gvRadF rnd n b' p') - Real.sqrt R| * (Real.sqrt (gvRadF rnd n b' p') + Real.sqrt R) ≤ 162 * θ * R := by
      rw [← abs_of_pos (add_pos t0 s0), ← abs_mul, e]; exact hr
    have e3 : |Real.sqrt (gvRadF rnd n b' p') - Real.sqrt R| * Real.sqrt R ≤ 162 * θ * Real.sqrt R * Real.sqrt R := by
      rw [mul_assoc _ (Real.sqrt R), ss]
      refine le_trans (mul_le_mul_of_nonneg_left (by linarith) (abs_nonneg _)) e2
    exact le_of_mul_le_mul_right e3 s0
  have e1 := carry h (k := 162) hθ (le_of_eq (abs_of_pos s0)) hroot (by linarith) m2
  have e2 := carry h (k := 4) hθ (a := b' - p') (x := b - p) (L := b) (by rw [_root_.abs_le]; constructor <;> linarith) (by
    rw [show b' - p' - (b - p) = (b' - b) - (p' - p) by ring]
    refine (abs_sub _ _).trans ((add_le_add hb hp).trans ?_)
    nlinarith) (by linarith) m1
  have hbs : b ≤ 2 * Real.sqrt R := by linarith
  have e3 := carry h (k := 87) hθ (a := rnd (b' - p') + rnd (Real.sqrt (gvRadF rnd n b' p'))) (x := b - p + Real.sqrt R) (L := 2 * Real.sqrt R)
    (by rw [_root_.abs_le]; constructor <;> linarith) (by
      rw [show rnd (b' - p') + rnd (Real.sqrt (gvRadF rnd n b' p')) - (b - p + Real.sqrt R) = (rnd (b' - p') - (b - p)) + (rnd (Real.sqrt (gvRadF rnd n b' p')) - Real.sqrt R) by ring]
      refine (abs_add_le _ _).trans ((add_le_add e2 e1).trans ?_)
      nlinarith) (by linarith) m3
  have e4 := carry h (k := 88) hθ (a := 1 / 2 * rnd (rnd (b' - p') + rnd (Real.sqrt (gvRadF rnd n b' p')))) (x := B0) (L := Real.sqrt R)
    (by rw [hB, _root_.abs_le]; constructor <;> linarith) (by
      rw [hB, ← mul_sub, abs_mul, abs_of_pos (by norm_num : (0 : ℝ) < 1 / 2)]
      refine (mul_le_mul_of_nonneg_left e3 (by norm_num)).trans (le_of_eq (by ring))) (by linarith) m2
  have hs2 : Real.sqrt R ≤ 2 * B0 := by rw [hB]; linarith
  have hB0 : 0 < B0 := by linarith
  have e5 : |rnd (1 / 2 * rnd (rnd (b' - p') + rnd (Real.sqrt (gvRadF rnd n b' p')))) - B0| ≤ 178 * θ * B0 := e4.trans (by nlinarith)
  have e6 : 0 < rnd (1 / 2 * rnd (rnd (b' - p') + rnd (Real.sqrt (gvRadF rnd n b' p')))) := by
    have := (_root_.abs_le.1 e5).1
    nlinarith
  refine ⟨hr0, ?_, by rw [hB]; linarith, ?_⟩
  · rw [gvBackF, max_eq_left e6.le]; exact e5
  · rw [gvBackF, max_eq_left e6.le]; exact e6


/-! ## The two terms -/

/-- The quotient of two inexact numbers. -/
theorem ratio_near {θ j k x x' y y' X : ℝ} (θ0 : 0 ≤ θ) (hj : 0 ≤ j) (hk : 0 ≤ k) (y0 : 0 < y) (hx : |x| ≤ X) (hxx : |x' - x| ≤ j * θ * X) (hyy : |y' - y| ≤ k * θ * y)
    (hjk : (j + k + 1) * k * θ ≤ 1) (hk1 : k * θ < 1) : |x' / y' - x / y| ≤ (j + k + 1) * θ * (X / y) ∧ 0 < y' := by
  have X0 : 0 ≤ X := (abs_nonneg _).trans hx
  have hy := _root_.abs_le.1 hyy
  have y1 : (1 - k * θ) * y ≤ y' := by linarith [hy.1]
  have y2 : 0 < y' := lt_of_lt_of_le (mul_pos (by linarith) y0) y1
  refine ⟨?_, y2⟩
  rw [div_sub_div _ _ y2.ne' y0.ne', abs_div, abs_of_pos (mul_pos y2 y0), div_le_iff₀ (mul_pos y2 y0)]
  rw [show x' * y - y' * x = (x' - x) * y - x * (y' - y) by ring]
  have h1 : |(x' - x) * y| ≤ j * θ * X * y := by
    rw [abs_mul, abs_of_pos y0]
    exact mul_le_mul_of_nonneg_right hxx y0.le
  have h2 : |x * (y' - y)| ≤ X * (k * θ * y) := by
    rw [abs_mul]
    exact mul_le_mul hx hyy (abs_nonneg _) X0
  refine (abs_sub _ _).trans ((add_le_add h1 h2).trans ?_)
  have e : (j + k + 1) * θ * (X / y) * (y' * y) = (j + k + 1) * θ * X * y' := by field_simp
  rw [e]
  have h3 : (j + k + 1) * θ * X * ((1 - k * θ) * y) ≤ (j + k + 1) * θ * X * y' := mul_le_mul_of_nonneg_left y1 (by positivity)
  refine le_trans ?_ h3
  have h4 : (j + k + 1) * k * θ * (θ * X * y) ≤ 1 * (θ * X * y) := mul_le_mul_of_nonneg_right hjk (by positivity)
  nlinarith

theorem log_le_of {x : ℝ} (h1 : 2 ^ (-82 : ℤ) ≤ x) (h2 : x ≤ 2 ^ (82 : ℤ)) : |Real.log x| ≤ 57 := by
  have h0 : 0 < x := (two_zpow_pos _).trans_le h1
  have l2 := Real.log_two_lt_d9
  have a1 := Real.log_le_log (two_zpow_pos _) h1
  have a2 := Real.log_le_log h0 h2
  rw [Real.log_zpow] at a1 a2
  push_cast at a1 a2
  rw [_root_.abs_le]
  constructor <;> linarith

/-- The part of the counts. -/
theorem countTerm_near {lg : ℝ → ℝ} (h : Nearest rnd) (hl : Accurate lg) (hθ : 2 ^ (-52 : ℤ) ≤ θ) (hθ1 : θ ≤ 1 / 10 ^ 6) {n : ℕ} {B B' N : ℝ} (hN : (n : ℝ) ≤ N)
    (hB0 : 0 < B) (hB : 2 ^ (-31 : ℤ) ≤ B) (hB2 : B ≤ 2 ^ (52 : ℤ)) (hn : n ≤ 2 ^ 50) (hBB : |B' - B| ≤ 178 * θ * B) (m1 : Mid (58 * N)) :
    |(if 0 < (n : ℝ) then xlogyF rnd lg n (rnd (n / B')) else 0) - (if 0 < (n : ℝ) then xlogy n (n / B) else 0)| ≤ 824 * θ * N ∧
    |(if 0 < (n : ℝ) then xlogy n (n / B) else 0)| ≤ 57 * N := by
  have θ0 : 0 < θ := (two_zpow_pos _).trans_le hθ
  have n0 : (0 : ℝ) ≤ n := Nat.cast_nonneg n
  have N0 : 0 ≤ N := n0.trans hN
  by_cases hz : 0 < (n : ℝ)
  swap
  · rw [if_neg hz, if_neg hz, sub_self, abs_zero]
    exact ⟨by positivity, by positivity⟩
  rw [if_pos hz, if_pos hz]
  have n1 : (1 : ℝ) ≤ n := by exact_mod_cast hz
  have n2 : (n : ℝ) ≤ 2 ^ (50 : ℤ) := by exact_mod_cast hn
  have r1 : (2 : ℝ) ^ (-52 : ℤ) ≤ n / B := by
    rw [le_div_iff₀ hB0]
    refine (mul_le_mul_of_nonneg_left hB2 (two_zpow_pos _).le).trans ?_
    rw [← zpow_add₀ (by norm_num)]
    norm_num
    exact_mod_cast hz
  have r2 : n / B ≤ (2 : ℝ) ^ (81 : ℤ) := by
    rw [div_le_iff₀ hB0]
    refine n2.trans (le_trans ?_ (mul_le_mul_of_nonneg_left hB (two_zpow_pos _).le))
    rw [← zpow_add₀ (by norm_num)]
    exact zpow_le (by norm_num)
  have r0 : 0 < n / B := div_pos hz hB0
  have hlog := log_le_of ((zpow_le (by norm_num)).trans r1) (r2.trans (zpow_le (by norm_num)))
  have q1 := (ratio_near (j := 0) (k := 178) θ0.le le_rfl (by norm_num) hB0 (le_of_eq (abs_of_pos hz)) (x' := (n : ℝ)) (by rw [sub_self, abs_zero, zero_mul, zero_mul]) hBB
    (by linarith) (by linarith)).1
  have q2 := carry h (k := 179) hθ (a := n / B') (x := n / B) (le_of_eq (abs_of_pos r0)) (q1.trans (le_of_eq (by ring))) (by linarith)
    ⟨(zpow_le (by norm_num)).trans r1, r2.trans (zpow_le (by norm_num))⟩
  have q3 := log_near r0 (ε := 180 * θ) (by linarith) (q2.trans (le_of_eq (by ring)))
  have q4 : 0 < rnd (n / B') := by
    have := (_root_.abs_le.1 q2).1
    nlinarith
  have q5 : |Real.log (rnd (n / B'))| ≤ 58 := by
    have := abs_add_le (Real.log (rnd (n / B')) - Real.log (n / B)) (Real.log (n / B))
    rw [sub_add_cancel] at this
    linarith
  have q6 := xlogy_error h hl n0 (Or.inr q4) (S := 58 * N) ((zpow_le (by norm_num)).trans m1.1) (m1.2.trans (zpow_le (by norm_num)))
    ((mul_le_mul hN q5 (abs_nonneg _) N0).trans (le_of_eq (mul_comm _ _)))
  have q7 : (2 : ℝ) ^ (-50 : ℤ) ≤ 4 * θ := by
    rw [show (2 : ℝ) ^ (-50 : ℤ) = 4 * 2 ^ (-52 : ℤ) by norm_num]
    exact mul_le_mul_of_nonneg_left hθ (by norm_num)
  have q8 : |xlogy n (rnd (n / B')) - xlogy n (n / B)| ≤ 360 * θ * N := by
    rw [xlogy, xlogy, if_neg hz.ne', if_neg hz.ne', ← mul_sub, abs_mul, abs_of_pos hz]
    refine (mul_le_mul hN q3 (abs_nonneg _) N0).trans (le_of_eq (by ring))
  refine ⟨?_, ?_⟩
  · refine (abs_sub_le _ (xlogy n (rnd (n / B'))) _).trans ((add_le_add q6 q8).trans ?_)
    have := mul_le_mul_of_nonneg_right q7 N0
    generalize (2 : ℝ) ^ (-50 : ℤ) = z at *
    nlinarith
  · rw [xlogy, if_neg hz.ne', abs_mul, abs_of_pos hz]
    exact (mul_le_mul hN hlog (abs_nonneg _) N0).trans (le_of_eq (mul_comm _ _))

/-- The part of the background. -/
theorem backTerm_near (h : Nearest rnd) (hθ : 2 ^ (-52 : ℤ) ≤ θ) (hθ1 : θ * (2 ^ 40 + 1) ≤ 1 / 4000) {n b b' p p' B B' N : ℝ} (n0 : 0 ≤ n) (b0 : 0 < b) (p0 : 0 < p)
    (hbp : 2 * p ≤ b) (hpb : b ≤ 2 ^ 40 * p) (hN : n + b = N) (hB0 : 0 < B) (hB : b ≤ 2 * B) (hQ : B * B - (b - p) * B - n * p = 0)
    (hb : |b' - b| ≤ θ * b) (hp : |p' - p| ≤ 6 * θ * p) (hBB : |B' - B| ≤ 178 * θ * B) (m1 : Mid B) (m2 : Mid (2 * p * N)) (m3 : Mid (2 * p)) (m4 : Mid N) :
    |rnd (rnd (rnd (b' - B') * rnd (b' - B')) / rnd (2 * p')) - (b - B) ^ 2 / (2 * p)| ≤ 196 * θ * N ∧ |(b - B) ^ 2 / (2 * p)| ≤ N ∧ 0 < rnd (2 * p') ∧ B ≤ N := by
  have θ0 : 0 < θ := (two_zpow_pos _).trans_le hθ
  have hθ2 : θ ≤ 1 / 10 ^ 12 := by linarith
  have N0 : 0 < N := by linarith
  have pB : p ≤ B := by linarith
  have np : 0 ≤ n * p := mul_nonneg n0 p0.le
  have hBN : B ≤ N := by
    have : B * B ≤ N * B := by rw [← hN]; nlinarith [mul_le_mul_of_nonneg_left pB n0]
    exact le_of_mul_le_mul_right this hB0
  have hd : |b - B| ≤ B := by rw [_root_.abs_le]; constructor <;> linarith
  have hdB : |b - B| * B ≤ p * N := by
    have e : (b - B) * B = p * (B - n) := by linear_combination -hQ
    have : |b - B| * |B| = p * |B - n| := by rw [← abs_mul, e, abs_mul, abs_of_pos p0]
    rw [abs_of_pos hB0] at this
    rw [this]
    refine mul_le_mul_of_nonneg_left ?_ p0.le
    rw [_root_.abs_le]; constructor <;> linarith
  have hd2 : (b - B) ^ 2 ≤ 2 * p * N := by
    have e : (b - B) * B = p * (B - n) := by linear_combination -hQ
    have h1 : (b - B) ^ 2 * (B * B) = p * p * (B - n) ^ 2 := by
      rw [show (b - B) ^ 2 * (B * B) = ((b - B) * B) ^ 2 by ring, e]; ring
    have h2 : n * p ≤ B * B := by nlinarith
    have h3 : p * p * (B - n) ^ 2 ≤ p * (2 * N) * (B * B) := by
      have k1 : p * (n * n) ≤ n * (B * B) := by nlinarith
      have k2 : p * (B * B) ≤ B * (B * B) := mul_le_mul_of_nonneg_right pB (mul_self_nonneg B)
      have k3 : p * (B - n) ^ 2 ≤ (n + B) * (B * B) := by nlinarith [mul_nonneg np hB0.le]
      have k4 : (n + B) * (B * B) ≤ 2 * N * (B * B) := mul_le_mul_of_nonneg_right (by linarith) (mul_self_nonneg B)
      nlinarith [mul_le_mul_of_nonneg_left (k3.trans k4) p0.le]
    rw [← h1] at h3
    have := le_of_mul_le_mul_right h3 (mul_pos hB0 hB0)
    linarith
  have hBB2 : B * B ≤ (2 ^ 40 + 1) * (p * N) := by
    have k1 : b * B ≤ 2 ^ 40 * p * N := mul_le_mul hpb hBN hB0.le (by positivity)
    have k2 : n * p ≤ p * N := by nlinarith
    nlinarith
  have e1 := carry h (k := 180) hθ (a := b' - B') (x := b - B) hd (by
    rw [show b' - B' - (b - B) = (b' - b) - (B' - B) by ring]
    refine (abs_sub _ _).trans ((add_le_add hb hBB).trans ?_)
    nlinarith) (by linarith) m1
  have pN : 0 < p * N := mul_pos p0 N0
  have e2 : |rnd (b' - B') * rnd (b' - B') - (b - B) ^ 2| ≤ 186 * θ * (2 * p * N) := by
    generalize rnd (b' - B') = d' at *
    rw [show d' * d' - (b - B) ^ 2 = (d' - (b - B)) * (d' - (b - B)) + (d' - (b - B)) * (2 * (b - B)) by ring]
    refine (abs_add_le _ _).trans ?_
    rw [abs_mul, abs_mul, abs_mul, abs_two]
    have k1 : |d' - (b - B)| * |d' - (b - B)| ≤ (181 * θ * B) * (181 * θ * B) := by
      have := e1.trans (le_of_eq (show (180 + 1) * θ * B = 181 * θ * B by ring))
      exact mul_le_mul this this (abs_nonneg _) (by positivity)
    have k2 : |d' - (b - B)| * (2 * |b - B|) ≤ 181 * θ * B * (2 * |b - B|) :=
      mul_le_mul_of_nonneg_right (e1.trans (le_of_eq (by ring))) (by positivity)
    have k3 : 181 * θ * B * (2 * |b - B|) ≤ 362 * θ * (p * N) := by
      rw [show 181 * θ * B * (2 * |b - B|) = 362 * θ * (|b - B| * B) by ring]
      exact mul_le_mul_of_nonneg_left hdB (by positivity)
    have k4 : (181 * θ * B) * (181 * θ * B) ≤ 9 * θ * (p * N) := by
      rw [show (181 * θ * B) * (181 * θ * B) = 32761 * θ * θ * (B * B) by ring]
      have := mul_le_mul_of_nonneg_left hBB2 (show 0 ≤ 32761 * θ * θ by positivity)
      have k5 : 32761 * θ * (θ * (2 ^ 40 + 1)) * (p * N) ≤ 32761 * θ * (1 / 4000) * (p * N) :=
        mul_le_mul_of_nonneg_right (mul_le_mul_of_nonneg_left hθ1 (by positivity)) pN.le
      nlinarith [mul_pos θ0 pN]
    nlinarith
  have e3 := carry h (k := 186) hθ (a := rnd (b' - B') * rnd (b' - B')) (x := (b - B) ^ 2) (by rwa [abs_of_nonneg (sq_nonneg _)]) e2 (by linarith) m2
  have e4 := carry h (k := 6) hθ (a := 2 * p') (x := 2 * p) (L := 2 * p) (le_of_eq (abs_of_pos (by linarith)))
    (by rw [← mul_sub, abs_mul, abs_two]; linarith) (by linarith) m3
  obtain ⟨e5, e6⟩ := ratio_near (j := 187) (k := 7) θ0.le (by norm_num) (by norm_num) (show 0 < 2 * p by linarith) (X := 2 * p * N) (by rwa [abs_of_nonneg (sq_nonneg _)])
    (e3.trans (le_of_eq (by ring))) (e4.trans (le_of_eq (by ring))) (by linarith) (by linarith)
  have eN : 2 * p * N / (2 * p) = N := by field_simp
  rw [eN] at e5
  have hq : |(b - B) ^ 2 / (2 * p)| ≤ N := by
    rw [abs_of_nonneg (div_nonneg (sq_nonneg _) (by linarith)), div_le_iff₀ (by linarith)]
    linarith
  have e7 := carry h (k := 195) hθ hq (e5.trans (le_of_eq (by ring))) (by linarith) m4
  exact ⟨e7.trans (le_of_eq (by ring)), hq, e6, hBN⟩

/-- Both. -/
theorem gvTerms_near {lg : ℝ → ℝ} (h : Nearest rnd) (hl : Accurate lg) (hθ : 2 ^ (-52 : ℤ) ≤ θ) (hθ1 : θ * (2 ^ 40 + 1) ≤ 1 / 4000) {n : ℕ} (hn : n ≤ 2 ^ 50)
    {b b' p p' B B' N : ℝ} (b0 : 0 < b) (p0 : 0 < p) (hbp : 2 * p ≤ b) (hpb : b ≤ 2 ^ 40 * p) (hN : n + b = N) (hB0 : 0 < B) (hB : b ≤ 2 * B) (hQ : B * B - (b - p) * B - n * p = 0)
    (hb : |b' - b| ≤ θ * b) (hp : |p' - p| ≤ 6 * θ * p) (hBB : |B' - B| ≤ 178 * θ * B) (hB1 : 2 ^ (-31 : ℤ) ≤ B) (hB2 : B ≤ 2 ^ (52 : ℤ))
    (m1 : Mid B) (m2 : Mid (2 * p * N)) (m3 : Mid (2 * p)) (m4 : Mid N) (m5 : Mid (58 * N)) (m6 : Mid (59 * N)) (m7 : Mid (118 * N)) :
    |gvTermsF rnd lg n b' p' B' - 2 * ((if 0 < (n : ℝ) then xlogy n (n / B) else 0) + (B - n) + (b - B) ^ 2 / (2 * p))| ≤ 2832 * θ * N ∧
    |2 * ((if 0 < (n : ℝ) then xlogy n (n / B) else 0) + (B - n) + (b - B) ^ 2 / (2 * p))| ≤ 118 * N := by
  have θ0 : 0 < θ := (two_zpow_pos _).trans_le hθ
  have hθ2 : θ ≤ 1 / 10 ^ 12 := by linarith
  have n0 : (0 : ℝ) ≤ n := Nat.cast_nonneg n
  have N0 : 0 < N := by linarith
  obtain ⟨f1, f2, -, hBN⟩ := backTerm_near h hθ hθ1 n0 b0 p0 hbp hpb hN hB0 hB hQ hb hp hBB m1 m2 m3 m4
  obtain ⟨c1, c2⟩ := countTerm_near (N := N) h hl hθ (by linarith) (by linarith) hB0 hB1 hB2 hn hBB m5
  have d0 : |B - n| ≤ N := by rw [_root_.abs_le]; constructor <;> linarith
  have d1 := carry h (k := 178) hθ (a := B' - n) (x := B - n) d0 (by
    rw [show B' - n - (B - n) = B' - B by ring]
    refine hBB.trans (mul_le_mul_of_nonneg_left hBN (by positivity))) (by linarith) m4
  unfold gvTermsF
  generalize (if 0 < (n : ℝ) then xlogyF rnd lg n (rnd (n / B')) else 0) = T1 at *
  generalize (if 0 < (n : ℝ) then xlogy n (n / B) else 0) = U1 at *
  generalize rnd (rnd (rnd (b' - B') * rnd (b' - B')) / rnd (2 * p')) = T3 at *
  generalize (b - B) ^ 2 / (2 * p) = U3 at *
  generalize rnd (B' - n) = T2 at *
  generalize B - (n : ℝ) = U2 at *
  have tN : 0 < θ * N := mul_pos θ0 N0
  have g1 := carry h (k := 18) hθ (a := T1 + T2) (x := U1 + U2) (L := 58 * N) ((abs_add_le _ _).trans (by linarith)) (by
    rw [show T1 + T2 - (U1 + U2) = (T1 - U1) + (T2 - U2) by ring]
    refine (abs_add_le _ _).trans ((add_le_add c1 d1).trans ?_)
    nlinarith) (by linarith) m5
  have g2 := carry h (k := 22) hθ (a := rnd (T1 + T2) + T3) (x := U1 + U2 + U3) (L := 59 * N) ((abs_add_le _ _).trans ((add_le_add_left (abs_add_le _ _) _).trans (by linarith))) (by
    rw [show rnd (T1 + T2) + T3 - (U1 + U2 + U3) = (rnd (T1 + T2) - (U1 + U2)) + (T3 - U3) by ring]
    refine (abs_add_le _ _).trans ((add_le_add g1 f1).trans ?_)
    nlinarith) (by linarith) m6
  have u : |2 * (U1 + U2 + U3)| ≤ 118 * N := by
    rw [abs_mul, abs_two]
    have := (abs_add_le (U1 + U2) U3).trans (add_le_add_left (abs_add_le U1 U2) _)
    linarith
  have g3 := carry h (k := 23) hθ (a := 2 * rnd (rnd (T1 + T2) + T3)) (x := 2 * (U1 + U2 + U3)) (L := 118 * N) u (by
    rw [← mul_sub, abs_mul, abs_two]
    refine (mul_le_mul_of_nonneg_left g2 zero_le_two).trans (le_of_eq (by ring))) (by linarith) m7
  exact ⟨g3.trans (le_of_eq (by ring)), u⟩


/-- The root of a number. -/
theorem rootSquare_near (h : Nearest rnd) (hθ : 2 ^ (-52 : ℤ) ≤ θ) (hθ1 : θ ≤ 1 / 10 ^ 6) {t : ℝ} (t0 : 0 < t) (m : Mid (Real.sqrt t)) :
    0 < rnd (Real.sqrt t) ∧ |rnd (Real.sqrt t) ^ 2 - t| ≤ 3 * θ * t := by
  have θ0 : 0 < θ := (two_zpow_pos _).trans_le hθ
  have s0 := Real.sqrt_pos.2 t0
  have ss := Real.mul_self_sqrt t0.le
  have e1 := carry0 h hθ (le_of_eq (abs_of_pos s0)) m
  have e2 := _root_.abs_le.1 e1
  refine ⟨by nlinarith, ?_⟩
  have e3 := prod_near (j := 1) (k := 1) θ0.le zero_le_one (le_of_eq (abs_of_pos s0)) (by rwa [one_mul]) (le_of_eq (abs_of_pos s0)) (by rwa [one_mul]) (by linarith)
  rw [ss] at e3
  rw [sq]
  exact e3.trans (le_of_eq (by ring))

/-- Scales between `2 ^ -690` and `2 ^ 690` are far from overflow and underflow. -/
theorem mid_of {x : ℝ} {p q : ℤ} (h1 : 2 ^ p ≤ x) (h2 : x ≤ 2 ^ q) (hp : -700 ≤ p) (hq : q ≤ 700) : Mid x := ⟨(zpow_le hp).trans h1, h2.trans (zpow_le hq)⟩

end

/-- The radicand of an excess that is lost in the rounding of the background. -/
theorem gvTerms_le {n b s : ℝ} (hn : 0 ≤ n) (hb : 0 < b) (hs : 0 < s) : gvTerms n b s ≤ (n - b) ^ 2 / b := by
  obtain ⟨-, h1, h2⟩ := C11_profile n b s hn hs
  rw [h1]
  refine (h2 b hb.le (fun _ => hb)).trans ?_
  unfold backLoss
  rw [sub_self, zero_pow two_ne_zero, zero_div, add_zero]
  by_cases hz : 0 < n
  · rw [if_pos hz]
    have := Real.log_le_sub_one_of_pos (div_pos hz hb)
    have := mul_le_mul_of_nonneg_left this hn
    refine (add_le_add_left this _).trans (le_of_eq ?_)
    field_simp
    ring
  · have : n = 0 := le_antisymm (not_lt.1 hz) hn
    subst this
    rw [if_neg hz, le_div_iff₀ hb]
    linarith

/-- The sizes for which the accuracy of the significance is proved: `b` scaled background, `p` its variance. -/
structure GvSized (b p : ℝ) : Prop where
  low : 2 ^ (-30 : ℤ) ≤ b
  high : b ≤ 2 ^ (50 : ℤ)
  narrow : 2 * p ≤ b
  wide : b ≤ 2 ^ 40 * p

section
variable {rnd lg : ℝ → ℝ}

/-- The steps of the computation, for a background `b`, its uncertainty `s`, both multiplied with the ratio. -/
theorem gv_steps {θ : ℝ} (h : Nearest rnd) (hl : Accurate lg) (hθ : 2 ^ (-52 : ℤ) ≤ θ) (hθ1 : θ * (2 ^ 40 + 1) ≤ 1 / 4000) {n : ℕ} (hn : n ≤ 2 ^ 50) {b s s' : ℝ} (hs : 0 < s) (hss : |s' - s| ≤ θ * s)
    (hz : GvSized b (s * s)) : |rnd b - b| ≤ θ * b ∧ 0 < rnd (rnd s' * rnd s') ∧ 0 < gvRadF rnd n (rnd b) (rnd (rnd s' * rnd s')) ∧ 0 < gvBackF rnd n (rnd b) (rnd (rnd s' * rnd s')) ∧
    |gvTermsF rnd lg n (rnd b) (rnd (rnd s' * rnd s')) (gvBackF rnd n (rnd b) (rnd (rnd s' * rnd s'))) - 2 * gvTerms n b s| ≤ 2832 * θ * (n + b) ∧
    2 * gvTerms n b s ≤ 118 * (n + b) := by
  have θ0 : 0 < θ := (two_zpow_pos _).trans_le hθ
  have hθ2 : θ ≤ 1 / 10 ^ 6 := by linarith
  have b0 : 0 < b := (two_zpow_pos _).trans_le hz.low
  have p0 : 0 < s * s := mul_pos hs hs
  have n0 : (0 : ℝ) ≤ n := Nat.cast_nonneg n
  have n2 : (n : ℝ) ≤ 2 ^ (50 : ℤ) := by exact_mod_cast hn
  have p1 : (2 : ℝ) ^ (-70 : ℤ) ≤ s * s := by
    have h1 := hz.low.trans hz.wide
    rw [show (2 : ℝ) ^ (-30 : ℤ) = 2 ^ 40 * 2 ^ (-70 : ℤ) by norm_num] at h1
    exact le_of_mul_le_mul_left h1 (by norm_num)
  have p2 : s * s ≤ 2 ^ (50 : ℤ) := le_trans (by linarith [hz.narrow]) hz.high
  have s1 : (2 : ℝ) ^ (-35 : ℤ) ≤ s := by
    refine le_of_not_gt fun hc => ?_
    have := mul_lt_mul'' hc hc hs.le hs.le
    rw [← zpow_add₀ (by norm_num)] at this
    exact absurd (this.trans_le ((zpow_le (by norm_num)).trans p1)) (lt_irrefl _)
  have s2 : s ≤ (2 : ℝ) ^ (25 : ℤ) := by
    refine le_of_not_gt fun hc => ?_
    have := mul_lt_mul'' hc hc (two_zpow_pos _).le (two_zpow_pos _).le
    rw [← zpow_add₀ (by norm_num)] at this
    exact absurd (this.trans_le p2) (lt_irrefl _)
  have N1 : (2 : ℝ) ^ (-30 : ℤ) ≤ n + b := hz.low.trans (by linarith)
  have N2 : n + b ≤ (2 : ℝ) ^ (51 : ℤ) := by
    rw [show (2 : ℝ) ^ (51 : ℤ) = 2 ^ (50 : ℤ) + 2 ^ (50 : ℤ) by norm_num]
    exact add_le_add n2 hz.high
  have hbb := carry0 h hθ (le_of_eq (abs_of_pos b0)) (mid_of hz.low hz.high (by norm_num) (by norm_num))
  have hpp := scaled_near h hθ hθ2 hs hss (mid_of s1 s2 (by norm_num) (by norm_num)) (mid_of p1 p2 (by norm_num) (by norm_num))
  have hp0 : 0 < rnd (rnd s' * rnd s') := by
    have h1 := (_root_.abs_le.1 hpp).1
    have h2 := mul_le_mul_of_nonneg_right hθ2 p0.le
    linarith only [h1, h2, p0]
  obtain ⟨B1, -, hQ, B2⟩ := gvBackground_spec (n := (n : ℝ)) (b := b) n0 hs
  have hpb := hz.narrow
  have hbp := hz.wide
  have zl := hz.low
  have zh := hz.high
  have mulB : ∀ {x y : ℝ} {p q p' q' : ℤ}, 2 ^ p ≤ x → x ≤ 2 ^ q → 2 ^ p' ≤ y → y ≤ 2 ^ q' → (2 : ℝ) ^ (p + p') ≤ x * y ∧ x * y ≤ 2 ^ (q + q') := by
    intro x y p q p' q' h1 h2 h3 h4
    rw [zpow_add₀ (by norm_num), zpow_add₀ (by norm_num)]
    exact ⟨mul_le_mul h1 h3 (two_zpow_pos _).le ((two_zpow_pos _).le.trans h1), mul_le_mul h2 h4 ((two_zpow_pos _).le.trans h3) (two_zpow_pos _).le⟩
  have two1 : (2 : ℝ) ^ (1 : ℤ) ≤ 2 := by norm_num
  have two2 : (2 : ℝ) ≤ 2 ^ (1 : ℤ) := by norm_num
  have k1 := mulB two1 two2 zl zh
  have k2 := mulB zl zh zl zh
  have k3 := mulB k1.1 k1.2 p1 p2
  have k4 := mulB p1 p2 p1 p2
  have bp1 : (2 : ℝ) ^ (-30 : ℤ) ≤ b + s * s := zl.trans (by linarith)
  have bp2 : b + s * s ≤ (2 : ℝ) ^ (51 : ℤ) := by
    rw [show (2 : ℝ) ^ (51 : ℤ) = 2 ^ (50 : ℤ) + 2 ^ (50 : ℤ) by norm_num]
    exact add_le_add zh p2
  have k5 := mulB bp1 bp2 bp1 bp2
  have np2 : 4 * (n : ℝ) * (s * s) ≤ 2 ^ (102 : ℤ) := by
    have : (n : ℝ) * (s * s) ≤ 2 ^ (50 : ℤ) * 2 ^ (50 : ℤ) := mul_le_mul n2 p2 p0.le (two_zpow_pos _).le
    rw [← zpow_add₀ (by norm_num)] at this
    rw [show (2 : ℝ) ^ (102 : ℤ) = 4 * 2 ^ (50 + 50 : ℤ) by norm_num, mul_assoc]
    exact mul_le_mul_of_nonneg_left this (by norm_num)
  have np0 : 0 ≤ 4 * (n : ℝ) * (s * s) := by positivity
  have hrad := gvRad_near h hθ hθ2 hn b0 p0 hbb hpp rfl (mid_of k1.1 k1.2 (by norm_num) (by norm_num)) (mid_of k2.1 k2.2 (by norm_num) (by norm_num))
    (mid_of k3.1 k3.2 (by norm_num) (by norm_num)) (mid_of k4.1 k4.2 (by norm_num) (by norm_num))
    (mid_of (p := -60) (q := 103) (le_trans (by norm_num) (k5.1.trans (le_add_of_nonneg_right np0))) ((add_le_add k5.2 np2).trans (by norm_num)) (by norm_num) (by norm_num))
  -- the profile background
  have eR : b * b - 2 * b * (s * s) + 4 * n * (s * s) + s * s * (s * s) = (b - s * s) * (b - s * s) + 4 * n * (s * s) := by ring
  have hval : gvBackground n b s = 1 / 2 * (b - s * s + Real.sqrt (b * b - 2 * b * (s * s) + 4 * n * (s * s) + s * s * (s * s))) := by
    unfold gvBackground
    rw [max_eq_left]
    · norm_num
    · have := Real.sqrt_nonneg (b * b - 2 * b * (s * s) + 4 * n * (s * s) + s * s * (s * s))
      norm_num
      linarith
  have q1 : (2 : ℝ) ^ (-31 : ℤ) ≤ Real.sqrt (b * b - 2 * b * (s * s) + 4 * n * (s * s) + s * s * (s * s)) := by
    refine le_trans (b := b - s * s) ?_ (Real.le_sqrt_of_sq_le (by rw [eR, sq]; exact le_add_of_nonneg_right np0))
    have : (2 : ℝ) ^ (-31 : ℤ) = 1 / 2 * 2 ^ (-30 : ℤ) := by norm_num
    rw [this]
    generalize (2 : ℝ) ^ (-30 : ℤ) = z at *
    linarith
  have q2 : Real.sqrt (b * b - 2 * b * (s * s) + 4 * n * (s * s) + s * s * (s * s)) ≤ (2 : ℝ) ^ (52 : ℤ) := by
    refine Real.sqrt_le_iff.2 ⟨(two_zpow_pos _).le, ?_⟩
    rw [eR]
    have h1 : (b - s * s) * (b - s * s) ≤ b * b := mul_self_le_mul_self (by linarith only [hpb, p0]) (by linarith only [p0])
    refine (add_le_add (h1.trans k2.2) np2).trans ?_
    norm_num
  obtain ⟨g1, g2, g3, g4⟩ := gvBack_near h hθ hθ2 n0 b0 p0 hpb hbb hpp rfl hval hrad (mid_of zl zh (by norm_num) (by norm_num)) (mid_of q1 q2 (by norm_num) (by norm_num))
    (mid_of (mulB two1 two2 q1 q2).1 (mulB two1 two2 q1 q2).2 (by norm_num) (by norm_num))
  have hB0 : 0 < gvBackground n b s := by linarith
  have hB1 : (2 : ℝ) ^ (-31 : ℤ) ≤ gvBackground n b s := by
    have : (2 : ℝ) ^ (-31 : ℤ) = 1 / 2 * 2 ^ (-30 : ℤ) := by norm_num
    rw [this]
    generalize (2 : ℝ) ^ (-30 : ℤ) = z at *
    linarith
  have hB2 : gvBackground n b s ≤ (2 : ℝ) ^ (52 : ℤ) := by
    refine le_trans ?_ q2
    rw [hval]
    have : b - s * s ≤ Real.sqrt (b * b - 2 * b * (s * s) + 4 * n * (s * s) + s * s * (s * s)) := Real.le_sqrt_of_sq_le (by rw [eR, sq]; exact le_add_of_nonneg_right np0)
    linarith
  have c58 : ∀ c : ℝ, 1 ≤ c → c ≤ 2 ^ (7 : ℤ) → Mid (c * (n + b)) := fun c h1 h2 => by
    have := mulB (show (2 : ℝ) ^ (0 : ℤ) ≤ c by rwa [zpow_zero]) h2 N1 N2
    exact mid_of this.1 this.2 (by norm_num) (by norm_num)
  have k6 := mulB two1 two2 p1 p2
  have k7 := mulB k6.1 k6.2 N1 N2
  obtain ⟨t1, t2⟩ := gvTerms_near h hl hθ hθ1 hn b0 p0 hpb hbp rfl hB0 g3 hQ hbb hpp g2 hB1 hB2 (mid_of hB1 hB2 (by norm_num) (by norm_num))
    (mid_of k7.1 k7.2 (by norm_num) (by norm_num)) (mid_of k6.1 k6.2 (by norm_num) (by norm_num)) (mid_of N1 N2 (by norm_num) (by norm_num))
    (c58 58 (by norm_num) (by norm_num)) (c58 59 (by norm_num) (by norm_num)) (c58 118 (by norm_num) (by norm_num))
  exact ⟨hbb, hp0, g1, g4, t1, (le_abs_self _).trans t2⟩

/-- **C154 (error), partial.** Where the variance of the scaled background is at most half of it (and not `2 ^ 40` times smaller), a significance whose square is at least `2 ^ -40` times
the number of expected and observed counts is computed: finite, with the right sign, and its square with an error of at most `2 ^ -40` times that number; the uncertainty `s'` given to the
code may differ from `s` in its last place.
Missing: the smaller significances, where the code can give NaN, and the wider backgrounds, where the profile background is lost; see `C154_refuted` and `C154_infinite_refuted`. -/
theorem C154_error_partial (h : Nearest rnd) (hl : Accurate lg) {n : ℕ} {b s s' a : ℝ} (hn : n ≤ 2 ^ 50) (hs : 0 < s) (hss : |s' - s| ≤ 2 ^ (-52 : ℤ) * s) (ha : 0 < a) (h1 : 2 ^ (-30 : ℤ) ≤ b * a) (h2 : b * a ≤ 2 ^ (50 : ℤ))
    (h3 : 2 * (s * a) ^ 2 ≤ b * a) (h4 : b * a ≤ 2 ^ 40 * (s * a) ^ 2) (hS : 2 ^ (-40 : ℤ) * (n + b * a) ≤ significanceGv n b s a ^ 2) :
    ∃ x : ℝ, gvF rnd lg n b s' a = some (x : EReal) ∧ |x ^ 2 - significanceGv n b s a ^ 2| ≤ 2 ^ (-40 : ℤ) * (n + b * a) ∧
      (0 < x ↔ 0 < significanceGv n b s a) ∧ (x < 0 ↔ significanceGv n b s a < 0) := by
  have n0 : (0 : ℝ) ≤ n := Nat.cast_nonneg n
  obtain ⟨c1, c2, c3, c4, c5⟩ := C11_gv n b s a n0 hs ha
  have sa : 0 < s * a := mul_pos hs ha
  have hsa : |s' * a - s * a| ≤ 2 ^ (-52 : ℤ) * (s * a) := by
    rw [← sub_mul, abs_mul, abs_of_pos ha, ← mul_assoc]
    exact mul_le_mul_of_nonneg_right hss ha.le
  have b0 : 0 < b * a := (two_zpow_pos _).trans_le h1
  have N0 : 0 < (n : ℝ) + b * a := by linarith
  obtain ⟨g1, g2, g3, g4, g5, g6⟩ := gv_steps (θ := 2 ^ (-52 : ℤ)) h hl le_rfl (by norm_num) hn sa hsa ⟨h1, h2, by rw [← sq]; exact h3, by rw [← sq]; exact h4⟩
  rw [c2] at hS
  have e40 : (2 : ℝ) ^ (-40 : ℤ) = 4096 * 2 ^ (-52 : ℤ) := by norm_num
  -- the sign
  have hsign : rnd (b * a) ≤ n ↔ b * a ≤ n := by
    have hrep : Rep (n : ℝ) := by
      have := rep_int (k := n) (by
        rw [abs_of_nonneg (by positivity)]
        exact_mod_cast (show n ≤ 2 ^ 53 by omega))
      simpa using this
    refine ⟨fun hc => ?_, fun hc => h.le (by rw [abs_of_pos b0]; exact h2.trans (zpow_le (by norm_num))) hrep hc⟩
    by_contra hgt
    push Not at hgt
    have hle := gvTerms_le n0 b0 sa
    have hd : b * a - n ≤ 2 ^ (-52 : ℤ) * (b * a) := by
      have := (_root_.abs_le.1 g1).1
      generalize (2 : ℝ) ^ (-52 : ℤ) = z at *
      linarith
    have hz0 : (0 : ℝ) < 2 ^ (-52 : ℤ) := two_zpow_pos _
    have hz1 : (2 : ℝ) ^ (-52 : ℤ) ≤ 1 := by norm_num
    rw [e40] at hS
    clear e40 h1 h2 h4 hss hsa
    generalize (2 : ℝ) ^ (-52 : ℤ) = z at *
    have k1 : (n - b * a) ^ 2 / (b * a) ≤ z * (b * a) := by
      rw [div_le_iff₀ b0, show (n - b * a) ^ 2 = (b * a - n) * (b * a - n) by ring]
      exact mul_le_mul hd (by linarith) (by linarith) (by positivity)
    nlinarith [mul_pos hz0 b0, mul_nonneg hz0.le n0]
  -- the value
  have hz0 : (0 : ℝ) < 2 ^ (-52 : ℤ) := two_zpow_pos _
  have g5' := _root_.abs_le.1 g5
  have t1 : 2 ^ (-52 : ℤ) * (n + b * a) ≤ gvTermsF rnd lg n (rnd (b * a)) (rnd (rnd (s' * a) * rnd (s' * a))) (gvBackF rnd n (rnd (b * a)) (rnd (rnd (s' * a) * rnd (s' * a)))) := by
    rw [e40] at hS
    have := mul_pos hz0 N0
    clear e40 h1 h2 h4 hss hsa
    generalize (2 : ℝ) ^ (-52 : ℤ) = z at *
    nlinarith [g5'.1]
  have t2 : gvTermsF rnd lg n (rnd (b * a)) (rnd (rnd (s' * a) * rnd (s' * a))) (gvBackF rnd n (rnd (b * a)) (rnd (rnd (s' * a) * rnd (s' * a)))) ≤ 119 * (n + b * a) := by
    have k : 2832 * (2 : ℝ) ^ (-52 : ℤ) * (n + b * a) ≤ 1 * (n + b * a) := mul_le_mul_of_nonneg_right (by norm_num) N0.le
    clear e40 h1 h2 h4 hss hsa hS
    generalize (2 : ℝ) ^ (-52 : ℤ) = z at *
    linarith [g5'.2]
  have n2 : (n : ℝ) ≤ 2 ^ (50 : ℤ) := by exact_mod_cast hn
  have N2 : (n : ℝ) + b * a ≤ 2 ^ (51 : ℤ) := (add_le_add n2 h2).trans (by norm_num)
  have N1 : (2 : ℝ) ^ (-30 : ℤ) ≤ n + b * a := h1.trans (by linarith)
  have t0 := (mul_pos hz0 N0).trans_le t1
  have t3 : (2 : ℝ) ^ (-82 : ℤ) ≤ 2 ^ (-52 : ℤ) * (n + b * a) := by
    refine le_trans (le_of_eq ?_) (mul_le_mul_of_nonneg_left N1 hz0.le)
    norm_num
  have t4 : 119 * (n + b * a) ≤ (2 : ℝ) ^ (58 : ℤ) := (mul_le_mul_of_nonneg_left N2 (by norm_num)).trans (by norm_num)
  obtain ⟨r0, r1⟩ := rootSquare_near h (θ := 2 ^ (-52 : ℤ)) le_rfl (by norm_num) t0
    (mid_of (p := -41) (q := 29) (Real.le_sqrt_of_sq_le (le_trans (by norm_num) (t3.trans t1))) (Real.sqrt_le_iff.2 ⟨(two_zpow_pos _).le, (t2.trans t4).trans (by norm_num)⟩)
      (by norm_num) (by norm_num))
  have hval : gvF rnd lg n b s' a = some ((gvSign n (rnd (b * a)) * rnd (Real.sqrt (gvTermsF rnd lg n (rnd (b * a)) (rnd (rnd (s' * a) * rnd (s' * a)))
      (gvBackF rnd n (rnd (b * a)) (rnd (rnd (s' * a) * rnd (s' * a)))))) : ℝ) : EReal) := by
    unfold gvF
    dsimp only
    rw [if_neg (not_lt.2 g3.le), if_neg g2.ne', if_neg (fun hc => g4.ne' hc.2), if_neg (not_lt.2 t0.le)]
  refine ⟨_, hval, ?_, ?_, ?_⟩
  · rw [mul_pow, show gvSign n (rnd (b * a)) ^ 2 = 1 by unfold gvSign; split <;> norm_num, one_mul, c2]
    refine (abs_sub_le _ _ _).trans ((add_le_add (r1.trans (mul_le_mul_of_nonneg_left t2 (by positivity))) g5).trans ?_)
    rw [e40, show 3 * (2 : ℝ) ^ (-52 : ℤ) * (119 * (n + b * a)) + 2832 * 2 ^ (-52 : ℤ) * (n + b * a) = 3189 * 2 ^ (-52 : ℤ) * (n + b * a) by ring]
    exact mul_le_mul_of_nonneg_right (mul_le_mul_of_nonneg_right (by norm_num) hz0.le) N0.le
  all_goals
    generalize rnd (Real.sqrt (gvTermsF rnd lg n (rnd (b * a)) (rnd (rnd (s' * a) * rnd (s' * a))) (gvBackF rnd n (rnd (b * a)) (rnd (rnd (s' * a) * rnd (s' * a)))))) = r at *
    have hne : (n : ℝ) ≠ b * a := fun he => by
      have : gvTerms n (b * a) (s * a) = 0 := ((gvTerms_nonneg_zero n0 sa).2).2 he
      rw [this, mul_zero] at hS
      exact absurd hS (not_le.2 (mul_pos (two_zpow_pos _) N0))
    unfold gvSign
  · rw [c4]
    by_cases hc : b * a ≤ n
    · rw [if_pos (hsign.2 hc), one_mul]
      exact ⟨fun _ => lt_of_le_of_ne hc hne.symm, fun _ => r0⟩
    · rw [if_neg (fun hd => hc (hsign.1 hd))]
      push Not at hc
      constructor
      · intro hx; exact absurd hx (by linarith)
      · intro hx; exact absurd hx (not_lt.2 hc.le)
  · rw [c5]
    by_cases hc : b * a ≤ n
    · rw [if_pos (hsign.2 hc), one_mul]
      constructor
      · intro hx; exact absurd hx (not_lt.2 r0.le)
      · intro hx; exact absurd hx (not_lt.2 hc)
    · rw [if_neg (fun hd => hc (hsign.1 hd))]
      push Not at hc
      exact ⟨fun _ => hc, fun _ => by linarith⟩

/-- What the code gives where the profile background is not lost: NaN if the radicand is negative, else a finite number. -/
theorem gv_value {n b s' a : ℝ} (g2 : 0 < rnd (rnd (s' * a) * rnd (s' * a))) (g3 : 0 < gvRadF rnd n (rnd (b * a)) (rnd (rnd (s' * a) * rnd (s' * a))))
    (g4 : 0 < gvBackF rnd n (rnd (b * a)) (rnd (rnd (s' * a) * rnd (s' * a)))) {y : EReal} (hy : gvF rnd lg n b s' a = some y) :
    y = ((gvSign n (rnd (b * a)) * rnd (Real.sqrt (gvTermsF rnd lg n (rnd (b * a)) (rnd (rnd (s' * a) * rnd (s' * a)))
      (gvBackF rnd n (rnd (b * a)) (rnd (rnd (s' * a) * rnd (s' * a)))))) : ℝ) : EReal) := by
  unfold gvF at hy
  dsimp only at hy
  rw [if_neg (not_lt.2 g3.le), if_neg g2.ne', if_neg (fun hc => g4.ne' hc.2)] at hy
  split at hy
  · exact absurd hy (by simp)
  · exact (Option.some.inj hy).symm

/-- **C154 (practice).** With at most a million expected and observed counts and a significance of at least one, the error of the significance is at most one millionth, where the
variance of the scaled background is at most half of it. -/
theorem C154_practice (h : Nearest rnd) (hl : Accurate lg) {n : ℕ} {b s s' a : ℝ} (hN : n + b * a ≤ 10 ^ 6) (hs : 0 < s) (hss : |s' - s| ≤ 2 ^ (-52 : ℤ) * s) (ha : 0 < a)
    (h1 : 2 ^ (-30 : ℤ) ≤ b * a) (h3 : 2 * (s * a) ^ 2 ≤ b * a) (h4 : b * a ≤ 2 ^ 40 * (s * a) ^ 2) (hS : 1 ≤ |significanceGv n b s a|) :
    ∃ x : ℝ, gvF rnd lg n b s' a = some (x : EReal) ∧ |x - significanceGv n b s a| ≤ 1 / 10 ^ 6 := by
  have n0 : (0 : ℝ) ≤ n := Nat.cast_nonneg n
  have b0 : 0 < b * a := (two_zpow_pos _).trans_le h1
  have hn : n ≤ 2 ^ 50 := by
    have : (n : ℝ) ≤ 10 ^ 6 := by linarith
    have : n ≤ 10 ^ 6 := by exact_mod_cast this
    exact this.trans (by norm_num)
  have hz : (2 : ℝ) ^ (-40 : ℤ) * (n + b * a) ≤ 1 / 10 ^ 6 := (mul_le_mul_of_nonneg_left hN (two_zpow_pos _).le).trans (by norm_num)
  have hq : 1 ≤ significanceGv n b s a ^ 2 := by
    rw [← sq_abs]; nlinarith [abs_nonneg (significanceGv (n : ℝ) b s a)]
  have h2 : b * a ≤ 2 ^ (50 : ℤ) := le_trans (b := 10 ^ 6) (by linarith) (by norm_num)
  obtain ⟨x, e, e1, e2, e3⟩ := C154_error_partial h hl hn hs hss ha h1 h2 h3 h4 (hz.trans (le_trans (by norm_num) hq))
  refine ⟨x, e, ?_⟩
  have e4 := e1.trans hz
  clear e1 h1 h2 h4 hss hz e
  generalize significanceGv (n : ℝ) b s a = S at *
  have hs : 1 ≤ |x + S| := by
    rcases lt_trichotomy S 0 with hc | hc | hc
    · rw [abs_of_neg hc] at hS
      have := e3.2 hc
      rw [abs_of_neg (by linarith)]; linarith
    · rw [hc, abs_zero] at hS; exact absurd hS (by norm_num)
    · rw [abs_of_pos hc] at hS
      have := e2.2 hc
      rw [abs_of_pos (by linarith)]; linarith
  rw [sq_sub_sq, abs_mul] at e4
  nlinarith [abs_nonneg (x - S)]

/-- A computed significance stays below `1001 / 1000` if the exact one is below one. -/
theorem small_gv (h : Nearest rnd) (hl : Accurate lg) {n : ℕ} {b s s' a : ℝ} (hN : n + b * a ≤ 10 ^ 6) (hs : 0 < s) (hss : |s' - s| ≤ 2 ^ (-52 : ℤ) * s) (ha : 0 < a)
    (h1 : 2 ^ (-30 : ℤ) ≤ b * a) (h3 : 2 * (s * a) ^ 2 ≤ b * a) (h4 : b * a ≤ 2 ^ 40 * (s * a) ^ 2) (hS : |significanceGv n b s a| < 1) {y : EReal}
    (e : gvF rnd lg n b s' a = some y) : y < ((1001 / 1000 : ℝ) : EReal) := by
  have n0 : (0 : ℝ) ≤ n := Nat.cast_nonneg n
  have b0 : 0 < b * a := (two_zpow_pos _).trans_le h1
  have hn : n ≤ 2 ^ 50 := by
    have : (n : ℝ) ≤ 10 ^ 6 := by linarith
    have : n ≤ 10 ^ 6 := by exact_mod_cast this
    exact this.trans (by norm_num)
  have h2 : b * a ≤ 2 ^ (50 : ℤ) := le_trans (b := 10 ^ 6) (by linarith) (by norm_num)
  have hsa : |s' * a - s * a| ≤ 2 ^ (-52 : ℤ) * (s * a) := by
    rw [← sub_mul, abs_mul, abs_of_pos ha, ← mul_assoc]
    exact mul_le_mul_of_nonneg_right hss ha.le
  obtain ⟨-, g2, g3, g4, g5, -⟩ := gv_steps (θ := 2 ^ (-52 : ℤ)) h hl le_rfl (by norm_num) hn (mul_pos hs ha) hsa ⟨h1, h2, by rw [← sq]; exact h3, by rw [← sq]; exact h4⟩
  obtain ⟨-, c2, -⟩ := C11_gv n b s a n0 hs ha
  have hq : significanceGv n b s a ^ 2 < 1 := by rw [← sq_abs]; nlinarith [abs_nonneg (significanceGv (n : ℝ) b s a)]
  have hz : 2832 * (2 : ℝ) ^ (-52 : ℤ) * (n + b * a) ≤ 1 / 10 ^ 6 := (mul_le_mul_of_nonneg_left hN (by positivity)).trans (by norm_num)
  have e1 := (_root_.abs_le.1 (g5.trans hz)).2
  rw [gv_value g2 g3 g4 e, EReal.coe_lt_coe_iff]
  clear hz g5 hsa hss h1 h2 h4
  rw [c2] at hq
  generalize gvTermsF rnd lg n (rnd (b * a)) (rnd (rnd (s' * a) * rnd (s' * a))) (gvBackF rnd n (rnd (b * a)) (rnd (rnd (s' * a) * rnd (s' * a)))) = t at *
  have t1 : t ≤ 1 + 1 / 10 ^ 6 := by linarith
  have hr0 : 0 ≤ Real.sqrt t := Real.sqrt_nonneg _
  have hr1 : Real.sqrt t ≤ 1 + 1 / 10 ^ 6 := Real.sqrt_le_iff.2 ⟨by norm_num, t1.trans (by norm_num)⟩
  have hb : Real.sqrt t ≤ 2 ^ (1 : ℤ) := hr1.trans (by norm_num)
  obtain ⟨-, u1, -⟩ := h.upto hr0 hb (by norm_num) (by norm_num)
  have u2 := h.err hr0 (hb.trans (zpow_le (by norm_num)))
  have u3 : tiny ≤ 1 / 10 ^ 6 := by
    have : tiny ≤ (2 : ℝ) ^ (-30 : ℤ) := zpow_le (by norm_num)
    exact this.trans (by norm_num)
  have u4 : unit * Real.sqrt t ≤ 1 / 10 ^ 6 * (1 + 1 / 10 ^ 6) := mul_le_mul (by unfold unit; norm_num) hr1 hr0 (by norm_num)
  have u5 := (_root_.abs_le.1 u2).2
  have hlt : rnd (Real.sqrt t) < 1001 / 1000 := by
    norm_num at u3 u4 hr1 ⊢
    linarith
  unfold gvSign
  split
  · rwa [one_mul]
  · linarith

/-! ## The grouping -/

/-- The intervals of channels for which the accuracy is proved: `n` counts, `b` background, `v` its variance, `a` the ratio. -/
structure GvInterval (n b v a : ℝ) : Prop where
  counts : n + b * a ≤ 10 ^ 6
  low : 2 ^ (-30 : ℤ) ≤ b * a
  narrow : 2 * (v * a ^ 2) ≤ b * a
  wide : b * a ≤ 2 ^ 40 * (v * a ^ 2)
  ratio : In (-30) 30 a

/-- The uncertainty of an interval, computed. -/
theorem sigma_near (h : Nearest rnd) {n b v a : ℝ} (n0 : 0 ≤ n) (hz : GvInterval n b v a) :
    0 < Real.sqrt v ∧ |rnd (Real.sqrt v) - Real.sqrt v| ≤ 2 ^ (-52 : ℤ) * Real.sqrt v ∧ (Real.sqrt v * a) ^ 2 = v * a ^ 2 := by
  have a0 := hz.ratio.pos
  have w := hz.low.trans hz.wide
  have va : 0 < v * a ^ 2 := by
    by_contra hc
    push Not at hc
    have := (two_zpow_pos (-30)).trans_le w
    nlinarith
  have v0 : 0 < v := by
    by_contra hc
    push Not at hc
    nlinarith [sq_nonneg a]
  have ss := Real.sq_sqrt v0.le
  have s0 := Real.sqrt_pos.2 v0
  refine ⟨s0, carry0 h le_rfl (le_of_eq (abs_of_pos s0)) ?_, by rw [mul_pow, ss]⟩
  have a2 : a ^ 2 ≤ (2 : ℝ) ^ (60 : ℤ) := by
    rw [show (2 : ℝ) ^ (60 : ℤ) = (2 ^ (30 : ℤ)) ^ 2 by norm_num]
    exact pow_le_pow_left₀ a0.le hz.ratio.2.2 2
  have a1 : (2 : ℝ) ^ (-60 : ℤ) ≤ a ^ 2 := by
    rw [show (2 : ℝ) ^ (-60 : ℤ) = (2 ^ (-30 : ℤ)) ^ 2 by norm_num]
    exact pow_le_pow_left₀ (two_zpow_pos _).le hz.ratio.2.1 2
  have v1 : (2 : ℝ) ^ (-130 : ℤ) ≤ v := by
    have k1 : (2 : ℝ) ^ (-30 : ℤ) ≤ 2 ^ 40 * (v * 2 ^ (60 : ℤ)) := w.trans (mul_le_mul_of_nonneg_left (mul_le_mul_of_nonneg_left a2 v0.le) (by norm_num))
    rw [show (2 : ℝ) ^ (-30 : ℤ) = 2 ^ 40 * (2 ^ (-130 : ℤ) * 2 ^ (60 : ℤ)) by norm_num] at k1
    exact le_of_mul_le_mul_right (le_of_mul_le_mul_left k1 (by norm_num)) (two_zpow_pos _)
  have v2 : v ≤ (2 : ℝ) ^ (80 : ℤ) := by
    have k1 : v * a ^ 2 ≤ 10 ^ 6 := by linarith [hz.narrow, hz.counts]
    have k2 : v * 2 ^ (-60 : ℤ) ≤ (2 : ℝ) ^ (80 : ℤ) * 2 ^ (-60 : ℤ) := (mul_le_mul_of_nonneg_left a1 v0.le).trans (k1.trans (by norm_num))
    exact le_of_mul_le_mul_right k2 (two_zpow_pos _)
  refine mid_of (p := -65) (q := 40) (Real.le_sqrt_of_sq_le (le_trans (by norm_num) v1)) (Real.sqrt_le_iff.2 ⟨(two_zpow_pos _).le, v2.trans (by norm_num)⟩) (by norm_num) (by norm_num)

/-- **C154 (grouping in double precision).** If the wanted significance is above one, no interval of channels has a significance within one millionth of it, no interval that ends at the
last channel has one below one thousandth in size, and the variance of the scaled background of every interval is at most half of it, then the grouping by significance over a Gaussian
background in double precision is the exact one. -/
theorem C154_rounded_grouping (h : Nearest rnd) (hl : Accurate lg) (n : List ℕ) (b s : List ℝ) (d : RatioData) (sig : ℝ) (hsig : 1001 / 1000 ≤ sig)
    (hz : ∀ i j, i < j → j ≤ n.length → GvInterval (total n i j : ℕ) (total b i j) (total (s.map fun x => x * x) i j) (d.ratio i j))
    (hS : ∀ i j, i < j → j ≤ n.length →
      1 / 10 ^ 6 < |significanceGv (total n i j : ℕ) (total b i j) (Real.sqrt (total (s.map fun x => x * x) i j)) (d.ratio i j) - sig|)
    (hE : ∀ i < n.length, 1 / 10 ^ 3 ≤
      |significanceGv (total n i n.length : ℕ) (total b i n.length) (Real.sqrt (total (s.map fun x => x * x) i n.length)) (d.ratio i n.length)|) :
    groupSigGvF rnd lg (n.map fun k : ℕ => (k : ℝ)) b s d.ratio sig = groupSigGv (n.map fun k : ℕ => (k : ℝ)) b s d sig := by
  unfold groupSigGvF groupSigGv
  by_cases hlen' : (n.map fun k : ℕ => (k : ℝ)).length = b.length ∧ b.length = s.length
  swap
  · rw [if_pos hlen', if_pos hlen']
  have hlen : n.length = b.length ∧ b.length = s.length := by simpa using hlen'
  rw [if_neg (not_not.2 hlen'), if_neg (not_not.2 hlen')]
  have hsig0 : ¬ sig ≤ 0 := by linarith
  rw [if_neg hsig0, if_neg hsig0]
  by_cases hne : n = []
  · subst hne; rfl
  have hy : ¬ (n.map fun k : ℕ => (k : ℝ)) = [] := by simpa using hne
  rw [if_neg hy, if_neg hy]
  dsimp only
  rw [List.length_map]
  have hpos : 0 < n.length := List.length_pos_of_ne_nil hne
  generalize hv : (s.map fun x => x * x) = v at *
  have hvl : v.length = s.length := by rw [← hv, List.length_map]
  -- one interval
  have key : ∀ i j, i < j → j ≤ n.length → ∀ y, gvF rnd lg (total n i j : ℕ) (total b i j) (rnd (Real.sqrt (total v i j))) (d.ratio i j) = some y →
      ((sig : EReal) ≤ y ↔ sig ≤ significanceGv (total n i j : ℕ) (total b i j) (Real.sqrt (total v i j)) (d.ratio i j)) := by
    intro i j hij hj y hy
    have h2 := hS i j hij hj
    have hw := hz i j hij hj
    obtain ⟨k1, k2, k3⟩ := sigma_near h (Nat.cast_nonneg _) hw
    rcases lt_or_ge |significanceGv (total n i j : ℕ) (total b i j) (Real.sqrt (total v i j)) (d.ratio i j)| 1 with hc | hc
    · have h3 := small_gv h hl hw.counts k1 k2 hw.ratio.pos hw.low (by rw [k3]; exact hw.narrow) (by rw [k3]; exact hw.wide) hc hy
      have h4 := (_root_.abs_lt.1 hc).2
      constructor
      · intro hle
        exact absurd (EReal.coe_lt_coe_iff.1 (hle.trans_lt h3)) (not_lt.2 hsig)
      · intro hle; exact absurd hle (by linarith)
    obtain ⟨x, e, he⟩ := C154_practice h hl hw.counts k1 k2 hw.ratio.pos hw.low (by rw [k3]; exact hw.narrow) (by rw [k3]; exact hw.wide) hc
    obtain rfl : (x : EReal) = y := by rw [e] at hy; exact Option.some.inj hy
    rw [EReal.coe_le_coe_iff]
    obtain ⟨e1, e2⟩ := _root_.abs_le.1 he
    clear hw k1 k2 k3 e hy
    generalize significanceGv (total n i j : ℕ) (total b i j) (Real.sqrt (total v i j)) (d.ratio i j) = S at *
    rcases le_total 0 (S - sig) with hc | hc
    · rw [abs_of_nonneg hc] at h2
      exact ⟨fun _ => by linarith, fun _ => by linarith⟩
    · rw [abs_of_nonpos hc] at h2
      exact ⟨fun _ => by linarith, fun _ => by linarith⟩
  have keyR : ∀ i j, i < j → j ≤ n.length → reachesE sig (gvF rnd lg (total n i j : ℕ) (total b i j) (rnd (Real.sqrt (total v i j))) (d.ratio i j)) =
      decide (sig ≤ significanceGv (total n i j : ℕ) (total b i j) (Real.sqrt (total v i j)) (d.ratio i j)) := by
    intro i j hij hj
    cases hc : gvF rnd lg (total n i j : ℕ) (total b i j) (rnd (Real.sqrt (total v i j))) (d.ratio i j) with
    | some y => simp only [reachesE, key i j hij hj y hc]
    | none =>
      have : ¬ sig ≤ significanceGv (total n i j : ℕ) (total b i j) (Real.sqrt (total v i j)) (d.ratio i j) := by
        intro hge
        have hw := hz i j hij hj
        obtain ⟨k1, k2, k3⟩ := sigma_near h (Nat.cast_nonneg _) hw
        obtain ⟨x, e, -⟩ := C154_practice h hl hw.counts k1 k2 hw.ratio.pos hw.low (by rw [k3]; exact hw.narrow) (by rw [k3]; exact hw.wide) (le_trans (by linarith) (le_abs_self _))
        rw [hc] at e
        exact absurd e (by simp)
      simp only [reachesE, this, decide_false]
  have keyF : ∀ i < n.length, fallsE sig (gvF rnd lg (total n i n.length : ℕ) (total b i n.length) (rnd (Real.sqrt (total v i n.length))) (d.ratio i n.length)) =
      !decide (sig ≤ significanceGv (total n i n.length : ℕ) (total b i n.length) (Real.sqrt (total v i n.length)) (d.ratio i n.length)) := by
    intro i hi
    have hbig := hE i hi
    have hw := hz i _ hi (le_refl _)
    obtain ⟨k1, k2, k3⟩ := sigma_near h (Nat.cast_nonneg _) hw
    have hq : (2 : ℝ) ^ (-40 : ℤ) * ((total n i n.length : ℕ) + total b i n.length * d.ratio i n.length) ≤
        significanceGv (total n i n.length : ℕ) (total b i n.length) (Real.sqrt (total v i n.length)) (d.ratio i n.length) ^ 2 := by
      refine (mul_le_mul_of_nonneg_left hw.counts (two_zpow_pos _).le).trans ?_
      rw [← sq_abs]
      exact le_trans (by norm_num) (pow_le_pow_left₀ (by norm_num) hbig 2)
    have hn : total n i n.length ≤ 2 ^ 50 := by
      have h0 := (two_zpow_pos _).trans_le hw.low
      have : ((total n i n.length : ℕ) : ℝ) ≤ 10 ^ 6 := by linarith [hw.counts]
      have : total n i n.length ≤ 10 ^ 6 := by exact_mod_cast this
      exact this.trans (by norm_num)
    have h2 : total b i n.length * d.ratio i n.length ≤ 2 ^ (50 : ℤ) := le_trans (b := 10 ^ 6) (by linarith [hw.counts, (Nat.cast_nonneg (total n i n.length) : (0 : ℝ) ≤ _)]) (by norm_num)
    obtain ⟨x, e, -⟩ := C154_error_partial h hl hn k1 k2 hw.ratio.pos hw.low h2 (by rw [k3]; exact hw.narrow) (by rw [k3]; exact hw.wide) hq
    have hk := key i _ hi (le_refl _) x e
    rw [e]
    simp only [fallsE, ← not_le, hk, decide_not]
  have hloop : greedyLoopE (fun i j : ℕ => gvF rnd lg (intervalSum (prefixSum (n.map fun k : ℕ => (k : ℝ))) i j) (intervalSum (prefixSum b) i j)
      (rnd (Real.sqrt (intervalSum (prefixSum v) i j))) (d.ratio i j)) sig n.length 0 0 [0] =
      greedyLoop (gvOk (n.map fun k : ℕ => (k : ℝ)) b s d sig) n.length 0 0 [0] := by
    refine greedyE_same (nd := n.length) (fun i j hij hj => ?_) (fun i hi => ?_) _ _ _ _ (le_refl _) (by omega)
    · rw [gvOk, hv, intervalSum_prefix _ hij.le (by rwa [List.length_map]), intervalSum_prefix _ hij.le (by omega), intervalSum_prefix _ hij.le (by omega), total_cast]
      exact keyR i j hij hj
    · rw [gvOk, hv, intervalSum_prefix _ hi.le (by rw [List.length_map]), intervalSum_prefix _ hi.le (by omega), intervalSum_prefix _ hi.le (by omega), total_cast]
      exact keyF i hi
  rw [hloop]
  have hdesc := (greedy_out (gvOk (n.map fun k : ℕ => (k : ℝ)) b s d sig) hpos).desc
  generalize greedyLoop (gvOk (n.map fun k : ℕ => (k : ℝ)) b s d sig) n.length 0 0 [0] = r at *
  have hp : r.reverse.Pairwise (· < ·) := by rw [List.pairwise_reverse]; exact hdesc.pw
  congr 2
  rw [Bool.eq_iff_iff, gvSuccess_iff (by simpa using hlen.1) hlen.2 (by simpa using hdesc), List.length_map]
  rw [reduceat_eq _ _ hp, reduceat_eq _ _ hp, reduceat_eq _ _ hp, List.length_map, hvl, ← hlen.2, ← hlen.1, List.zip_map', List.zip_map', List.zip_map', List.all_map, List.all_eq_true]
  simp only [mem_edges_reverse, Function.comp, total_cast, hv]
  refine forall_congr' fun e => forall_congr' fun he => ?_
  obtain ⟨h1, h2⟩ := mem_revEdges_lt hdesc.pw hdesc.lt he
  rw [keyR _ _ h1 h2, decide_eq_true_eq]

end

/-! ## Examples -/

theorem gvTerms_ge {n b s : ℝ} (hn : 0 ≤ n) (hs : 0 < s) : (b - gvBackground n b s) ^ 2 / (2 * (s * s)) ≤ gvTerms n b s := by
  obtain ⟨B0, B1, -⟩ := gvBackground_spec (b := b) hn hs
  unfold gvTerms
  generalize gvBackground n b s = B at *
  refine le_add_of_nonneg_left ?_
  by_cases hz : 0 < n
  · rw [if_pos hz, xlogy, if_neg hz.ne']
    have hB := B1 hz
    have h1 := Real.log_le_sub_one_of_pos (div_pos hB hz)
    have e : Real.log (n / B) = -Real.log (B / n) := by rw [← Real.log_inv, inv_div]
    rw [e]
    have h2 := mul_le_mul_of_nonneg_left h1 hn
    rw [show n * (B / n - 1) = B - n by field_simp] at h2
    linarith
  · rw [if_neg hz, le_antisymm (not_lt.1 hz) hn]
    linarith

/-- Thirty counts over a background of ten with a variance of four, sixty over twenty with a variance of eight. -/
theorem exGv : 2 ≤ significanceGv 30 20 4 (1 / 2) ∧ 2 ≤ significanceGv 60 40 (Real.sqrt 32) (1 / 2) := by
  have of : ∀ {n b s a : ℝ}, 0 ≤ n → 0 < s → 0 < a → b * a < n → 2 ≤ (b * a - gvBackground n (b * a) (s * a)) ^ 2 / (2 * (s * a * (s * a))) → 2 ≤ significanceGv n b s a := by
    intro n b s a n0 s0 a0 hlt hT
    obtain ⟨-, c2, -, c4, -⟩ := C11_gv n b s a n0 s0 a0
    have h1 := gvTerms_ge (b := b * a) n0 (mul_pos s0 a0)
    have h2 := c4.2 hlt
    have : (4 : ℝ) ≤ significanceGv n b s a ^ 2 := by rw [c2]; linarith
    nlinarith
  have r : (22 : ℝ) ≤ Real.sqrt 516 := Real.le_sqrt_of_sq_le (by norm_num)
  constructor
  · refine of (by norm_num) (by norm_num) (by norm_num) (by norm_num) ?_
    have e : gvBackground 30 (20 * (1 / 2)) (4 * (1 / 2)) = 3 + 1 / 2 * Real.sqrt 516 := by
      unfold gvBackground
      norm_num
      rw [max_eq_left (by linarith)]
      ring
    rw [e, le_div_iff₀ (by norm_num)]
    nlinarith
  · refine of (by norm_num) (Real.sqrt_pos.2 (by norm_num)) (by norm_num) (by norm_num) ?_
    have q : Real.sqrt 32 * (1 / 2) * (Real.sqrt 32 * (1 / 2)) = 8 := by
      have := Real.mul_self_sqrt (show (0 : ℝ) ≤ 32 by norm_num)
      linear_combination 1 / 4 * this
    have r2 : (44 : ℝ) ≤ Real.sqrt 2064 := Real.le_sqrt_of_sq_le (by norm_num)
    have e : gvBackground 60 (40 * (1 / 2)) (Real.sqrt 32 * (1 / 2)) = 6 + 1 / 2 * Real.sqrt 2064 := by
      unfold gvBackground
      rw [q]
      norm_num
      rw [max_eq_left (by linarith)]
      ring
    rw [e, q, le_div_iff₀ (by norm_num)]
    nlinarith

example := C154_error_partial (n := 30) (b := 20) (s := 4) (s' := 4) (a := 1 / 2) leftNearest exLog_ok (by norm_num) (by norm_num) (by norm_num) (by norm_num) (by norm_num)
  (by norm_num) (by norm_num) (by norm_num) (by
    have := pow_le_pow_left₀ (by norm_num) exGv.1 2
    push_cast
    exact le_trans (by norm_num) this)
example := C154_practice (n := 30) (b := 20) (s := 4) (s' := 4) (a := 1 / 2) leftNearest exLog_ok (by norm_num) (by norm_num) (by norm_num) (by norm_num) (by norm_num)
  (by norm_num) (by norm_num) (by
    have := exGv.1
    push_cast
    rw [abs_of_pos (by linarith)]
    linarith)

theorem exGvTotals {i j : ℕ} (hij : i < j) (hj : j ≤ 2) :
    2 ≤ significanceGv (total [30, 30] i j : ℕ) (total [20, 20] i j) (Real.sqrt (total ([4, 4].map fun x => x * x) i j)) (exRatio.ratio i j) ∧
    GvInterval (total [30, 30] i j : ℕ) (total [20, 20] i j) (total ([4, 4].map fun x => x * x) i j) (exRatio.ratio i j) := by
  rw [exRatio_half hij hj]
  have h4 : Real.sqrt 16 = 4 := by rw [show (16 : ℝ) = 4 ^ 2 by norm_num]; exact Real.sqrt_sq (by norm_num)
  have hin : In (-30) 30 (1 / 2) := ⟨by
    have := rep_pow (p := -1) (by norm_num) (by norm_num)
    norm_num at this ⊢
    exact this, by norm_num, by norm_num⟩
  have : (i = 0 ∧ j = 1) ∨ (i = 0 ∧ j = 2) ∨ (i = 1 ∧ j = 2) := by omega
  obtain ⟨h1, h2⟩ := exGv
  have t01 : ∀ x y : ℝ, total [x, y] 0 1 = x := by intro x y; simp [total]
  have t12 : ∀ x y : ℝ, total [x, y] 1 2 = y := by intro x y; simp [total]
  have t02 : ∀ x y : ℝ, total [x, y] 0 2 = x + y := by intro x y; simp [total, Finset.sum_range_succ]
  rcases this with ⟨rfl, rfl⟩ | ⟨rfl, rfl⟩ | ⟨rfl, rfl⟩
  · rw [show total [30, 30] 0 1 = 30 from rfl, List.map_cons, List.map_cons, List.map_nil, t01, t01]
    refine ⟨by norm_num [h4]; norm_num at h1; exact h1, ⟨by norm_num, by norm_num, by norm_num, by norm_num, hin⟩⟩
  · rw [show total [30, 30] 0 2 = 60 from rfl, List.map_cons, List.map_cons, List.map_nil, t02, t02]
    refine ⟨by norm_num; norm_num at h2; exact h2, ⟨by norm_num, by norm_num, by norm_num, by norm_num, hin⟩⟩
  · rw [show total [30, 30] 1 2 = 30 from rfl, List.map_cons, List.map_cons, List.map_nil, t12, t12]
    refine ⟨by norm_num [h4]; norm_num at h1; exact h1, ⟨by norm_num, by norm_num, by norm_num, by norm_num, hin⟩⟩

/-- Two channels, each of which is a group. -/
example := C154_rounded_grouping leftNearest exLog_ok [30, 30] [20, 20] [4, 4] exRatio (3 / 2) (by norm_num) (fun _ _ hij hj => (exGvTotals hij hj).2)
  (fun i j hij hj => by
    have := (exGvTotals hij hj).1
    rw [abs_of_pos (by linarith)]
    refine lt_of_lt_of_le ?_ (sub_le_sub_right this _)
    norm_num)
  (fun i hi => by
    have := (exGvTotals hi (le_refl _)).1
    rw [abs_of_pos (lt_of_lt_of_le two_pos this)]
    exact le_trans (by norm_num) this)

end Elisa.Grouping.Fl
