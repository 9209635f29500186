import Verif.Infer.FloatW
import Verif.Infer.FloatChiProps

/-!
# The W-statistic in floating point (C153)
-/

namespace Elisa.Infer.Fl

open Elisa Elisa.Infer Elisa.Grouping.Fl

/-! ## Relative errors -/

/-- `a` is `x` up to a relative error `e`. -/
def Rl (e a x : ℝ) : Prop := |a - x| ≤ e * x

theorem Rl.refl {e x : ℝ} (he : 0 ≤ e) (hx : 0 ≤ x) : Rl e x x := by
  unfold Rl
  rw [sub_self, abs_zero]
  exact mul_nonneg he hx

theorem Rl.mono {e f a x : ℝ} (h : Rl e a x) (hx : 0 ≤ x) (hf : e ≤ f) : Rl f a x := h.trans (mul_le_mul_of_nonneg_right hf hx)

theorem Rl.bounds {e a x : ℝ} (h : Rl e a x) : (1 - e) * x ≤ a ∧ a ≤ (1 + e) * x := by
  have := _root_.abs_le.1 h
  constructor <;> linarith [this.1, this.2]

theorem Rl.abs {e a x : ℝ} (h : Rl e a x) (hx : 0 ≤ x) : |a| ≤ (1 + e) * x := by
  have := abs_add_le (a - x) x
  rw [sub_add_cancel, abs_of_nonneg hx] at this
  unfold Rl at h
  linarith

theorem tiny_small {x : ℝ} (h1 : 2 ^ (-700 : ℤ) ≤ x) : tiny ≤ 1 / 8 * (2 ^ (-52 : ℤ) * x) := by
  have e : (1 / 8 : ℝ) * 2 ^ (-52 : ℤ) = 2 ^ (-55 : ℤ) := by norm_num
  rw [← mul_assoc, e]
  have : tiny ≤ (2 : ℝ) ^ (-55 + -700 : ℤ) := zpow_le (by norm_num)
  rw [zpow_add₀ (by norm_num)] at this
  exact this.trans (mul_le_mul_of_nonneg_left h1 (two_zpow_pos _).le)

theorem unit_half : unit = 1 / 2 * 2 ^ (-52 : ℤ) := by unfold unit; norm_num

theorem absstep {rnd} (h : Nearest rnd) {a L : ℝ} (ha : |a| ≤ L) (h1 : 2 ^ (-700 : ℤ) ≤ L) (h2 : L ≤ 2 ^ (700 : ℤ)) : |rnd a - a| ≤ 2 ^ (-52 : ℤ) * L := by
  have hL : 0 ≤ L := (two_zpow_pos _).le.trans h1
  have he := h.err' (ha.trans (h2.trans (zpow_le (by norm_num))))
  have ht := tiny_small h1
  have hu : unit * |a| ≤ unit * L := mul_le_mul_of_nonneg_left ha unit_pos.le
  rw [unit_half] at he hu
  have : 0 ≤ (2 : ℝ) ^ (-52 : ℤ) * L := mul_nonneg (two_zpow_pos _).le hL
  clear h1 h2
  generalize (2 : ℝ) ^ (-52 : ℤ) = z at *
  linarith

theorem Rl.rnd {rnd} (h : Nearest rnd) {e a x : ℝ} (hr : Rl e a x) (h1 : 2 ^ (-700 : ℤ) ≤ x) (h2 : x ≤ 2 ^ (700 : ℤ)) (he : e ≤ 1 / 4) : Rl (e + 2 ^ (-52 : ℤ)) (rnd a) x := by
  have hx : 0 ≤ x := (two_zpow_pos _).le.trans h1
  have hab : |a| ≤ 5 / 4 * x := (hr.abs hx).trans (mul_le_mul_of_nonneg_right (by linarith) hx)
  have hbig : |a| ≤ 2 ^ (1023 : ℤ) := by
    refine hab.trans ((mul_le_mul (by norm_num : (5 / 4 : ℝ) ≤ 2 ^ (1 : ℤ)) h2 hx (two_zpow_pos _).le).trans ?_)
    rw [← zpow_add₀ (by norm_num)]
    exact zpow_le (by norm_num)
  have he' := h.err' hbig
  have ht := tiny_small h1
  have hu : unit * |a| ≤ unit * (5 / 4 * x) := mul_le_mul_of_nonneg_left hab unit_pos.le
  rw [unit_half] at he' hu
  have h0 : 0 ≤ (2 : ℝ) ^ (-52 : ℤ) * x := mul_nonneg (two_zpow_pos _).le hx
  have h3 := abs_sub_le (rnd a) a x
  unfold Rl at hr ⊢
  generalize (2 : ℝ) ^ (-52 : ℤ) = z at *
  clear hbig h1 h2
  nlinarith

theorem Rl.mul {e f g a x b y : ℝ} (h1 : Rl e a x) (h2 : Rl f b y) (hx : 0 ≤ x) (hy : 0 ≤ y) (hg : e + f + e * f ≤ g) : Rl g (a * b) (x * y) := by
  have ha := h1.abs hx
  unfold Rl at *
  rw [show a * b - x * y = a * (b - y) + (a - x) * y by ring]
  refine (abs_add_le _ _).trans ?_
  rw [abs_mul, abs_mul, abs_of_nonneg hy]
  have k1 := mul_le_mul ha h2 (abs_nonneg _) ((abs_nonneg _).trans ha)
  have k2 := mul_le_mul_of_nonneg_right h1 hy
  have k3 := mul_le_mul_of_nonneg_right hg (mul_nonneg hx hy)
  nlinarith

theorem Rl.div {e f g a x b y : ℝ} (h1 : Rl e a x) (h2 : Rl f b y) (hx : 0 ≤ x) (hy : 0 < y) (he : 0 ≤ e) (hf0 : 0 ≤ f) (hf : f ≤ 1 / 8) (hg : (e + f) * (8 / 7) ≤ g) : Rl g (a / b) (x / y) := by
  have hb := h2.bounds.1
  have hb0 : 7 / 8 * y ≤ b := le_trans (mul_le_mul_of_nonneg_right (by linarith) hy.le) hb
  have hb1 : 0 < b := lt_of_lt_of_le (by linarith) hb0
  unfold Rl at *
  have e1 : a / b - x / y = ((a - x) * y - x * (b - y)) / (b * y) := by
    field_simp
    ring
  rw [e1, abs_div, abs_of_pos (mul_pos hb1 hy), div_le_iff₀ (mul_pos hb1 hy)]
  refine (abs_sub _ _).trans ?_
  rw [abs_mul, abs_mul, abs_of_pos hy, abs_of_nonneg hx]
  have k1 := mul_le_mul_of_nonneg_right h1 hy.le
  have k2 := mul_le_mul_of_nonneg_left h2 hx
  have e2 : g * (x / y) * (b * y) = g * x * b := by field_simp
  rw [e2]
  have k3 : (e + f) * (8 / 7) * x * (7 / 8 * y) ≤ g * x * b :=
    mul_le_mul (mul_le_mul_of_nonneg_right hg hx) hb0 (by linarith) (mul_nonneg (le_trans (by positivity) hg) hx)
  nlinarith

theorem Rl.sqrt {e q x : ℝ} (h : Rl e q x) (hx : 0 ≤ x) : Rl e (Real.sqrt q) (Real.sqrt x) := by
  unfold Rl at *
  rcases hx.eq_or_lt with rfl | hp
  · rw [sub_zero, mul_zero] at h
    have : q = 0 := abs_nonpos_iff.1 h
    simp [this]
  have hs := Real.sqrt_pos.2 hp
  have hq := Real.sqrt_nonneg q
  have hx2 := Real.mul_self_sqrt hp.le
  rcases le_total 0 q with h0 | h0
  · have hq2 := Real.mul_self_sqrt h0
    have e1 : |Real.sqrt q - Real.sqrt x| * (Real.sqrt q + Real.sqrt x) = |q - x| := by
      rw [← abs_of_nonneg (add_nonneg hq hs.le), ← abs_mul]
      congr 1
      nlinarith
    by_contra hc
    push Not at hc
    have e0 : 0 ≤ e := by
      by_contra hn
      have := (abs_nonneg _).trans h
      nlinarith
    have : e * Real.sqrt x * Real.sqrt x < |Real.sqrt q - Real.sqrt x| * (Real.sqrt q + Real.sqrt x) :=
      calc e * Real.sqrt x * Real.sqrt x < |Real.sqrt q - Real.sqrt x| * Real.sqrt x := mul_lt_mul_of_pos_right hc hs
        _ ≤ _ := mul_le_mul_of_nonneg_left (by linarith) (abs_nonneg _)
    nlinarith
  · rw [Real.sqrt_eq_zero_of_nonpos h0, zero_sub, abs_neg, abs_of_pos hs]
    have := (_root_.abs_le.1 h).1
    have : 1 ≤ e := by
      by_contra hn
      push Not at hn
      nlinarith
    nlinarith

/-! ## The profile background with counts in both regions -/

/-- The scale of the numbers in the closed form is at most `1 + y / p` times its numerator. -/
theorem numerator_ge {x y p : ℝ} (hy : 0 < y) (hp : 0 < p) (hpx : p ≤ x) : x + y ≤ (1 + y / p) * (x - y + Real.sqrt ((x - y) * (x - y) + 4 * p * y)) := by
  have hx : 0 < x := hp.trans_le hpx
  have h0 : 0 < 1 + y / p := by positivity
  have key : (x + y) / (1 + y / p) - (x - y) ≤ Real.sqrt ((x - y) * (x - y) + 4 * p * y) := by
    refine Real.le_sqrt_of_sq_le ?_
    have e : (x + y) / (1 + y / p) = p * (x + y) / (p + y) := by field_simp
    rw [e]
    have hpy : 0 < p + y := by positivity
    have e2 : p * (x + y) / (p + y) - (x - y) = (2 * p * y - x * y + y * y) / (p + y) := by field_simp; ring
    rw [e2, div_pow, div_le_iff₀ (by positivity)]
    have k1 : 0 ≤ y * x * x * p := by positivity
    have k2 : 0 ≤ (x - p) * (y * x * y) := mul_nonneg (by linarith) (by positivity)
    have k3 : 0 ≤ p * y * y * y := by positivity
    have k4 : 0 ≤ p * p * y * y := by positivity
    have k5 : 0 ≤ p * p * p * y := by positivity
    have k6 : 0 ≤ (x - p) * (p * y * y) := mul_nonneg (by linarith) (by positivity)
    nlinarith [sq_nonneg (x - y), sq_nonneg (x - p), mul_nonneg (mul_nonneg hp.le hp.le) (sq_nonneg (x - y)), mul_nonneg (mul_nonneg hp.le hy.le) (sq_nonneg (x - y))]
  have : (x + y) / (1 + y / p) ≤ x - y + Real.sqrt ((x - y) * (x - y) + 4 * p * y) := by linarith
  rw [div_le_iff₀ h0] at this
  linarith

/-- The square root is at most the scale and at least the difference. -/
theorem root_bounds {x y p : ℝ} (hy : 0 < y) (hp : 0 < p) (hpx : p ≤ x) :
    |x - y| ≤ Real.sqrt ((x - y) * (x - y) + 4 * p * y) ∧ Real.sqrt ((x - y) * (x - y) + 4 * p * y) ≤ x + y := by
  constructor
  · refine Real.le_sqrt_of_sq_le ?_
    rw [sq_abs]
    nlinarith [mul_pos hp hy]
  · rw [Real.sqrt_le_left (by linarith)]
    nlinarith [mul_nonneg (sub_nonneg.2 hpx) hy.le]

/-- The square root of a sum with a square does not move more than the root of the square. -/
theorem sqrt_shift {c c' t : ℝ} (ht : 0 ≤ t) : |Real.sqrt (c' * c' + t) - Real.sqrt (c * c + t)| ≤ |c' - c| := by
  have key : ∀ a b : ℝ, Real.sqrt (a * a + t) ≤ Real.sqrt (b * b + t) + |a - b| := by
    intro a b
    have hb := Real.sqrt_nonneg (b * b + t)
    have hbb := Real.mul_self_sqrt (add_nonneg (mul_self_nonneg b) ht)
    have hble : |b| ≤ Real.sqrt (b * b + t) := by
      refine Real.le_sqrt_of_sq_le ?_
      rw [sq_abs]
      nlinarith
    rw [Real.sqrt_le_left (add_nonneg hb (abs_nonneg _))]
    have h1 : b * (a - b) ≤ Real.sqrt (b * b + t) * |a - b| := by
      refine (le_abs_self _).trans ?_
      rw [abs_mul]
      exact mul_le_mul_of_nonneg_right hble (abs_nonneg _)
    have h2 : |a - b| * |a - b| = (a - b) * (a - b) := abs_mul_abs_self _
    nlinarith
  rw [_root_.abs_le]
  have k1 := key c' c
  have k2 := key c c'
  rw [abs_sub_comm c c'] at k2
  constructor <;> linarith

theorem prod_bounds {p q p' q' r r' : ℤ} {x y : ℝ} (hx : 2 ^ p ≤ x ∧ x ≤ 2 ^ q) (hy : 2 ^ p' ≤ y ∧ y ≤ 2 ^ q') (h1 : r ≤ p + p') (h2 : q + q' ≤ r') : 2 ^ r ≤ x * y ∧ x * y ≤ (2 : ℝ) ^ r' :=
  ⟨(zpow_le h1).trans (mul_in hx hy).1, (mul_in hx hy).2.trans (zpow_le h2)⟩

theorem wide {p q : ℤ} {x : ℝ} (hx : 2 ^ p ≤ x ∧ x ≤ (2 : ℝ) ^ q) (h1 : -700 ≤ p) (h2 : q ≤ 700) : 2 ^ (-700 : ℤ) ≤ x ∧ x ≤ (2 : ℝ) ^ (700 : ℤ) :=
  ⟨(zpow_le h1).trans hx.1, hx.2.trans (zpow_le h2)⟩

/-- The loss of accuracy in the closed form of the background, with counts `n` and `m` in both regions. -/
noncomputable def loss (s n m a : ℝ) : ℝ := if n = 0 ∨ m = 0 then 0 else (a + 1) * s / (a * m)

theorem wc_error {rnd} (h : Nearest rnd) {s s' a n m ε : ℝ} (hs : 2 ^ (-100 : ℤ) ≤ s ∧ s ≤ 2 ^ (50 : ℤ)) (ha : 2 ^ (-30 : ℤ) ≤ a ∧ a ≤ 2 ^ (30 : ℤ))
    (hN : 2 ^ (0 : ℤ) ≤ n + m ∧ n + m ≤ 2 ^ (54 : ℤ)) (hε0 : 0 ≤ ε) (hε : ε ≤ 1 / 20) (hss : Rl ε s' s) :
    |wc rnd s' n m a - (a * (n + m) - (a + 1) * s)| ≤ (ε + 4 * 2 ^ (-52 : ℤ)) * (a * (n + m) + (a + 1) * s) := by
  have hz := two_zpow_pos (-52)
  have hz1 : (2 : ℝ) ^ (-52 : ℤ) ≤ 1 / 1000 := by norm_num
  have hA : 2 ^ (0 : ℤ) ≤ a + 1 ∧ a + 1 ≤ (2 : ℝ) ^ (31 : ℤ) := by
    have := (two_zpow_pos (-30)).trans_le ha.1
    constructor
    · rw [zpow_zero]; linarith
    · refine (add_le_add ha.2 (le_refl _)).trans (by norm_num)
  have hx := prod_bounds (r := -30) (r' := 84) ha hN (by norm_num) (by norm_num)
  have hy := prod_bounds (r := -100) (r' := 81) hA hs (by norm_num) (by norm_num)
  have a0 : 0 ≤ a := (two_zpow_pos _).le.trans ha.1
  have A0 : 0 ≤ a + 1 := by linarith
  have N0 : 0 ≤ n + m := (two_zpow_pos _).le.trans hN.1
  have s0 : 0 ≤ s := (two_zpow_pos _).le.trans hs.1
  have r1 : Rl (0 + 2 ^ (-52 : ℤ)) (rnd (n + m)) (n + m) :=
    (Rl.refl (le_refl 0) N0).rnd h (wide hN (by norm_num) (by norm_num)).1 (wide hN (by norm_num) (by norm_num)).2 (by norm_num)
  have r2 : Rl (2 * 2 ^ (-52 : ℤ)) (rnd (a * rnd (n + m))) (a * (n + m)) := by
    refine ((((Rl.refl (le_refl 0) a0).mul r1 a0 N0 (g := 2 ^ (-52 : ℤ)) (by simp)).rnd h (wide hx (by norm_num) (by norm_num)).1 (wide hx (by norm_num) (by norm_num)).2
      (by linarith))).mono (mul_nonneg a0 N0) (by linarith)
  have r3 : Rl (2 ^ (-52 : ℤ)) (rnd (a + 1)) (a + 1) := by
    have := (Rl.refl (le_refl 0) A0).rnd h (wide hA (by norm_num) (by norm_num)).1 (wide hA (by norm_num) (by norm_num)).2 (by norm_num)
    rwa [zero_add] at this
  have r4 : Rl (ε + 3 * 2 ^ (-52 : ℤ)) (rnd (rnd (a + 1) * s')) ((a + 1) * s) := by
    refine ((r3.mul hss A0 s0 (g := ε + 2 * 2 ^ (-52 : ℤ)) (by nlinarith)).rnd h (wide hy (by norm_num) (by norm_num)).1 (wide hy (by norm_num) (by norm_num)).2
      (by linarith)).mono (mul_nonneg A0 s0) (by linarith)
  have x0 : 0 ≤ a * (n + m) := mul_nonneg a0 N0
  have y0 : 0 ≤ (a + 1) * s := mul_nonneg A0 s0
  have hM : 2 ^ (-700 : ℤ) ≤ a * (n + m) + (a + 1) * s ∧ a * (n + m) + (a + 1) * s ≤ (2 : ℝ) ^ (600 : ℤ) := by
    constructor
    · exact (wide hx (by norm_num) (by norm_num)).1.trans (by linarith)
    · refine (add_le_add hx.2 hy.2).trans (le_trans (b := (2 : ℝ) ^ (90 : ℤ)) (by norm_num) (zpow_le (by norm_num)))
  unfold wc
  generalize a * (n + m) = x at *
  generalize (a + 1) * s = y at *
  generalize rnd (a * rnd (n + m)) = x' at *
  generalize rnd (rnd (a + 1) * s') = y' at *
  have d1 : |x' - y' - (x - y)| ≤ (ε + 3 * 2 ^ (-52 : ℤ)) * (x + y) := by
    rw [show x' - y' - (x - y) = (x' - x) - (y' - y) by ring]
    refine (abs_sub _ _).trans ((add_le_add r2 r4).trans ?_)
    have : 0 ≤ (ε + 2 ^ (-52 : ℤ)) * x := mul_nonneg (by linarith) x0
    clear hx hy hM
    generalize (2 : ℝ) ^ (-52 : ℤ) = z at *
    nlinarith
  have d2 : |x' - y'| ≤ 5 / 4 * (x + y) := by
    have k := abs_add_le (x' - y' - (x - y)) (x - y)
    rw [sub_add_cancel] at k
    have k2 : |x - y| ≤ x + y := (abs_sub _ _).trans (by rw [abs_of_nonneg x0, abs_of_nonneg y0])
    have k3 : (ε + 3 * 2 ^ (-52 : ℤ)) * (x + y) ≤ 1 / 4 * (x + y) := mul_le_mul_of_nonneg_right (by linarith) (by linarith)
    clear hx hy hM r1 hs ha hN hA
    generalize (2 : ℝ) ^ (-52 : ℤ) = z at *
    linarith
  have hM1 : 2 ^ (-700 : ℤ) ≤ x + y := hM.1
  have d3 : |rnd (x' - y') - (x' - y')| ≤ 2 ^ (-52 : ℤ) * (x + y) := by
    have hb : |x' - y'| ≤ 2 ^ (1023 : ℤ) := by
      refine d2.trans ((mul_le_mul (by norm_num : (5 / 4 : ℝ) ≤ 2 ^ (1 : ℤ)) hM.2 (by linarith) (two_zpow_pos _).le).trans ?_)
      rw [← zpow_add₀ (by norm_num)]
      exact zpow_le (by norm_num)
    have he := h.err' hb
    have ht := tiny_small hM1
    have hu : unit * |x' - y'| ≤ unit * (5 / 4 * (x + y)) := mul_le_mul_of_nonneg_left d2 unit_pos.le
    rw [unit_half] at he hu
    have : 0 ≤ (2 : ℝ) ^ (-52 : ℤ) * (x + y) := mul_nonneg hz.le (by linarith)
    clear hx hy hM hM1 hb
    generalize (2 : ℝ) ^ (-52 : ℤ) = z at *
    linarith
  have d4 := abs_sub_le (rnd (x' - y')) (x' - y') (x - y)
  refine d4.trans ((add_le_add d3 d1).trans (le_of_eq ?_))
  ring

theorem wt_error {rnd} (h : Nearest rnd) {s s' a m ε : ℝ} (hs : 2 ^ (-100 : ℤ) ≤ s ∧ s ≤ 2 ^ (50 : ℤ)) (ha : 2 ^ (-30 : ℤ) ≤ a ∧ a ≤ 2 ^ (30 : ℤ))
    (hm : 2 ^ (0 : ℤ) ≤ m ∧ m ≤ 2 ^ (53 : ℤ)) (hε0 : 0 ≤ ε) (hε : ε ≤ 1 / 20) (hss : Rl ε s' s) :
    Rl (ε + 7 * 2 ^ (-52 : ℤ)) (wt rnd s' m a) (4 * (a * m) * ((a + 1) * s)) ∧ 2 ^ (-200 : ℤ) ≤ 4 * (a * m) * ((a + 1) * s) ∧ 4 * (a * m) * ((a + 1) * s) ≤ 2 ^ (200 : ℤ) := by
  have hz := two_zpow_pos (-52)
  have hz1 : (2 : ℝ) ^ (-52 : ℤ) ≤ 1 / 1000 := by norm_num
  have hA : 2 ^ (0 : ℤ) ≤ a + 1 ∧ a + 1 ≤ (2 : ℝ) ^ (31 : ℤ) := by
    have := (two_zpow_pos (-30)).trans_le ha.1
    constructor
    · rw [zpow_zero]; linarith
    · refine (add_le_add ha.2 (le_refl _)).trans (by norm_num)
  have a0 : 0 ≤ a := (two_zpow_pos _).le.trans ha.1
  have A0 : 0 ≤ a + 1 := by linarith
  have m0 : 0 ≤ m := (two_zpow_pos _).le.trans hm.1
  have s0 : 0 ≤ s := (two_zpow_pos _).le.trans hs.1
  have h4 : 2 ^ (2 : ℤ) ≤ (4 : ℝ) ∧ (4 : ℝ) ≤ 2 ^ (2 : ℤ) := by norm_num
  have b1 := prod_bounds (r := -28) (r' := 32) h4 ha (by norm_num) (by norm_num)
  have b2 := prod_bounds (r := -28) (r' := 63) b1 hA (by norm_num) (by norm_num)
  have b3 := prod_bounds (r := -28) (r' := 116) b2 hm (by norm_num) (by norm_num)
  have b4 := prod_bounds (r := -128) (r' := 166) b3 hs (by norm_num) (by norm_num)
  have r1 : Rl (2 ^ (-52 : ℤ)) (rnd (4 * a)) (4 * a) := by
    have := (Rl.refl (le_refl 0) (by linarith : 0 ≤ 4 * a)).rnd h (wide b1 (by norm_num) (by norm_num)).1 (wide b1 (by norm_num) (by norm_num)).2 (by norm_num)
    rwa [zero_add] at this
  have r3 : Rl (2 ^ (-52 : ℤ)) (rnd (a + 1)) (a + 1) := by
    have := (Rl.refl (le_refl 0) A0).rnd h (wide hA (by norm_num) (by norm_num)).1 (wide hA (by norm_num) (by norm_num)).2 (by norm_num)
    rwa [zero_add] at this
  have r4 : Rl (4 * 2 ^ (-52 : ℤ)) (rnd (rnd (4 * a) * rnd (a + 1))) (4 * a * (a + 1)) :=
    ((r1.mul r3 (by linarith) A0 (g := 3 * 2 ^ (-52 : ℤ)) (by norm_num)).rnd h (wide b2 (by norm_num) (by norm_num)).1 (wide b2 (by norm_num) (by norm_num)).2 (by linarith)).mono
      (by positivity) (by linarith)
  have r5 : Rl (5 * 2 ^ (-52 : ℤ)) (rnd (rnd (rnd (4 * a) * rnd (a + 1)) * m)) (4 * a * (a + 1) * m) :=
    ((r4.mul (Rl.refl (le_refl 0) m0) (by positivity) m0 (g := 4 * 2 ^ (-52 : ℤ)) (by linarith)).rnd h (wide b3 (by norm_num) (by norm_num)).1 (wide b3 (by norm_num) (by norm_num)).2
      (by linarith)).mono (by positivity) (by linarith)
  have r6 : Rl (ε + 7 * 2 ^ (-52 : ℤ)) (wt rnd s' m a) (4 * a * (a + 1) * m * s) :=
    ((r5.mul hss (by positivity) s0 (g := ε + 6 * 2 ^ (-52 : ℤ)) (by nlinarith)).rnd h (wide b4 (by norm_num) (by norm_num)).1 (wide b4 (by norm_num) (by norm_num)).2
      (by linarith)).mono (by positivity) (by linarith)
  rw [show 4 * (a * m) * ((a + 1) * s) = 4 * a * (a + 1) * m * s by ring]
  exact ⟨r6, (zpow_le (by norm_num)).trans b4.1, b4.2.trans (zpow_le (by norm_num))⟩

/-- The numerator of the closed form. -/
theorem numerator_error {rnd} (h : Nearest rnd) {x y p c t ε : ℝ} (hy : 0 < y) (hp : 0 < p) (hpx : p ≤ x) (hε0 : 0 ≤ ε) (hε : ε ≤ 1 / 20)
    (hc : |c - (x - y)| ≤ (ε + 4 * 2 ^ (-52 : ℤ)) * (x + y)) (ht : Rl (ε + 7 * 2 ^ (-52 : ℤ)) t (4 * p * y)) (ht1 : 2 ^ (-200 : ℤ) ≤ 4 * p * y)
    (hM : 2 ^ (-200 : ℤ) ≤ x + y) (hM2 : x + y ≤ 2 ^ (200 : ℤ)) :
    Rl ((4 * ε + 23 * 2 ^ (-52 : ℤ)) * (1 + y / p)) (rnd (c + root rnd c t)) (x - y + Real.sqrt ((x - y) * (x - y) + 4 * p * y)) := by
  have hz := two_zpow_pos (-52)
  have hz1 : (2 : ℝ) ^ (-52 : ℤ) ≤ 1 / 1000 := by norm_num
  have hk : 4 * ε + 21 * 2 ^ (-52 : ℤ) ≤ 1 := by
    clear hM hM2 ht1 hc ht
    generalize (2 : ℝ) ^ (-52 : ℤ) = z at *
    linarith
  have hx : 0 < x := hp.trans_le hpx
  have hMp : 0 < x + y := by linarith
  have hT : 0 ≤ 4 * p * y := by positivity
  have hnum := numerator_ge hy hp hpx
  obtain ⟨hd1, hd2⟩ := root_bounds hy hp hpx
  have hsh := sqrt_shift (c := x - y) (c' := c) hT
  have hTM : 4 * p * y ≤ (x + y) * (x + y) := by
    have := mul_nonneg (sub_nonneg.2 hpx) hy.le
    nlinarith [sq_nonneg (x - y)]
  have hcM : |c| ≤ 5 / 4 * (x + y) := by
    have k := abs_add_le (c - (x - y)) (x - y)
    rw [sub_add_cancel] at k
    have k2 : |x - y| ≤ x + y := hd1.trans hd2
    have k3 : (ε + 4 * 2 ^ (-52 : ℤ)) * (x + y) ≤ 1 / 4 * (x + y) := mul_le_mul_of_nonneg_right (by linarith) hMp.le
    clear hM hM2 ht1 ht
    generalize (2 : ℝ) ^ (-52 : ℤ) = z at *
    linarith
  -- the square root
  have hc2 : c * c ≤ 2 * ((x + y) * (x + y)) := by
    have := mul_le_mul hcM hcM (abs_nonneg _) (by linarith)
    rw [abs_mul_abs_self] at this
    nlinarith [mul_pos hMp hMp]
  have hMM : (x + y) * (x + y) ≤ 2 ^ (400 : ℤ) := by
    have := mul_le_mul hM2 hM2 hMp.le (two_zpow_pos _).le
    rw [← zpow_add₀ (by norm_num)] at this
    exact this.trans (zpow_le (by norm_num))
  have hq2 : c * c + 4 * p * y ≤ 2 ^ (450 : ℤ) := by
    have e : (2 : ℝ) ^ (450 : ℤ) = 2 ^ (50 : ℤ) * 2 ^ (400 : ℤ) := by rw [← zpow_add₀ (by norm_num)]; norm_num
    rw [e]
    have h3 : c * c + 4 * p * y ≤ 3 * ((x + y) * (x + y)) := by linarith
    refine h3.trans (mul_le_mul (by norm_num) hMM (by positivity) (two_zpow_pos _).le)
  have hq1 : 2 ^ (-200 : ℤ) ≤ c * c + 4 * p * y := ht1.trans (by nlinarith [mul_self_nonneg c])
  have hcc : |rnd (c * c) - c * c| ≤ 2 ^ (-52 : ℤ) * (c * c + 4 * p * y) := by
    refine absstep h ?_ ((zpow_le (by norm_num)).trans hq1) (hq2.trans (zpow_le (by norm_num)))
    rw [abs_of_nonneg (mul_self_nonneg c)]
    linarith
  have r1 : Rl (ε + 8 * 2 ^ (-52 : ℤ)) (rnd (c * c) + t) (c * c + 4 * p * y) := by
    unfold Rl at *
    rw [show rnd (c * c) + t - (c * c + 4 * p * y) = (rnd (c * c) - c * c) + (t - 4 * p * y) by ring]
    refine (abs_add_le _ _).trans ((add_le_add hcc ht).trans ?_)
    have := mul_nonneg (by linarith : 0 ≤ ε + 7 * 2 ^ (-52 : ℤ)) (mul_self_nonneg c)
    clear hM hM2 ht1 hMM hq1 hq2 hz1
    generalize (2 : ℝ) ^ (-52 : ℤ) = z at *
    linarith
  have r2 := (r1.rnd h ((zpow_le (by norm_num)).trans hq1) (hq2.trans (zpow_le (by norm_num))) (by linarith)).sqrt (le_trans (two_zpow_pos _).le hq1)
  have hD0 : 2 ^ (-700 : ℤ) ≤ Real.sqrt (c * c + 4 * p * y) := by
    refine Real.le_sqrt_of_sq_le (le_trans ?_ hq1)
    rw [pow_two, ← zpow_add₀ (by norm_num)]
    exact zpow_le (by norm_num)
  have hD1 : Real.sqrt (c * c + 4 * p * y) ≤ 2 ^ (700 : ℤ) := by
    rw [Real.sqrt_le_left (two_zpow_pos _).le, pow_two, ← zpow_add₀ (by norm_num)]
    exact hq2.trans (zpow_le (by norm_num))
  have r3 : Rl (ε + 10 * 2 ^ (-52 : ℤ)) (root rnd c t) (Real.sqrt (c * c + 4 * p * y)) :=
    (r2.rnd h hD0 hD1 (by linarith)).mono (Real.sqrt_nonneg _) (by linarith)
  have hDM : Real.sqrt (c * c + 4 * p * y) ≤ 5 / 4 * (x + y) := by
    have k := (_root_.abs_le.1 (hsh.trans hc)).2
    have k3 : (ε + 4 * 2 ^ (-52 : ℤ)) * (x + y) ≤ 1 / 4 * (x + y) := mul_le_mul_of_nonneg_right (by linarith) hMp.le
    clear hM hM2 ht1 hMM hq1 hq2 hz1 hD0 hD1
    generalize (2 : ℝ) ^ (-52 : ℤ) = z at *
    linarith
  have hd : |root rnd c t - Real.sqrt ((x - y) * (x - y) + 4 * p * y)| ≤ (3 * ε + 17 * 2 ^ (-52 : ℤ)) * (x + y) := by
    have k := abs_sub_le (root rnd c t) (Real.sqrt (c * c + 4 * p * y)) (Real.sqrt ((x - y) * (x - y) + 4 * p * y))
    have k2 := hsh.trans hc
    have k3 : (ε + 10 * 2 ^ (-52 : ℤ)) * Real.sqrt (c * c + 4 * p * y) ≤ (ε + 10 * 2 ^ (-52 : ℤ)) * (5 / 4 * (x + y)) := mul_le_mul_of_nonneg_left hDM (by linarith)
    unfold Rl at r3
    have k4 := mul_nonneg hε0 hMp.le
    have k5 := mul_nonneg hz.le hMp.le
    clear hM hM2 ht1 hMM hq1 hq2 hz1 hD0 hD1
    generalize (2 : ℝ) ^ (-52 : ℤ) = z at *
    nlinarith
  -- the sum
  have hs : |c + root rnd c t - (x - y + Real.sqrt ((x - y) * (x - y) + 4 * p * y))| ≤ (4 * ε + 21 * 2 ^ (-52 : ℤ)) * (x + y) := by
    rw [show c + root rnd c t - (x - y + Real.sqrt ((x - y) * (x - y) + 4 * p * y)) = (c - (x - y)) + (root rnd c t - Real.sqrt ((x - y) * (x - y) + 4 * p * y)) by ring]
    refine (abs_add_le _ _).trans ((add_le_add hc hd).trans (le_of_eq ?_))
    ring
  have hs2 : |c + root rnd c t| ≤ 3 * (x + y) := by
    have k := abs_add_le (c + root rnd c t - (x - y + Real.sqrt ((x - y) * (x - y) + 4 * p * y))) (x - y + Real.sqrt ((x - y) * (x - y) + 4 * p * y))
    rw [sub_add_cancel] at k
    have k2 := abs_add_le (x - y) (Real.sqrt ((x - y) * (x - y) + 4 * p * y))
    rw [abs_of_nonneg (Real.sqrt_nonneg _)] at k2
    have k3 : (4 * ε + 21 * 2 ^ (-52 : ℤ)) * (x + y) ≤ 1 * (x + y) := mul_le_mul_of_nonneg_right hk hMp.le
    clear hM hM2 ht1 hMM hq1 hq2 hz1 hD0 hD1
    generalize (2 : ℝ) ^ (-52 : ℤ) = z at *
    linarith
  have hs3 : |rnd (c + root rnd c t) - (c + root rnd c t)| ≤ 2 * 2 ^ (-52 : ℤ) * (x + y) := by
    have hb : |c + root rnd c t| ≤ 2 ^ (1023 : ℤ) := by
      refine hs2.trans ((mul_le_mul (by norm_num : (3 : ℝ) ≤ 2 ^ (2 : ℤ)) hM2 hMp.le (two_zpow_pos _).le).trans ?_)
      rw [← zpow_add₀ (by norm_num)]
      exact zpow_le (by norm_num)
    have he := h.err' hb
    have htn := tiny_small ((zpow_le (by norm_num)).trans hM)
    have hu : unit * |c + root rnd c t| ≤ unit * (3 * (x + y)) := mul_le_mul_of_nonneg_left hs2 unit_pos.le
    rw [unit_half] at he hu
    have : 0 ≤ (2 : ℝ) ^ (-52 : ℤ) * (x + y) := mul_nonneg hz.le hMp.le
    clear hM hM2 ht1 hMM hq1 hq2 hz1 hD0 hD1 hb
    generalize (2 : ℝ) ^ (-52 : ℤ) = z at *
    linarith
  have hfin := abs_sub_le (rnd (c + root rnd c t)) (c + root rnd c t) (x - y + Real.sqrt ((x - y) * (x - y) + 4 * p * y))
  unfold Rl
  refine hfin.trans ((add_le_add hs3 hs).trans ?_)
  rw [show 2 * 2 ^ (-52 : ℤ) * (x + y) + (4 * ε + 21 * 2 ^ (-52 : ℤ)) * (x + y) = (4 * ε + 23 * 2 ^ (-52 : ℤ)) * (x + y) by ring, mul_assoc]
  exact mul_le_mul_of_nonneg_left hnum (by linarith)

/-- The exact background between its bounds. -/
theorem background_bounds {s n m a : ℝ} (hs : 0 < s) (ha : 0 < a) (hn : 0 < n) (hm : 0 < m) :
    (n + m) / (2 * (a + 1) * (1 + (a + 1) * s / (a * m))) ≤ wstatBackground s n m a ∧ wstatBackground s n m a ≤ (n + m) / (a + 1) ∧
    wstatBackground s n m a = (a * (n + m) - (a + 1) * s + Real.sqrt ((a * (n + m) - (a + 1) * s) * (a * (n + m) - (a + 1) * s) + 4 * (a * m) * ((a + 1) * s))) / (2 * a * (a + 1)) := by
  have hp : 0 < a * m := mul_pos ha hm
  have hy : 0 < (a + 1) * s := by positivity
  have hpx : a * m ≤ a * (n + m) := mul_le_mul_of_nonneg_left (by linarith) ha.le
  have hnum := numerator_ge hy hp hpx
  have heq : wstatBackground s n m a = (a * (n + m) - (a + 1) * s + Real.sqrt ((a * (n + m) - (a + 1) * s) * (a * (n + m) - (a + 1) * s) + 4 * (a * m) * ((a + 1) * s))) / (2 * a * (a + 1)) := by
    simp only [wstatBackground, if_neg hn.ne', if_neg hm.ne']
    rw [show 4 * a * (a + 1) * m * s = 4 * (a * m) * ((a + 1) * s) by ring]
  refine ⟨?_, ?_, heq⟩
  · rw [heq, div_le_div_iff₀ (by positivity) (by positivity)]
    have : a * (n + m) ≤ (1 + (a + 1) * s / (a * m)) * (a * (n + m) - (a + 1) * s + Real.sqrt ((a * (n + m) - (a + 1) * s) * (a * (n + m) - (a + 1) * s) + 4 * (a * m) * ((a + 1) * s))) := by
      linarith
    have := mul_le_mul_of_nonneg_left this (by positivity : 0 ≤ 2 * (a + 1))
    linarith
  · rw [heq, div_le_div_iff₀ (by positivity) (by positivity)]
    have hle : Real.sqrt ((a * (n + m) - (a + 1) * s) * (a * (n + m) - (a + 1) * s) + 4 * (a * m) * ((a + 1) * s)) ≤ a * (n + m) + (a + 1) * s := (root_bounds hy hp hpx).2
    have : a * (n + m) - (a + 1) * s + Real.sqrt ((a * (n + m) - (a + 1) * s) * (a * (n + m) - (a + 1) * s) + 4 * (a * m) * ((a + 1) * s)) ≤ 2 * (a * (n + m)) := by linarith
    have := mul_le_mul_of_nonneg_right this (by positivity : 0 ≤ a + 1)
    linarith

theorem wback_error {rnd} (h : Nearest rnd) {s s' a ε : ℝ} {n m : ℕ} (hs : 2 ^ (-100 : ℤ) ≤ s ∧ s ≤ 2 ^ (50 : ℤ)) (ha : 2 ^ (-30 : ℤ) ≤ a ∧ a ≤ 2 ^ (30 : ℤ))
    (hn0 : 0 < n) (hm0 : 0 < m) (hn : n ≤ 2 ^ 53) (hm : m ≤ 2 ^ 53) (hε0 : 0 ≤ ε) (hss : Rl ε s' s)
    (hloss : (5 * ε + 32 * 2 ^ (-52 : ℤ)) * (1 + (a + 1) * s / (a * m)) ≤ 1 / 4) :
    Rl ((5 * ε + 32 * 2 ^ (-52 : ℤ)) * (1 + (a + 1) * s / (a * m))) (wback rnd s' n m a) (wstatBackground s n m a) := by
  have hz := two_zpow_pos (-52)
  have hz1 : (2 : ℝ) ^ (-52 : ℤ) ≤ 1 / 1000 := by norm_num
  have hnr := nat_in hn0 hn
  have hmr := nat_in hm0 hm
  have hNr : 2 ^ (0 : ℤ) ≤ (n : ℝ) + m ∧ (n : ℝ) + m ≤ 2 ^ (54 : ℤ) := by
    constructor
    · exact hnr.1.trans (by linarith [Nat.cast_nonneg (α := ℝ) m])
    · exact (add_le_add hnr.2 hmr.2).trans (by norm_num)
  have a0 : 0 < a := (two_zpow_pos _).trans_le ha.1
  have s0 : 0 < s := (two_zpow_pos _).trans_le hs.1
  have n0 : (0 : ℝ) < n := (two_zpow_pos _).trans_le hnr.1
  have m0 : (0 : ℝ) < m := (two_zpow_pos _).trans_le hmr.1
  have hκ : 0 ≤ (a + 1) * s / (a * m) := by positivity
  have hε : ε ≤ 1 / 20 := by nlinarith
  obtain ⟨hb1, hb2, hb3⟩ := background_bounds s0 a0 n0 m0
  have hp : 0 < a * (m : ℝ) := mul_pos a0 m0
  have hy : 0 < (a + 1) * s := by positivity
  have hpx : a * (m : ℝ) ≤ a * ((n : ℝ) + m) := mul_le_mul_of_nonneg_left (by linarith) a0.le
  have hA : 2 ^ (0 : ℤ) ≤ a + 1 ∧ a + 1 ≤ (2 : ℝ) ^ (31 : ℤ) := by
    constructor
    · rw [zpow_zero]; linarith
    · refine (add_le_add ha.2 (le_refl _)).trans (by norm_num)
  have bx := prod_bounds (r := -30) (r' := 84) ha hNr (by norm_num) (by norm_num)
  have by' := prod_bounds (r := -100) (r' := 81) hA hs (by norm_num) (by norm_num)
  have hcE := wc_error h hs ha hNr hε0 hε hss
  obtain ⟨htE, ht1, -⟩ := wt_error h hs ha hmr hε0 hε hss
  have hnE := numerator_error h hy hp hpx hε0 hε hcE htE ht1
    (((zpow_le (by norm_num)).trans bx.1).trans (by linarith))
    ((add_le_add bx.2 by'.2).trans (le_trans (b := (2 : ℝ) ^ (90 : ℤ)) (by norm_num) (zpow_le (by norm_num))))
  -- the denominator
  have h2 : 2 ^ (1 : ℤ) ≤ (2 : ℝ) ∧ (2 : ℝ) ≤ 2 ^ (1 : ℤ) := by norm_num
  have b1 := prod_bounds (r := -29) (r' := 31) h2 ha (by norm_num) (by norm_num)
  have b2 := prod_bounds (r := -29) (r' := 62) b1 hA (by norm_num) (by norm_num)
  have r1 : Rl (2 ^ (-52 : ℤ)) (rnd (2 * a)) (2 * a) := by
    have := (Rl.refl (le_refl 0) (by linarith : 0 ≤ 2 * a)).rnd h (wide b1 (by norm_num) (by norm_num)).1 (wide b1 (by norm_num) (by norm_num)).2 (by norm_num)
    rwa [zero_add] at this
  have r3 : Rl (2 ^ (-52 : ℤ)) (rnd (a + 1)) (a + 1) := by
    have := (Rl.refl (le_refl 0) (by linarith : 0 ≤ a + 1)).rnd h (wide hA (by norm_num) (by norm_num)).1 (wide hA (by norm_num) (by norm_num)).2 (by norm_num)
    rwa [zero_add] at this
  have r4 : Rl (4 * 2 ^ (-52 : ℤ)) (rnd (rnd (2 * a) * rnd (a + 1))) (2 * a * (a + 1)) :=
    ((r1.mul r3 (by linarith) (by linarith) (g := 3 * 2 ^ (-52 : ℤ)) (by norm_num)).rnd h (wide b2 (by norm_num) (by norm_num)).1 (wide b2 (by norm_num) (by norm_num)).2 (by linarith)).mono
      (by positivity) (by linarith)
  have hval : wback rnd s' n m a = rnd (rnd (wc rnd s' n m a + root rnd (wc rnd s' n m a) (wt rnd s' m a)) / rnd (rnd (2 * a) * rnd (a + 1))) := by
    simp only [wback, if_neg n0.ne', if_neg m0.ne']
  have hnum0 : 0 ≤ a * ((n : ℝ) + m) - (a + 1) * s + Real.sqrt ((a * ((n : ℝ) + m) - (a + 1) * s) * (a * ((n : ℝ) + m) - (a + 1) * s) + 4 * (a * m) * ((a + 1) * s)) := by
    have := (root_bounds hy hp hpx).1
    have := neg_abs_le (a * ((n : ℝ) + m) - (a + 1) * s)
    linarith
  have hb0 : 2 ^ (-700 : ℤ) ≤ wstatBackground s n m a := by
    refine le_trans ?_ hb1
    have hk : 1 + (a + 1) * s / (a * m) ≤ 2 ^ (50 : ℤ) := by
      by_contra hc
      push Not at hc
      have : (1 : ℝ) / 4 < (5 * ε + 32 * 2 ^ (-52 : ℤ)) * (1 + (a + 1) * s / (a * m)) := by
        have e : (1 : ℝ) / 4 < 32 * 2 ^ (-52 : ℤ) * 2 ^ (50 : ℤ) := by norm_num
        refine e.trans_le (mul_le_mul (by linarith) hc.le (two_zpow_pos _).le (by linarith))
      linarith
    rw [le_div_iff₀ (by positivity)]
    have e2 : 2 * (a + 1) * (1 + (a + 1) * s / (a * m)) ≤ 2 ^ (1 : ℤ) * 2 ^ (31 : ℤ) * 2 ^ (50 : ℤ) :=
      mul_le_mul (mul_le_mul h2.2 hA.2 (by linarith) (two_zpow_pos _).le) hk (by linarith) (by positivity)
    refine (mul_le_mul_of_nonneg_left e2 (two_zpow_pos _).le).trans (le_trans ?_ hNr.1)
    rw [← zpow_add₀ (by norm_num), ← zpow_add₀ (by norm_num), ← zpow_add₀ (by norm_num)]
    exact zpow_le (by norm_num)
  have hb700 : wstatBackground s n m a ≤ 2 ^ (700 : ℤ) := by
    refine hb2.trans ((div_le_self (by linarith) (by linarith)).trans (hNr.2.trans (zpow_le (by norm_num))))
  rw [hval]
  rw [hb3] at hb0 hb700 ⊢
  have hk1 : (1 : ℝ) ≤ 1 + (a + 1) * s / (a * m) := by linarith
  have hq := hnE.div r4 hnum0 (by positivity) (by positivity) (by linarith) (by linarith) (g := (5 * ε + 31 * 2 ^ (-52 : ℤ)) * (1 + (a + 1) * s / (a * m))) (by
    clear hs ha hnr hmr hNr hA bx by' b1 b2 hb0 hb700 ht1
    generalize (a + 1) * s / (a * m) = κ at *
    generalize (2 : ℝ) ^ (-52 : ℤ) = z at *
    nlinarith [mul_nonneg hε0 hκ, mul_nonneg hz.le hκ])
  refine (hq.rnd h hb0 hb700 ?_).mono (le_trans (two_zpow_pos _).le hb0) ?_
  · refine le_trans (mul_le_mul_of_nonneg_right (by linarith) (by linarith)) hloss
  · clear hs ha hnr hmr hNr hA bx by' b1 b2 hb0 hb700 ht1
    generalize (a + 1) * s / (a * m) = κ at *
    generalize (2 : ℝ) ^ (-52 : ℤ) = z at *
    nlinarith [mul_nonneg hε0 hκ, mul_nonneg hz.le hκ]

/-! ## The profile background without counts in one of the regions -/

theorem absstep' {rnd} (h : Nearest rnd) {a L : ℝ} (ha : |a| ≤ 5 / 4 * L) (h1 : 2 ^ (-700 : ℤ) ≤ L) (h2 : L ≤ 2 ^ (700 : ℤ)) : |rnd a - a| ≤ 2 ^ (-52 : ℤ) * L := by
  have hL : 0 ≤ L := (two_zpow_pos _).le.trans h1
  have hbig : |a| ≤ 2 ^ (1023 : ℤ) := by
    refine ha.trans ((mul_le_mul (by norm_num : (5 / 4 : ℝ) ≤ 2 ^ (1 : ℤ)) h2 hL (two_zpow_pos _).le).trans ?_)
    rw [← zpow_add₀ (by norm_num)]
    exact zpow_le (by norm_num)
  have he := h.err' hbig
  have ht := tiny_small h1
  have hu : unit * |a| ≤ unit * (5 / 4 * L) := mul_le_mul_of_nonneg_left ha unit_pos.le
  rw [unit_half] at he hu
  have : 0 ≤ (2 : ℝ) ^ (-52 : ℤ) * L := mul_nonneg (two_zpow_pos _).le hL
  clear h1 h2 hbig
  generalize (2 : ℝ) ^ (-52 : ℤ) = z at *
  linarith

theorem wback_empty {rnd} (h : Nearest rnd) {s' a : ℝ} {m : ℕ} (ha : 2 ^ (-30 : ℤ) ≤ a ∧ a ≤ 2 ^ (30 : ℤ)) (hm0 : 0 < m) (hm : m ≤ 2 ^ 53) :
    Rl (3 * 2 ^ (-52 : ℤ)) (wback rnd s' (0 : ℕ) m a) (m / (1 + a)) := by
  have hz1 : (2 : ℝ) ^ (-52 : ℤ) ≤ 1 / 1000 := by norm_num
  have hz := two_zpow_pos (-52)
  have hmr := nat_in hm0 hm
  have a0 : 0 < a := (two_zpow_pos _).trans_le ha.1
  have hA : 2 ^ (0 : ℤ) ≤ 1 + a ∧ 1 + a ≤ (2 : ℝ) ^ (31 : ℤ) := by
    constructor
    · rw [zpow_zero]; linarith
    · refine (add_le_add (le_refl _) ha.2).trans (by norm_num)
  have r3 : Rl (2 ^ (-52 : ℤ)) (rnd (1 + a)) (1 + a) := by
    have := (Rl.refl (le_refl 0) (by linarith : 0 ≤ 1 + a)).rnd h (wide hA (by norm_num) (by norm_num)).1 (wide hA (by norm_num) (by norm_num)).2 (by norm_num)
    rwa [zero_add] at this
  have hd := div_in hmr hA
  have hval : wback rnd s' (0 : ℕ) m a = rnd (m / rnd (1 + a)) := by simp only [wback, Nat.cast_zero, if_true]
  rw [hval]
  have hm1 : (0 : ℝ) ≤ m := Nat.cast_nonneg m
  have := ((Rl.refl (le_refl 0) hm1).div r3 hm1 (by linarith) (le_refl 0) hz.le (by linarith) (g := 2 * 2 ^ (-52 : ℤ)) (by
      generalize (2 : ℝ) ^ (-52 : ℤ) = z at *
      linarith)).rnd h
    (wide hd (by norm_num) (by norm_num)).1 (wide hd (by norm_num) (by norm_num)).2 (by
      generalize (2 : ℝ) ^ (-52 : ℤ) = z at *
      linarith)
  exact this.mono (by positivity) (by linarith)

theorem wback_alone {rnd} (h : Nearest rnd) {s s' a ε : ℝ} {n : ℕ} (hs : 2 ^ (-100 : ℤ) ≤ s ∧ s ≤ 2 ^ (50 : ℤ)) (ha : 2 ^ (-30 : ℤ) ≤ a ∧ a ≤ 2 ^ (30 : ℤ))
    (hn0 : 0 < n) (hn : n ≤ 2 ^ 53) (hε0 : 0 ≤ ε) (hε : ε ≤ 1 / 40) (hss : Rl ε s' s) :
    |wback rnd s' n (0 : ℕ) a - max (n / (1 + a) - s / a) 0| ≤ (4 * ε + 14 * 2 ^ (-52 : ℤ)) * (n / (1 + a)) := by
  have hz1 : (2 : ℝ) ^ (-52 : ℤ) ≤ 1 / 1000 := by norm_num
  have hz := two_zpow_pos (-52)
  have hnr := nat_in hn0 hn
  have a0 : 0 < a := (two_zpow_pos _).trans_le ha.1
  have s0 : 0 < s := (two_zpow_pos _).trans_le hs.1
  have n0 : (0 : ℝ) < n := (two_zpow_pos _).trans_le hnr.1
  have hA : 2 ^ (0 : ℤ) ≤ 1 + a ∧ 1 + a ≤ (2 : ℝ) ^ (31 : ℤ) := by
    constructor
    · rw [zpow_zero]; linarith
    · refine (add_le_add (le_refl _) ha.2).trans (by norm_num)
  have r3 : Rl (2 ^ (-52 : ℤ)) (rnd (1 + a)) (1 + a) := by
    have := (Rl.refl (le_refl 0) (by linarith : 0 ≤ 1 + a)).rnd h (wide hA (by norm_num) (by norm_num)).1 (wide hA (by norm_num) (by norm_num)).2 (by norm_num)
    rwa [zero_add] at this
  have r3' : Rl (2 ^ (-52 : ℤ)) (rnd (a + 1)) (1 + a) := by rw [add_comm a 1]; exact r3
  have hd := div_in hnr hA
  have hda := div_in ha hA
  have hds := div_in hs ha
  have hG : Rl (3 * 2 ^ (-52 : ℤ)) (rnd (n / rnd (1 + a))) (n / (1 + a)) :=
    (((Rl.refl (le_refl 0) n0.le).div r3 n0.le (by linarith) (le_refl 0) hz.le (by linarith) (g := 2 * 2 ^ (-52 : ℤ)) (by
      generalize (2 : ℝ) ^ (-52 : ℤ) = z at *
      linarith)).rnd h (wide hd (by norm_num) (by norm_num)).1 (wide hd (by norm_num) (by norm_num)).2 (by
      generalize (2 : ℝ) ^ (-52 : ℤ) = z at *
      linarith)).mono (by positivity) (by linarith)
  have hR : Rl (3 * 2 ^ (-52 : ℤ)) (rnd (a / rnd (a + 1))) (a / (1 + a)) :=
    (((Rl.refl (le_refl 0) a0.le).div r3' a0.le (by linarith) (le_refl 0) hz.le (by linarith) (g := 2 * 2 ^ (-52 : ℤ)) (by
      generalize (2 : ℝ) ^ (-52 : ℤ) = z at *
      linarith)).rnd h (wide hda (by norm_num) (by norm_num)).1 (wide hda (by norm_num) (by norm_num)).2 (by
      generalize (2 : ℝ) ^ (-52 : ℤ) = z at *
      linarith)).mono (by positivity) (by linarith)
  have hTb := prod_bounds (r := -61) (r' := 83) hda hnr (by norm_num) (by norm_num)
  have hT : Rl (4 * 2 ^ (-52 : ℤ)) (rnd (rnd (a / rnd (a + 1)) * n)) (a / (1 + a) * n) :=
    ((hR.mul (Rl.refl (le_refl 0) n0.le) (by positivity) n0.le (g := 3 * 2 ^ (-52 : ℤ)) (by linarith)).rnd h (wide hTb (by norm_num) (by norm_num)).1
      (wide hTb (by norm_num) (by norm_num)).2 (by
      generalize (2 : ℝ) ^ (-52 : ℤ) = z at *
      linarith)).mono (by positivity) (by linarith)
  have hσ0 : Rl ε (s' / a) (s / a) := by
    unfold Rl at hss ⊢
    rw [← sub_div, abs_div, abs_of_pos a0, ← mul_div_assoc]
    exact div_le_div_of_nonneg_right hss a0.le
  have hσ : Rl (ε + 2 ^ (-52 : ℤ)) (rnd (s' / a)) (s / a) := hσ0.rnd h (wide hds (by norm_num) (by norm_num)).1 (wide hds (by norm_num) (by norm_num)).2 (by linarith)
  have hTg : a / (1 + a) * n = a * (n / (1 + a)) := by ring
  rw [hTg] at hT
  have hsa : s = a * (s / a) := by field_simp
  have hsa' : s' = a * (s' / a) := by field_simp
  have g0 : 0 < (n : ℝ) / (1 + a) := by positivity
  have σ0 : 0 < s / a := by positivity
  have gw := wide hd (by norm_num) (by norm_num)
  simp only [wback, if_neg n0.ne', Nat.cast_zero, if_true]
  have hcond : s' ≤ rnd (rnd (a / rnd (a + 1)) * n) ↔ s' / a ≤ rnd (rnd (a / rnd (a + 1)) * n) / a := (div_le_div_iff_of_pos_right a0).symm
  have hTa : Rl (4 * 2 ^ (-52 : ℤ)) (rnd (rnd (a / rnd (a + 1)) * n) / a) (n / (1 + a)) := by
    unfold Rl at hT ⊢
    have e : rnd (rnd (a / rnd (a + 1)) * n) / a - n / (1 + a) = (rnd (rnd (a / rnd (a + 1)) * n) - a * (n / (1 + a))) / a := by field_simp
    rw [e, abs_div, abs_of_pos a0, div_le_iff₀ a0]
    refine hT.trans (le_of_eq ?_)
    ring
  rw [show (if s' ≤ rnd (rnd (a / rnd (a + 1)) * n) then rnd (rnd (n / rnd (1 + a)) - rnd (s' / a)) else 0) =
    (if s' / a ≤ rnd (rnd (a / rnd (a + 1)) * n) / a then rnd (rnd (n / rnd (1 + a)) - rnd (s' / a)) else 0) from if_congr hcond rfl rfl]
  have hrd : ∀ v : ℝ, |v| ≤ 5 / 4 * (n / (1 + a)) → |rnd v - v| ≤ 2 ^ (-52 : ℤ) * (n / (1 + a)) := fun v hv => absstep' h hv gw.1 gw.2
  clear hd hda hds hTb hT hR r3 r3' hcond hTg hsa hsa' gw hnr hA hs ha
  generalize rnd (rnd (a / rnd (a + 1)) * n) / a = T at *
  generalize rnd (n / rnd (1 + a)) = G at *
  generalize rnd (s' / a) = S at *
  generalize (n : ℝ) / (1 + a) = g at *
  generalize s' / a = σ' at *
  generalize s / a = σ at *
  generalize (2 : ℝ) ^ (-52 : ℤ) = z at *
  have t1 := hTa.bounds
  have t2 := hσ0.bounds
  unfold Rl at hG hσ
  have zg := mul_nonneg hz.le g0.le
  have eg := mul_nonneg hε0 g0.le
  split
  · rename_i hc
    have h1 : (1 - ε) * σ ≤ (1 + 4 * z) * g := t2.1.trans (hc.trans t1.2)
    have h2 : σ ≤ (1 + 2 * ε + 8 * z) * g := by
      have : (1 - ε) * σ ≤ (1 - ε) * ((1 + 2 * ε + 8 * z) * g) := by
        refine h1.trans ?_
        rw [← mul_assoc]
        refine mul_le_mul_of_nonneg_right ?_ g0.le
        nlinarith
      exact le_of_mul_le_mul_left this (by linarith)
    have h3 : σ ≤ 11 / 10 * g := h2.trans (mul_le_mul_of_nonneg_right (by linarith) g0.le)
    have h4 : |G - S - (g - σ)| ≤ (2 * ε + 5 * z) * g := by
      rw [show G - S - (g - σ) = (G - g) - (S - σ) by ring]
      refine (abs_sub _ _).trans ((add_le_add hG hσ).trans ?_)
      have := mul_le_mul_of_nonneg_left h3 (by linarith : 0 ≤ ε + z)
      nlinarith
    have h5 : |G - S| ≤ 5 / 4 * g := by
      have k := abs_add_le (G - S - (g - σ)) (g - σ)
      rw [sub_add_cancel] at k
      have k2 : |g - σ| ≤ g := by rw [_root_.abs_le]; constructor <;> linarith
      have k3 : (2 * ε + 5 * z) * g ≤ 1 / 4 * g := mul_le_mul_of_nonneg_right (by linarith) g0.le
      linarith
    have h6 := hrd (G - S) h5
    have h7 : |g - σ - max (g - σ) 0| ≤ (2 * ε + 8 * z) * g := by
      rcases le_total 0 (g - σ) with hp | hp
      · rw [max_eq_left hp, sub_self, abs_zero]
        nlinarith
      · rw [max_eq_right hp, sub_zero, abs_of_nonpos hp]
        linarith
    have k1 := abs_sub_le (rnd (G - S)) (G - S) (g - σ)
    have k2 := abs_sub_le (rnd (G - S)) (g - σ) (max (g - σ) 0)
    linarith
  · rename_i hc
    push Not at hc
    have h1 : (1 - 4 * z) * g ≤ (1 + ε) * σ := t1.1.trans (hc.le.trans t2.2)
    have h2 : (1 - ε - 4 * z) * g ≤ σ := by
      have : (1 + ε) * ((1 - ε - 4 * z) * g) ≤ (1 + ε) * σ := by
        refine le_trans ?_ h1
        rw [← mul_assoc]
        refine mul_le_mul_of_nonneg_right ?_ g0.le
        nlinarith [mul_nonneg hε0 hε0, mul_nonneg hε0 hz.le]
      exact le_of_mul_le_mul_left this (by linarith)
    rw [zero_sub, abs_neg, abs_of_nonneg (le_max_right _ _)]
    refine max_le ?_ ?_ <;> nlinarith

theorem alone_small {rnd} (h : Nearest rnd) {s s' a ε : ℝ} {n : ℕ} (hs : 2 ^ (-100 : ℤ) ≤ s ∧ s ≤ 2 ^ (50 : ℤ)) (ha : 2 ^ (-30 : ℤ) ≤ a ∧ a ≤ 2 ^ (30 : ℤ))
    (hn0 : 0 < n) (hn : n ≤ 2 ^ 53) (hε : ε ≤ 1 / 40) (hss : Rl ε s' s) :
    |rnd (n / rnd (1 + a)) - rnd (s' / a)| ≤ 2 ^ (1023 : ℤ) := by
  have hz1 : (2 : ℝ) ^ (-52 : ℤ) ≤ 1 / 1000 := by norm_num
  have hz := two_zpow_pos (-52)
  have hnr := nat_in hn0 hn
  have a0 : 0 < a := (two_zpow_pos _).trans_le ha.1
  have s0 : 0 < s := (two_zpow_pos _).trans_le hs.1
  have n0 : (0 : ℝ) < n := (two_zpow_pos _).trans_le hnr.1
  have hA : 2 ^ (0 : ℤ) ≤ 1 + a ∧ 1 + a ≤ (2 : ℝ) ^ (31 : ℤ) := by
    constructor
    · rw [zpow_zero]; linarith
    · refine (add_le_add (le_refl _) ha.2).trans (by norm_num)
  have r3 : Rl (2 ^ (-52 : ℤ)) (rnd (1 + a)) (1 + a) := by
    have := (Rl.refl (le_refl 0) (by linarith : 0 ≤ 1 + a)).rnd h (wide hA (by norm_num) (by norm_num)).1 (wide hA (by norm_num) (by norm_num)).2 (by norm_num)
    rwa [zero_add] at this
  have hd := div_in hnr hA
  have hds := div_in hs ha
  have hG : Rl (3 * 2 ^ (-52 : ℤ)) (rnd (n / rnd (1 + a))) (n / (1 + a)) :=
    (((Rl.refl (le_refl 0) n0.le).div r3 n0.le (by linarith) (le_refl 0) hz.le (by linarith) (g := 2 * 2 ^ (-52 : ℤ)) (by
      generalize (2 : ℝ) ^ (-52 : ℤ) = z at *
      linarith)).rnd h (wide hd (by norm_num) (by norm_num)).1 (wide hd (by norm_num) (by norm_num)).2 (by
      generalize (2 : ℝ) ^ (-52 : ℤ) = z at *
      linarith)).mono (by positivity) (by linarith)
  have hσ0 : Rl ε (s' / a) (s / a) := by
    unfold Rl at hss ⊢
    rw [← sub_div, abs_div, abs_of_pos a0, ← mul_div_assoc]
    exact div_le_div_of_nonneg_right hss a0.le
  have hσ : Rl (ε + 2 ^ (-52 : ℤ)) (rnd (s' / a)) (s / a) := hσ0.rnd h (wide hds (by norm_num) (by norm_num)).1 (wide hds (by norm_num) (by norm_num)).2 (by linarith)
  have e1 : (1 : ℝ) + 3 * 2 ^ (-52 : ℤ) ≤ 2 ^ (1 : ℤ) := by
    rw [zpow_one]
    clear hs ha hnr hA hd hds hG hσ r3
    generalize (2 : ℝ) ^ (-52 : ℤ) = z at *
    linarith
  have e2 : (1 : ℝ) + (ε + 2 ^ (-52 : ℤ)) ≤ 2 ^ (1 : ℤ) := by
    rw [zpow_one]
    clear hs ha hnr hA hd hds hG hσ r3 e1
    generalize (2 : ℝ) ^ (-52 : ℤ) = z at *
    linarith
  have b1 := (hG.abs (by positivity)).trans (mul_le_mul e1 (wide hd (by norm_num) (by norm_num)).2 (by positivity) (by positivity))
  have b2 := (hσ.abs (by positivity)).trans (mul_le_mul e2 (wide hds (by norm_num) (by norm_num)).2 (by positivity) (by positivity))
  refine (abs_sub _ _).trans ((add_le_add b1 b2).trans ?_)
  rw [← two_mul, show (2 : ℝ) * (2 ^ (1 : ℤ) * 2 ^ (700 : ℤ)) = 2 ^ (1 : ℤ) * (2 ^ (1 : ℤ) * 2 ^ (700 : ℤ)) by rw [zpow_one], ← zpow_add₀ (by norm_num), ← zpow_add₀ (by norm_num)]
  exact zpow_le (by norm_num)

/-! ## Both together -/

/-- What is computed for the background and for the rate of the source region, and what is meant. -/
theorem wstat_near {rnd} (h : Nearest rnd) {s s' a ε : ℝ} {n m : ℕ} (hs : 2 ^ (-100 : ℤ) ≤ s ∧ s ≤ 2 ^ (50 : ℤ)) (ha : 2 ^ (-30 : ℤ) ≤ a ∧ a ≤ 2 ^ (30 : ℤ))
    (hn : n ≤ 2 ^ 53) (hm : m ≤ 2 ^ 53) (hε0 : 0 ≤ ε) (hss : Rl ε s' s) (hloss : (5 * ε + 32 * 2 ^ (-52 : ℤ)) * (1 + loss s n m a) ≤ 1 / 8) :
    |s' - s| + a * |wback rnd s' n m a - wstatBackground s n m a| ≤ (5 * ε + 32 * 2 ^ (-52 : ℤ)) * (1 + loss s n m a) * (s + a * wstatBackground s n m a) ∧
    (0 < m → Rl ((5 * ε + 32 * 2 ^ (-52 : ℤ)) * (1 + loss s n m a)) (wback rnd s' n m a) (wstatBackground s n m a) ∧ 2 ^ (-150 : ℤ) ≤ wstatBackground s n m a) ∧
    (m = 0 → |wback rnd s' n m a - wstatBackground s n m a| ≤ (5 * ε + 32 * 2 ^ (-52 : ℤ)) * (1 + loss s n m a) * n ∧ Rep (wback rnd s' n m a)) ∧
    0 ≤ wstatBackground s n m a ∧ wstatBackground s n m a ≤ n + m ∧ a * wstatBackground s n m a ≤ n + m := by
  have hz := two_zpow_pos (-52)
  have hz1 : (2 : ℝ) ^ (-52 : ℤ) ≤ 1 / 1000 := by norm_num
  have a0 : 0 < a := (two_zpow_pos _).trans_le ha.1
  have s0 : 0 < s := (two_zpow_pos _).trans_le hs.1
  have n0 : (0 : ℝ) ≤ n := Nat.cast_nonneg n
  have m0 : (0 : ℝ) ≤ m := Nat.cast_nonneg m
  have hsh : |s' - s| ≤ ε * s := hss
  -- a background of at most the mean of the two regions
  have hup : ∀ b : ℝ, 0 ≤ b → b ≤ ((n : ℝ) + m) / (1 + a) → 0 ≤ b ∧ b ≤ n + m ∧ a * b ≤ n + m := by
    intro b hb0 hb
    rw [le_div_iff₀ (by linarith)] at hb
    exact ⟨hb0, by nlinarith, by nlinarith⟩
  have hA31 : 1 + a ≤ (2 : ℝ) ^ (31 : ℤ) := (add_le_add (le_refl _) ha.2).trans (by norm_num)
  rcases Nat.eq_zero_or_pos n with hn0 | hn0
  · -- no counts in the source region
    subst hn0
    have hl : loss s (0 : ℕ) m a = 0 := by simp [loss]
    rw [hl, add_zero, mul_one] at hloss ⊢
    have hbk : wstatBackground s (0 : ℕ) m a = m / (1 + a) := by simp [wstatBackground]
    have hη : 0 ≤ 5 * ε + 32 * 2 ^ (-52 : ℤ) := by linarith
    rcases Nat.eq_zero_or_pos m with hm0 | hm0
    · subst hm0
      have hb0 : wback rnd s' (0 : ℕ) (0 : ℕ) a = 0 := by
        simp only [wback, Nat.cast_zero, if_true, zero_div]
        exact h.fix rep_zero (by rw [abs_zero]; exact (two_zpow_pos _).le)
      rw [hbk, hb0]
      simp only [Nat.cast_zero, zero_div, sub_self, abs_zero, mul_zero, add_zero]
      refine ⟨hsh.trans (mul_le_mul_of_nonneg_right (by linarith) s0.le), fun hc => absurd hc (lt_irrefl _), fun _ => ⟨le_refl _, rep_zero⟩, le_refl _, le_refl _, le_refl _⟩
    · have hE := wback_empty (s' := s') h ha hm0 hm
      have b0 : (0 : ℝ) ≤ m / (1 + a) := by positivity
      rw [hbk]
      have hRl : Rl (5 * ε + 32 * 2 ^ (-52 : ℤ)) (wback rnd s' (0 : ℕ) m a) (m / (1 + a)) := hE.mono b0 (by linarith)
      refine ⟨?_, fun _ => ⟨hRl, ?_⟩, fun hc => absurd hc hm0.ne', hup _ b0 (by simp)⟩
      · have := mul_le_mul_of_nonneg_left hRl a0.le
        have k := mul_le_mul_of_nonneg_right (by linarith : ε ≤ 5 * ε + 32 * 2 ^ (-52 : ℤ)) s0.le
        rw [mul_left_comm] at this
        rw [mul_add]
        exact add_le_add (hsh.trans k) this
      · rw [le_div_iff₀ (by linarith)]
        refine (mul_le_mul_of_nonneg_left hA31 (two_zpow_pos _).le).trans (le_trans ?_ (nat_in hm0 hm).1)
        rw [← zpow_add₀ (by norm_num)]
        exact zpow_le (by norm_num)
  rcases Nat.eq_zero_or_pos m with hm0 | hm0
  · -- no counts in the background region
    subst hm0
    have hl : loss s n (0 : ℕ) a = 0 := by simp [loss]
    rw [hl, add_zero, mul_one] at hloss ⊢
    have hε : ε ≤ 1 / 40 := by
      clear hs ha hA31
      generalize (2 : ℝ) ^ (-52 : ℤ) = z at *
      linarith
    have hn1 : (0 : ℝ) < n := by exact_mod_cast hn0
    have hiff : s ≤ a / (a + 1) * n ↔ s / a ≤ n / (1 + a) := by
      rw [div_le_div_iff₀ a0 (by linarith), div_mul_eq_mul_div, le_div_iff₀ (by linarith), add_comm 1 a, mul_comm (n : ℝ) a]
    have hbk : wstatBackground s n (0 : ℕ) a = max (n / (1 + a) - s / a) 0 := by
      simp only [wstatBackground, if_neg hn1.ne', Nat.cast_zero, if_true]
      by_cases hc : s ≤ a / (a + 1) * n
      · rw [if_pos hc, max_eq_left (by have := hiff.1 hc; linarith)]
      · rw [if_neg hc, max_eq_right]
        have : ¬ s / a ≤ n / (1 + a) := fun hh => hc (hiff.2 hh)
        push Not at this
        linarith
    have hE := wback_alone h hs ha hn0 hn hε0 hε hss
    rw [← hbk] at hE
    have g0 : (0 : ℝ) ≤ n / (1 + a) := by positivity
    have hgn : (n : ℝ) / (1 + a) ≤ n := div_le_self n0 (by linarith)
    have hμ : a * (n / (1 + a)) ≤ s + a * wstatBackground s n (0 : ℕ) a := by
      rw [hbk]
      have := le_max_left ((n : ℝ) / (1 + a) - s / a) 0
      have := mul_le_mul_of_nonneg_left this a0.le
      have e : a * (s / a) = s := by field_simp
      nlinarith
    have hbs : s ≤ s + a * wstatBackground s n (0 : ℕ) a := by
      rw [hbk]
      have := mul_nonneg a0.le (le_max_right ((n : ℝ) / (1 + a) - s / a) 0)
      linarith
    refine ⟨?_, fun hc => absurd hc (lt_irrefl _), fun _ => ⟨hE.trans ?_, ?_⟩, hup _ ?_ ?_⟩
    · have k1 := mul_le_mul_of_nonneg_left hE a0.le
      have k2 := mul_le_mul_of_nonneg_left hμ (by linarith : 0 ≤ 4 * ε + 14 * 2 ^ (-52 : ℤ))
      have k3 := mul_le_mul_of_nonneg_left hbs hε0
      have k4 := mul_nonneg hz.le (s0.le.trans hbs)
      rw [mul_left_comm] at k1
      refine (add_le_add (hsh.trans k3) (k1.trans k2)).trans ?_
      rw [← add_mul]
      refine mul_le_mul_of_nonneg_right ?_ (s0.le.trans hbs)
      clear hs ha hA31 hloss k1 k2 k3 k4 hE
      generalize (2 : ℝ) ^ (-52 : ℤ) = z at *
      linarith
    · exact mul_le_mul (by linarith) hgn g0 (by linarith)
    · simp only [wback, if_neg hn1.ne', Nat.cast_zero, if_true]
      split
      · rename_i hc
        have hb : wback rnd s' n (0 : ℕ) a = rnd (rnd (n / rnd (1 + a)) - rnd (s' / a)) := by
          simp only [wback, if_neg hn1.ne', Nat.cast_zero, if_true, if_pos hc]
        rw [hb] at hE
        by_cases hbig : |rnd (n / rnd (1 + a)) - rnd (s' / a)| ≤ 2 ^ (1023 : ℤ)
        · exact h.rep hbig
        · exact absurd (alone_small h hs ha hn0 hn hε hss) hbig
      · exact rep_zero
    · rw [hbk]; exact le_max_right _ _
    · rw [hbk, Nat.cast_zero, add_zero]
      exact max_le (by have : 0 < s / a := by positivity
                       linarith) g0
  · -- counts in both
    have n1 : (0 : ℝ) < n := by exact_mod_cast hn0
    have m1 : (0 : ℝ) < m := by exact_mod_cast hm0
    have hl : loss s n m a = (a + 1) * s / (a * m) := by
      unfold loss
      rw [if_neg]
      rintro (hc | hc)
      · exact n1.ne' hc
      · exact m1.ne' hc
    rw [hl] at hloss ⊢
    have hRl := wback_error h hs ha hn0 hm0 hn hm hε0 hss (hloss.trans (by norm_num))
    obtain ⟨b1, b2, -⟩ := background_bounds s0 a0 n1 m1
    have hk0 : 0 ≤ (a + 1) * s / (a * m) := by positivity
    have hk : 1 + (a + 1) * s / (a * m) ≤ 2 ^ (50 : ℤ) := by
      by_contra hc
      push Not at hc
      have : (1 : ℝ) / 8 < (5 * ε + 32 * 2 ^ (-52 : ℤ)) * (1 + (a + 1) * s / (a * m)) := by
        have e : (1 : ℝ) / 8 < 32 * 2 ^ (-52 : ℤ) * 2 ^ (50 : ℤ) := by norm_num
        refine e.trans_le (mul_le_mul (by linarith) hc.le (two_zpow_pos _).le (by linarith))
      linarith
    have hlow : 2 ^ (-150 : ℤ) ≤ wstatBackground s n m a := by
      refine le_trans ?_ b1
      rw [le_div_iff₀ (by positivity)]
      have e2 : 2 * (a + 1) * (1 + (a + 1) * s / (a * m)) ≤ 2 ^ (1 : ℤ) * 2 ^ (31 : ℤ) * 2 ^ (50 : ℤ) :=
        mul_le_mul (mul_le_mul (by norm_num) (by rw [add_comm]; exact hA31) (by linarith) (two_zpow_pos _).le) hk (by linarith) (by positivity)
      refine (mul_le_mul_of_nonneg_left e2 (two_zpow_pos _).le).trans (le_trans ?_ ((nat_in hn0 hn).1.trans (by linarith : (n : ℝ) ≤ n + m)))
      rw [← zpow_add₀ (by norm_num), ← zpow_add₀ (by norm_num), ← zpow_add₀ (by norm_num)]
      exact zpow_le (by norm_num)
    have hb0 : 0 ≤ wstatBackground s n m a := (two_zpow_pos _).le.trans hlow
    refine ⟨?_, fun _ => ⟨hRl, hlow⟩, fun hc => absurd hc hm0.ne', hup _ hb0 (by rw [add_comm 1 a]; exact b2)⟩
    have k1 := mul_le_mul_of_nonneg_left hRl a0.le
    have k2 : ε ≤ (5 * ε + 32 * 2 ^ (-52 : ℤ)) * (1 + (a + 1) * s / (a * m)) := by
      clear hs ha hA31 hloss hk hlow hRl k1
      generalize (a + 1) * s / (a * m) = κ at *
      generalize (2 : ℝ) ^ (-52 : ℤ) = z at *
      nlinarith [mul_nonneg hε0 hk0, mul_nonneg hz.le hk0]
    have k3 := mul_le_mul_of_nonneg_right k2 s0.le
    linarith

end Elisa.Infer.Fl
