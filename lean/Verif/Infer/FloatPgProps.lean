import Verif.Infer.FloatPg
import Verif.Infer.FloatWStatProps

/-!
# The PG-statistic in floating point (C155)
-/

namespace Elisa.Infer.Fl

open Elisa Elisa.Infer Elisa.Grouping.Fl

/-! ## Carrying an error through one operation -/

/-- A scale far from overflow and underflow. -/
def Mid (L : ℝ) : Prop := 2 ^ (-700 : ℤ) ≤ L ∧ L ≤ (2 : ℝ) ^ (700 : ℤ)

/-- The result of an operation that was exact up to `k * θ` of a scale `L` is within `(k + 1) * θ` of it. -/
theorem carry {rnd} (h : Nearest rnd) {θ k a x L : ℝ} (hθ : 2 ^ (-52 : ℤ) ≤ θ) (hx : |x| ≤ L) (ha : |a - x| ≤ k * θ * L) (hk : k * θ ≤ 1 / 4) (hL : Mid L) :
    |rnd a - x| ≤ (k + 1) * θ * L := by
  have L0 : 0 ≤ L := (two_zpow_pos _).le.trans hL.1
  have h1 : |a| ≤ 5 / 4 * L := by
    have := abs_add_le (a - x) x
    rw [sub_add_cancel] at this
    have := mul_le_mul_of_nonneg_right hk L0
    linarith
  have h2 := absstep' h h1 hL.1 hL.2
  have h3 := mul_le_mul_of_nonneg_right hθ L0
  have h4 := abs_sub_le (rnd a) a x
  linarith

/-! ## The pieces of the profile background -/

section
variable {rnd : ℝ → ℝ} {θ : ℝ}

theorem variance_near (h : Nearest rnd) (hθ : 2 ^ (-52 : ℤ) ≤ θ) (hθ1 : θ ≤ 1 / 600) {a σ : ℝ} (a0 : 0 < a) (hv : Mid (σ * σ)) (hp : Mid (a * (σ * σ))) :
    |rnd (a * rnd (σ * σ)) - a * (σ * σ)| ≤ 2 * θ * (a * (σ * σ)) := by
  have v0 : 0 < σ * σ := (two_zpow_pos _).trans_le hv.1
  have h1 := carry h (k := 0) hθ (a := σ * σ) (x := σ * σ) (le_of_eq (abs_of_pos v0)) (by rw [sub_self, abs_zero, zero_mul, zero_mul]) (by norm_num) hv
  have h2 := carry h (k := 1) hθ (a := a * rnd (σ * σ)) (x := a * (σ * σ)) (le_of_eq (abs_of_pos (mul_pos a0 v0))) (by
    rw [← mul_sub, abs_mul, abs_of_pos a0]
    refine (mul_le_mul_of_nonneg_left h1 a0.le).trans (le_of_eq ?_)
    ring) (by linarith) hp
  refine h2.trans (le_of_eq ?_)
  ring

theorem excess_near (h : Nearest rnd) (hθ : 2 ^ (-52 : ℤ) ≤ θ) (hθ1 : θ ≤ 1 / 600) {b p p' : ℝ} (p0 : 0 ≤ p) (hp : |p' - p| ≤ 2 * θ * p) (hX : Mid (|b| + p)) :
    |rnd (b - p') - (b - p)| ≤ 3 * θ * (|b| + p) := by
  have θ0 : 0 < θ := (two_zpow_pos _).trans_le hθ
  have h1 := carry h (k := 2) hθ (a := b - p') (x := b - p) ((abs_sub _ _).trans (by rw [abs_of_nonneg p0])) (by
    rw [show b - p' - (b - p) = -(p' - p) by ring, abs_neg]
    refine hp.trans ?_
    nlinarith [abs_nonneg b]) (by linarith) hX
  refine h1.trans (le_of_eq ?_)
  ring

theorem slope_near (h : Nearest rnd) (hθ : 2 ^ (-52 : ℤ) ≤ θ) (hθ1 : θ ≤ 1 / 600) {p p' n e e' s s' X : ℝ} (p0 : 0 < p) (n0 : 0 < n) (s0 : 0 < s) (hp : |p' - p| ≤ 2 * θ * p)
    (he : |e| ≤ X) (hee : |e' - e| ≤ 3 * θ * X) (hs : |s' - s| ≤ θ * s) (m1 : Mid (p * n)) (m2 : Mid (X * s)) (m3 : Mid (p * n + X * s)) :
    |rnd (rnd (p' * n) + rnd (e' * s')) - (p * n + e * s)| ≤ 7 * θ * (p * n + X * s) := by
  have θ0 : 0 < θ := (two_zpow_pos _).trans_le hθ
  have X0 : 0 ≤ X := (abs_nonneg _).trans he
  have h1 := carry h (k := 2) hθ (a := p' * n) (x := p * n) (le_of_eq (abs_of_pos (mul_pos p0 n0))) (by
    rw [← sub_mul, abs_mul, abs_of_pos n0]
    refine (mul_le_mul_of_nonneg_right hp n0.le).trans (le_of_eq ?_)
    ring) (by linarith) m1
  have hes : |e * s| ≤ X * s := by
    rw [abs_mul, abs_of_pos s0]
    exact mul_le_mul_of_nonneg_right he s0.le
  have h2 := carry h (k := 5) hθ (a := e' * s') (x := e * s) hes (by
    rw [show e' * s' - e * s = (e' - e) * s + ((e' - e) * (s' - s) + e * (s' - s)) by ring]
    refine (abs_add_le _ _).trans ((add_le_add (le_refl _) (abs_add_le _ _)).trans ?_)
    rw [abs_mul, abs_mul, abs_mul, abs_of_pos s0]
    have k1 := mul_le_mul_of_nonneg_right hee s0.le
    have k2 := mul_le_mul hee hs (abs_nonneg _) (by positivity)
    have k3 := mul_le_mul he hs (abs_nonneg _) X0
    have k4 : 3 * θ * X * (θ * s) ≤ 1 * (θ * (X * s)) := by
      rw [show 3 * θ * X * (θ * s) = 3 * θ * (θ * (X * s)) by ring]
      exact mul_le_mul_of_nonneg_right (by linarith) (by positivity)
    linarith) (by linarith) m2
  have h3 := carry h (k := 6) hθ (a := rnd (p' * n) + rnd (e' * s')) (x := p * n + e * s) ((abs_add_le _ _).trans (add_le_add (le_of_eq (abs_of_pos (mul_pos p0 n0))) hes)) (by
    rw [add_sub_add_comm]
    refine (abs_add_le _ _).trans ((add_le_add h1 h2).trans ?_)
    have := mul_pos θ0 (mul_pos p0 n0)
    linarith) (by linarith) m3
  refine h3.trans (le_of_eq ?_)
  ring

theorem linear_near (h : Nearest rnd) (hθ : 2 ^ (-52 : ℤ) ≤ θ) (hθ1 : θ ≤ 1 / 600) {a e e' s s' X : ℝ} (a0 : 0 < a) (s0 : 0 < s)
    (he : |e| ≤ X) (hee : |e' - e| ≤ 3 * θ * X) (hs : |s' - s| ≤ θ * s) (m1 : Mid (a * X)) (m2 : Mid (a * X + s)) :
    |rnd (rnd (a * e') - s') - (a * e - s)| ≤ 5 * θ * (a * X + s) := by
  have θ0 : 0 < θ := (two_zpow_pos _).trans_le hθ
  have hae : |a * e| ≤ a * X := by
    rw [abs_mul, abs_of_pos a0]
    exact mul_le_mul_of_nonneg_left he a0.le
  have h1 := carry h (k := 3) hθ (a := a * e') (x := a * e) hae (by
    rw [← mul_sub, abs_mul, abs_of_pos a0]
    refine (mul_le_mul_of_nonneg_left hee a0.le).trans (le_of_eq ?_)
    ring) (by linarith) m1
  have h2 := carry h (k := 4) hθ (a := rnd (a * e') - s') (x := a * e - s) ((abs_sub _ _).trans (add_le_add hae (le_of_eq (abs_of_pos s0)))) (by
    rw [show rnd (a * e') - s' - (a * e - s) = (rnd (a * e') - a * e) - (s' - s) by ring]
    refine (abs_sub _ _).trans ((add_le_add h1 hs).trans ?_)
    have := mul_pos θ0 s0
    linarith) (by linarith) m2
  refine h2.trans (le_of_eq ?_)
  ring

/-- The root of the discriminant `D = c * c + 4 * a * f`, where `G` is the discriminant with the magnitudes of all its terms. -/
theorem disc_near (h : Nearest rnd) (hθ : 2 ^ (-52 : ℤ) ≤ θ) (hθ1 : θ ≤ 1 / 600) {a c c' f f' C Y G : ℝ} (a0 : 0 < a) (hc : |c| ≤ C) (hcc : |c' - c| ≤ 5 * θ * C)
    (hf : |f| ≤ Y) (hff : |f' - f| ≤ 7 * θ * Y) (hG : C * C ≤ G) (hG2 : 4 * a * Y ≤ G) (hD : 0 < c * c + 4 * a * f) (hD2 : c * c + 4 * a * f ≤ G)
    (m1 : Mid (4 * a)) (m2 : Mid (4 * a * Y)) (m3 : Mid (C * C)) (m4 : Mid G) (m5 : Mid (G / Real.sqrt (c * c + 4 * a * f))) :
    |root rnd c' (rnd (rnd (4 * a) * f')) - Real.sqrt (c * c + 4 * a * f)| ≤ 24 * θ * (G / Real.sqrt (c * c + 4 * a * f)) := by
  have θ0 : 0 < θ := (two_zpow_pos _).trans_le hθ
  have C0 : 0 ≤ C := (abs_nonneg _).trans hc
  have Y0 : 0 ≤ Y := (abs_nonneg _).trans hf
  have a4 : 0 < 4 * a := by linarith
  have h1 := carry h (k := 0) hθ (a := 4 * a) (x := 4 * a) (le_of_eq (abs_of_pos a4)) (by rw [sub_self, abs_zero, zero_mul, zero_mul]) (by norm_num) m1
  have haf : |4 * a * f| ≤ 4 * a * Y := by
    rw [abs_mul, abs_of_pos a4]
    exact mul_le_mul_of_nonneg_left hf a4.le
  have h2 := carry h (k := 9) hθ (a := rnd (4 * a) * f') (x := 4 * a * f) haf (by
    rw [show rnd (4 * a) * f' - 4 * a * f = 4 * a * (f' - f) + ((rnd (4 * a) - 4 * a) * (f' - f) + (rnd (4 * a) - 4 * a) * f) by ring]
    refine (abs_add_le _ _).trans ((add_le_add (le_refl _) (abs_add_le _ _)).trans ?_)
    rw [abs_mul (4 * a), abs_mul _ (f' - f), abs_mul _ f, abs_of_pos a4]
    have k1 := mul_le_mul_of_nonneg_left hff a4.le
    have k2 := mul_le_mul h1 hff (abs_nonneg _) (by positivity)
    have k3 := mul_le_mul h1 hf (abs_nonneg _) (by positivity)
    have k4 : (0 + 1) * θ * (4 * a) * (7 * θ * Y) ≤ 1 * (θ * (4 * a * Y)) := by
      rw [show (0 + 1) * θ * (4 * a) * (7 * θ * Y) = 7 * θ * (θ * (4 * a * Y)) by ring]
      exact mul_le_mul_of_nonneg_right (by linarith) (by positivity)
    linarith) (by linarith) m2
  have hcs : |c * c| ≤ C * C := by
    rw [abs_mul]
    exact mul_le_mul hc hc (abs_nonneg _) C0
  have h3 := carry h (k := 11) hθ (a := c' * c') (x := c * c) hcs (by
    rw [show c' * c' - c * c = (c' - c) * (c' - c) + 2 * (c * (c' - c)) by ring]
    refine (abs_add_le _ _).trans ?_
    rw [abs_mul, abs_mul, abs_mul, abs_two]
    have k1 := mul_le_mul hcc hcc (abs_nonneg _) (by positivity)
    have k2 := mul_le_mul hc hcc (abs_nonneg _) C0
    have k4 : 5 * θ * C * (5 * θ * C) ≤ 1 * (θ * (C * C)) := by
      rw [show 5 * θ * C * (5 * θ * C) = 25 * θ * (θ * (C * C)) by ring]
      exact mul_le_mul_of_nonneg_right (by linarith) (by positivity)
    linarith) (by linarith) m3
  have h4 := carry h (k := 22) hθ (a := rnd (c' * c') + rnd (rnd (4 * a) * f')) (x := c * c + 4 * a * f) (by rwa [abs_of_pos hD]) (by
    rw [add_sub_add_comm]
    refine (abs_add_le _ _).trans ((add_le_add h3 h2).trans ?_)
    have k1 := mul_le_mul_of_nonneg_left hG θ0.le
    have k2 := mul_le_mul_of_nonneg_left hG2 θ0.le
    linarith) (by linarith) m4
  have hr : 0 < Real.sqrt (c * c + 4 * a * f) := Real.sqrt_pos.2 hD
  have hrr := Real.mul_self_sqrt hD.le
  unfold root
  generalize rnd (rnd (c' * c') + rnd (rnd (4 * a) * f')) = q at *
  generalize hDd : c * c + 4 * a * f = D at *
  have h5 : |Real.sqrt q - Real.sqrt D| ≤ 23 * θ * (G / Real.sqrt D) := by
    rw [← mul_div_assoc, le_div_iff₀ hr]
    have h4' : |q - D| ≤ 23 * θ * G := h4.trans (le_of_eq (by ring))
    rcases le_total 0 q with hq | hq
    · have : (Real.sqrt q - Real.sqrt D) * (Real.sqrt q + Real.sqrt D) = q - D := by
        have := Real.mul_self_sqrt hq
        ring_nf
        nlinarith
      refine le_trans ?_ h4'
      rw [← this, abs_mul]
      refine mul_le_mul_of_nonneg_left ?_ (abs_nonneg _)
      rw [abs_of_nonneg (by positivity)]
      linarith [Real.sqrt_nonneg q]
    · rw [Real.sqrt_eq_zero_of_nonpos hq, zero_sub, abs_neg, abs_of_pos hr, hrr]
      refine le_trans ?_ h4'
      rw [abs_of_nonpos (by linarith)]
      linarith
  have hDG : Real.sqrt D ≤ G / Real.sqrt D := by
    rw [le_div_iff₀ hr, hrr]
    exact hD2
  have h6 := carry h (k := 23) hθ (a := Real.sqrt q) (x := Real.sqrt D) (by rwa [abs_of_pos hr]) h5 (by linarith) m5
  refine h6.trans (le_of_eq ?_)
  ring

theorem quot_near (h : Nearest rnd) (hθ : 2 ^ (-52 : ℤ) ≤ θ) (hθ1 : θ ≤ 1 / 600) {a c c' d d' C Λ : ℝ} (a0 : 0 < a) (hc : |c| ≤ C) (hcc : |c' - c| ≤ 5 * θ * C)
    (hd : |d| ≤ Λ) (hdd : |d' - d| ≤ 24 * θ * Λ) (hC : C ≤ Λ) (m1 : Mid (2 * a)) (m2 : Mid (2 * Λ)) (m3 : Mid (Λ / a)) :
    |rnd (rnd (c' + d') / rnd (2 * a)) - (c + d) / (2 * a)| ≤ 19 * θ * (Λ / a) := by
  have θ0 : 0 < θ := (two_zpow_pos _).trans_le hθ
  have C0 : 0 ≤ C := (abs_nonneg _).trans hc
  have L0 : 0 ≤ Λ := C0.trans hC
  have a2 : 0 < 2 * a := by linarith
  have h1 := carry h (k := 0) hθ (a := 2 * a) (x := 2 * a) (le_of_eq (abs_of_pos a2)) (by rw [sub_self, abs_zero, zero_mul, zero_mul]) (by norm_num) m1
  have hu : |c + d| ≤ 2 * Λ := (abs_add_le _ _).trans (by linarith)
  have h2 := carry h (k := 15) hθ (a := c' + d') (x := c + d) hu (by
    rw [add_sub_add_comm]
    refine (abs_add_le _ _).trans ((add_le_add hcc hdd).trans ?_)
    have := mul_le_mul_of_nonneg_left hC θ0.le
    have := mul_nonneg θ0.le L0
    linarith) (by linarith) m2
  generalize rnd (c' + d') = u' at *
  generalize rnd (2 * a) = w at *
  generalize c + d = u at *
  have hw := _root_.abs_le.1 h1
  have hw1 : (1 - θ) * (2 * a) ≤ w := by linarith [hw.1]
  have w0 : 0 < w := lt_of_lt_of_le (mul_pos (by linarith) a2) hw1
  have h3 : |u' / w - u / (2 * a)| ≤ 18 * θ * (Λ / a) := by
    rw [show u' / w - u / (2 * a) = ((u' - u) - u * ((w - 2 * a) / (2 * a))) / w by field_simp; ring, abs_div, abs_of_pos w0, div_le_iff₀ w0]
    have k1 : |(w - 2 * a) / (2 * a)| ≤ θ := by
      rw [abs_div, abs_of_pos a2, div_le_iff₀ a2]
      linarith
    have k2 := mul_le_mul hu k1 (abs_nonneg _) (by linarith)
    rw [← abs_mul] at k2
    have k3 : 18 * θ * (Λ / a) * ((1 - θ) * (2 * a)) ≤ 18 * θ * (Λ / a) * w := mul_le_mul_of_nonneg_left hw1 (by positivity)
    have k4 : 18 * θ * (Λ / a) * ((1 - θ) * (2 * a)) = 36 * (1 - θ) * (θ * Λ) := by field_simp; ring
    have k5 : 34 * (θ * Λ) ≤ 36 * (1 - θ) * (θ * Λ) := mul_le_mul_of_nonneg_right (by linarith) (by positivity)
    refine (abs_sub _ _).trans ?_
    linarith
  have h4 := carry h (k := 18) hθ (a := u' / w) (x := u / (2 * a)) (by
    rw [abs_div, abs_of_pos a2, div_le_div_iff₀ a2 a0]
    have := mul_le_mul_of_nonneg_right hu a0.le
    linarith) h3 (by linarith) m3
  refine h4.trans (le_of_eq ?_)
  ring

end

/-! ## The profile background -/

/-- The discriminant of the profile background with the magnitudes of all its terms (specification, C155). -/
noncomputable def grossDisc (s n bEst bErr a : ℝ) : ℝ := (a * (|bEst| + a * (bErr * bErr)) + s) ^ 2 + 4 * a ^ 2 * (bErr * bErr) * n

/-- The discriminant of the profile background, as a sum of squares (specification, C155). -/
noncomputable def netDisc (s n bEst bErr a : ℝ) : ℝ := (a * (bEst - a * (bErr * bErr)) + s) ^ 2 + 4 * a ^ 2 * (bErr * bErr) * n

/-- The size, in counts of the source region, of the numbers that cancel in the profile background (specification, C155). -/
noncomputable def cancelled (s n bEst bErr a : ℝ) : ℝ :=
  if n = 0 then a * (|bEst| + a * (bErr * bErr)) else grossDisc s n bEst bErr a / Real.sqrt (netDisc s n bEst bErr a)

/-- What the lemmas below ask of one channel. -/
structure Sized (s bEst bErr a : ℝ) : Prop where
  source : 2 ^ (-100 : ℤ) ≤ s ∧ s ≤ (2 : ℝ) ^ (50 : ℤ)
  ratio : 2 ^ (-30 : ℤ) ≤ a ∧ a ≤ (2 : ℝ) ^ (30 : ℤ)
  est : |bEst| ≤ (2 : ℝ) ^ (60 : ℤ)
  err : 2 ^ (-30 : ℤ) ≤ bErr ∧ bErr ≤ (2 : ℝ) ^ (30 : ℤ)

theorem plus_bounds {p q q' r : ℤ} {x y : ℝ} (hx : 2 ^ p ≤ x ∧ x ≤ 2 ^ q) (hy : 0 ≤ y ∧ y ≤ 2 ^ q') (h1 : q + 1 ≤ r) (h2 : q' + 1 ≤ r) : 2 ^ p ≤ x + y ∧ x + y ≤ (2 : ℝ) ^ r := by
  refine ⟨hx.1.trans (le_add_of_nonneg_right hy.1), ?_⟩
  have e : (2 : ℝ) ^ r = 2 ^ (r - 1) + 2 ^ (r - 1) := by
    rw [← two_mul, show (2 : ℝ) * 2 ^ (r - 1) = 2 ^ (1 : ℤ) * 2 ^ (r - 1) by rw [zpow_one], ← zpow_add₀ (by norm_num)]
    congr 1
    ring
  rw [e]
  exact add_le_add (hx.2.trans (zpow_le (by omega))) (hy.2.trans (zpow_le (by omega)))

/-- The profile background without counts: a cut off at zero. -/
theorem empty_near {rnd} (h : Nearest rnd) {θ s s' e E X : ℝ} (hθ : 2 ^ (-52 : ℤ) ≤ θ) (hθ1 : θ ≤ 1 / 600) (hsb : 2 ^ (-100 : ℤ) ≤ s ∧ s ≤ (2 : ℝ) ^ (50 : ℤ))
    (hs : |s' - s| ≤ θ * s) (hX : 2 ^ (-90 : ℤ) ≤ X ∧ X ≤ (2 : ℝ) ^ (91 : ℤ)) (he : |e| ≤ X) (e1 : |E - e| ≤ 3 * θ * X) :
    |(if 0 ≤ E ∨ 0 ≤ rnd (rnd (E * s')) then E else 0) - max e 0| ≤ 4 * θ * X := by
  have s0 : 0 < s := (two_zpow_pos _).trans_le hsb.1
  have θ0 : 0 < θ := (two_zpow_pos _).trans_le hθ
  have X0 : 0 < X := (two_zpow_pos _).trans_le hX.1
  have e1' := _root_.abs_le.1 e1
  have tX := mul_pos θ0 X0
  by_cases hE0 : 0 ≤ E
  · rw [if_pos (Or.inl hE0)]
    have := abs_max_sub_max_le_max E 0 e 0
    rw [max_eq_left hE0] at this
    refine this.trans (max_le (e1.trans (by linarith)) (by rw [sub_self, abs_zero]; positivity))
  · have hE1 := not_le.1 hE0
    by_cases hf : 0 ≤ rnd (rnd (E * s'))
    · rw [if_pos (Or.inr hf)]
      -- the product has underflowed
      have s1 : (1 - θ) * s ≤ s' := by have := (_root_.abs_le.1 hs).1; linarith
      have hEX : |E| ≤ 2 * X := by
        have := abs_add_le (E - e) e
        rw [sub_add_cancel] at this
        have : 3 * θ * X ≤ 1 * X := mul_le_mul_of_nonneg_right (by linarith) X0.le
        linarith
      have s2 : 2 ^ (-101 : ℤ) ≤ s' := by
        refine le_trans ?_ s1
        refine le_trans ?_ (mul_le_mul (by linarith : (1 / 2 : ℝ) ≤ 1 - θ) hsb.1 (two_zpow_pos _).le (by linarith))
        norm_num
      have s3 : s' ≤ 2 ^ (51 : ℤ) := by
        have := (_root_.abs_le.1 hs).2
        have k : θ * s ≤ 1 * s := mul_le_mul_of_nonneg_right (by linarith) s0.le
        have : s' ≤ 2 * s := by linarith
        refine this.trans ((mul_le_mul_of_nonneg_left hsb.2 (by norm_num)).trans ?_)
        norm_num
      have sp : 0 < s' := (two_zpow_pos _).trans_le s2
      have hEs : E * s' < 0 := mul_neg_of_neg_of_pos hE1 sp
      have hEb : |E| ≤ 2 ^ (92 : ℤ) := by
        refine hEX.trans ((mul_le_mul_of_nonneg_left hX.2 (by norm_num)).trans ?_)
        norm_num
      have hx : |E * s'| ≤ 2 ^ (1023 : ℤ) := (mul_abs hEb (by rwa [abs_of_pos sp])).trans (zpow_le (by norm_num))
      have hr0 : rnd (E * s') ≤ 0 := h.le hx rep_zero hEs.le
      have hr1 : rnd (rnd (E * s')) = rnd (E * s') := by
        refine h.fix (h.rep hx) ?_
        exact ((h.abs_le hx (by norm_num) (by norm_num)).2 : _)
      rw [hr1] at hf
      have hr2 : rnd (E * s') = 0 := le_antisymm hr0 hf
      have herr := h.err' hx
      rw [hr2, zero_sub, abs_neg] at herr
      have hun : unit ≤ 1 / 2 := by unfold unit; norm_num
      have herr2 : |E * s'| ≤ 2 * tiny := by
        have := mul_le_mul_of_nonneg_right hun (abs_nonneg (E * s'))
        linarith
      rw [abs_mul, abs_of_pos sp] at herr2
      have hE2 : |E| ≤ θ * X := by
        have k1 : |E| * 2 ^ (-101 : ℤ) ≤ 2 * tiny := (mul_le_mul_of_nonneg_left s2 (abs_nonneg _)).trans herr2
        have k2 : 2 ^ (-52 : ℤ) * 2 ^ (-90 : ℤ) ≤ θ * X := mul_le_mul hθ hX.1 (two_zpow_pos _).le θ0.le
        rw [← zpow_add₀ (by norm_num)] at k2
        refine le_trans ?_ k2
        have k3 : 2 * tiny ≤ (2 : ℝ) ^ (-52 + -90 : ℤ) * 2 ^ (-101 : ℤ) := by
          unfold tiny
          rw [show (2 : ℝ) * 2 ^ (-1075 : ℤ) = 2 ^ (1 : ℤ) * 2 ^ (-1075 : ℤ) by rw [zpow_one], ← zpow_add₀ (by norm_num), ← zpow_add₀ (by norm_num)]
          exact zpow_le (by norm_num)
        exact le_of_mul_le_mul_right (k1.trans k3) (two_zpow_pos _)
      have k := abs_max_sub_max_le_max E 0 e 0
      rw [max_eq_right hE1.le] at k
      have hk : |0 - max e 0| ≤ 3 * θ * X := k.trans (max_le e1 (by rw [sub_self, abs_zero]; positivity))
      have k4 := abs_sub_le E 0 (max e 0)
      rw [sub_zero] at k4
      linarith
    · rw [if_neg (fun hh => hh.elim hE0 hf)]
      have k := abs_max_sub_max_le_max E 0 e 0
      rw [max_eq_right hE1.le] at k
      exact k.trans (max_le (e1.trans (by linarith)) (by rw [sub_self, abs_zero]; positivity))


/-- The branches of the profile background with counts: `R'` is the computed root, `(c + d) / (2 * a)` the exact one. -/
theorem branch_near {θ a s e e' f f' c d R' P X Λ G : ℝ} (θ0 : 0 < θ) (hθ1 : θ ≤ 1 / 600) (a0 : 0 < a) (s0 : 0 < s) (hXp : 0 < X) (pn0 : 0 < P) (hΛ0 : 0 < Λ) (hr : 0 < d)
    (hf : P + e * s = f) (hc : a * e - s = c) (hd : Real.sqrt (c * c + 4 * a * f) = d) (hrr : d * d = c * c + 4 * a * f) (hΛ : Λ * d = G) (he : |e| ≤ X) (hL2 : a * X + s ≤ Λ)
    (hYG : 4 * a * (P + X * s) ≤ G) (hCG : (a * X + s) * (a * X + s) ≤ G) (e1 : |e' - e| ≤ 3 * θ * X) (e2 : |f' - f| ≤ 7 * θ * (P + X * s))
    (e5 : |R' - (c + d) / (2 * a)| ≤ 19 * θ * (Λ / a)) :
    a * |(if 0 ≤ e' ∨ 0 ≤ f' then R' else 0) - if 0 ≤ e ∨ 0 ≤ f then (c + d) / (2 * a) else 0| ≤ 23 * θ * Λ := by
  have hfl : -(7 * θ * (P + X * s)) ≤ f ∨ ¬ (0 ≤ e' ∨ 0 ≤ f') := by
    have k1 := _root_.abs_le.1 e1
    have k2 := _root_.abs_le.1 e2
    by_cases hc1 : 0 ≤ e'
    · left
      have : -(3 * θ * X) ≤ e := by linarith [k1.2]
      have k3 := mul_le_mul_of_nonneg_right this s0.le
      have k4 : 0 < θ * (X * s) := by positivity
      have k5 : 0 < θ * P := by positivity
      rw [← hf]
      linarith
    · by_cases hc2 : 0 ≤ f'
      · left; linarith [k2.2]
      · right; exact fun hh => hh.elim hc1 hc2
  have hbase : a * |R' - (c + d) / (2 * a)| ≤ 19 * θ * Λ := by
    have := mul_le_mul_of_nonneg_left e5 a0.le
    refine this.trans (le_of_eq ?_)
    field_simp
  have hY7 : 4 * a * (7 * θ * (P + X * s)) ≤ 7 * θ * (Λ * d) := by
    rw [hΛ]
    have := mul_le_mul_of_nonneg_left hYG (by positivity : (0 : ℝ) ≤ 7 * θ)
    linarith
  -- how negative the exact root can be
  have hneg : e < 0 → -(7 * θ * (P + X * s)) ≤ f → f ≤ 0 → -(7 * θ * Λ) ≤ c + d ∧ c + d ≤ 0 := by
    intro k1 k2 k3
    have c0 : c < 0 := by rw [← hc]; have := mul_neg_of_pos_of_neg a0 k1; linarith
    have hid : (c + d) * (d - c) = 4 * a * f := by linarith [hrr]
    have dc : 0 < d - c := by linarith
    constructor
    · by_contra hcon
      have hcon := not_le.1 hcon
      have m1 : (c + d) * (d - c) < -(7 * θ * Λ) * (d - c) := mul_lt_mul_of_pos_right hcon dc
      have m2 : 7 * θ * Λ * d ≤ 7 * θ * Λ * (d - c) := mul_le_mul_of_nonneg_left (by linarith) (by positivity)
      have m3 := mul_le_mul_of_nonneg_left k2 (by linarith : (0 : ℝ) ≤ 4 * a)
      linarith
    · by_contra hcon
      have hcon := not_le.1 hcon
      have m1 := mul_pos hcon dc
      have m2 := mul_nonneg (by linarith : (0 : ℝ) ≤ 4 * a) (neg_nonneg.2 k3)
      linarith
  by_cases hin : 0 ≤ e ∨ 0 ≤ f
  · rw [if_pos hin]
    by_cases hin' : 0 ≤ e' ∨ 0 ≤ f'
    · rw [if_pos hin']
      have := mul_pos θ0 hΛ0
      linarith
    · rw [if_neg hin', zero_sub, abs_neg]
      have q1 : e' < 0 := not_le.1 fun hh => hin' (Or.inl hh)
      have q2 : f' < 0 := not_le.1 fun hh => hin' (Or.inr hh)
      have f1 : f ≤ 7 * θ * (P + X * s) := by linarith [(_root_.abs_le.1 e2).1]
      have ee : e ≤ 3 * θ * X := by linarith [(_root_.abs_le.1 e1).1]
      have f0 : 0 ≤ f := hin.elim (fun hh => by rw [← hf]; have := mul_nonneg hh s0.le; linarith) id
      have hpos : 0 ≤ c + d := by
        have m1 := mul_nonneg (by linarith : (0 : ℝ) ≤ 4 * a) f0
        have : |c| ≤ d := by rw [← hd]; exact Real.le_sqrt_of_sq_le (by rw [sq_abs]; nlinarith)
        linarith [(_root_.abs_le.1 this).1]
      have hup : c + d ≤ 12 * θ * Λ := by
        have m3 := mul_le_mul_of_nonneg_left f1 (by linarith : (0 : ℝ) ≤ 4 * a)
        rcases le_total c 0 with c0 | c0
        · have hid : (c + d) * (d - c) = 4 * a * f := by linarith [hrr]
          by_contra hcon
          have hcon := not_le.1 hcon
          have m1 : 12 * θ * Λ * d < (c + d) * d := mul_lt_mul_of_pos_right hcon hr
          have m2 : (c + d) * d ≤ (c + d) * (d - c) := mul_le_mul_of_nonneg_left (by linarith) hpos
          have m4 : 0 < θ * Λ * d := by positivity
          linarith
        · have c1 : c ≤ 3 * θ * Λ := by
            rw [← hc]
            have m1 := mul_le_mul_of_nonneg_left ee a0.le
            have m2 : θ * (a * X) ≤ θ * Λ := mul_le_mul_of_nonneg_left (by linarith) θ0.le
            linarith
          have c2 : c * c ≤ θ * (Λ * d) := by
            have m5 : c ≤ a * X := by
              rw [← hc]
              have := mul_le_mul_of_nonneg_left (le_of_abs_le he) a0.le
              linarith
            have m6 : a * X * (a * X) ≤ (a * X + s) * (a * X + s) := mul_self_le_mul_self (by positivity) (by linarith)
            have m7 : c ≤ 3 * θ * (a * X) := by
              rw [← hc]
              have m1 := mul_le_mul_of_nonneg_left ee a0.le
              linarith
            have m8 : c * c ≤ 3 * θ * (a * X) * (3 * θ * (a * X)) := mul_self_le_mul_self c0 m7
            have m9 : 3 * θ * (a * X) * (3 * θ * (a * X)) ≤ θ * (a * X * (a * X)) := by
              rw [show 3 * θ * (a * X) * (3 * θ * (a * X)) = 9 * θ * (θ * (a * X * (a * X))) by ring]
              have : 0 ≤ θ * (a * X * (a * X)) := by positivity
              nlinarith
            rw [hΛ]
            refine m8.trans (m9.trans ?_)
            exact mul_le_mul_of_nonneg_left (m6.trans hCG) θ0.le
          have hdd : d ≤ 8 * θ * Λ := by
            have m1 : d * d ≤ 8 * θ * Λ * d := by linarith [hrr]
            exact le_of_mul_le_mul_right m1 hr
          have := mul_pos θ0 hΛ0
          linarith
      rw [abs_of_nonneg (div_nonneg hpos (by linarith))]
      rw [show a * ((c + d) / (2 * a)) = (c + d) / 2 by field_simp]
      have := mul_pos θ0 hΛ0
      linarith
  · rw [if_neg hin]
    by_cases hin' : 0 ≤ e' ∨ 0 ≤ f'
    · rw [if_pos hin', sub_zero]
      have q1 : e < 0 := not_le.1 fun hh => hin (Or.inl hh)
      have q2 : f < 0 := not_le.1 fun hh => hin (Or.inr hh)
      obtain ⟨m1, m2⟩ := hneg q1 (hfl.resolve_right (not_not.2 hin')) q2.le
      have k := abs_add_le (R' - (c + d) / (2 * a)) ((c + d) / (2 * a))
      rw [sub_add_cancel] at k
      have k2 : a * |(c + d) / (2 * a)| ≤ 4 * θ * Λ := by
        rw [abs_div, abs_of_pos (by linarith : (0 : ℝ) < 2 * a), show a * (|c + d| / (2 * a)) = |c + d| / 2 by field_simp, abs_of_nonpos m2]
        have := mul_pos θ0 hΛ0
        linarith
      have k3 := mul_le_mul_of_nonneg_left k a0.le
      linarith
    · rw [if_neg hin', sub_self, abs_zero, mul_zero]
      positivity

theorem pgback_near {rnd} (h : Nearest rnd) {θ s s' bEst bErr a : ℝ} {n : ℕ} (hθ : 2 ^ (-52 : ℤ) ≤ θ) (hθ1 : θ ≤ 1 / 600) (hz : Sized s bEst bErr a) (hn : n ≤ 2 ^ 53)
    (hs : |s' - s| ≤ θ * s) :
    a * |pgback rnd s' n bEst bErr a - pgstatBackground s n bEst bErr a| ≤ 23 * θ * cancelled s n bEst bErr a ∧ 0 ≤ pgstatBackground s n bEst bErr a ∧
    2 ^ (-120 : ℤ) ≤ cancelled s n bEst bErr a := by
  have a0 : 0 < a := (two_zpow_pos _).trans_le hz.ratio.1
  have s0 : 0 < s := (two_zpow_pos _).trans_le hz.source.1
  have θ0 : 0 < θ := (two_zpow_pos _).trans_le hθ
  have hv := prod_bounds (r := -60) (r' := 60) hz.err hz.err (by norm_num) (by norm_num)
  have hp := prod_bounds (r := -90) (r' := 90) hz.ratio hv (by norm_num) (by norm_num)
  have hX : 2 ^ (-90 : ℤ) ≤ |bEst| + a * (bErr * bErr) ∧ |bEst| + a * (bErr * bErr) ≤ (2 : ℝ) ^ (91 : ℤ) := by
    have := plus_bounds (r := 91) hp ⟨abs_nonneg bEst, hz.est⟩ (by norm_num) (by norm_num)
    rwa [add_comm] at this
  have hA := prod_bounds (r := -120) (r' := 121) hz.ratio hX (by norm_num) (by norm_num)
  have v0 : 0 < bErr * bErr := (two_zpow_pos _).trans_le hv.1
  have e0 := variance_near h hθ hθ1 a0 (wide hv (by norm_num) (by norm_num)) (wide hp (by norm_num) (by norm_num))
  have p0 : 0 < a * (bErr * bErr) := mul_pos a0 v0
  have e1 := excess_near h hθ hθ1 p0.le e0 (wide hX (by norm_num) (by norm_num))
  have he : |bEst - a * (bErr * bErr)| ≤ |bEst| + a * (bErr * bErr) := (abs_sub _ _).trans (by rw [abs_of_pos p0])
  unfold pgback pgstatBackground
  dsimp only
  rcases Nat.eq_zero_or_pos n with hn0 | hn0
  · subst hn0
    unfold cancelled
    rw [if_pos Nat.cast_zero]
    have f0 : rnd 0 = 0 := h.fix rep_zero (by rw [abs_zero]; exact (two_zpow_pos _).le)
    have hlt : ¬ (0 : ℝ) < ((0 : ℕ) : ℝ) := by simp
    rw [if_neg hlt, if_neg hlt, Nat.cast_zero, mul_zero, mul_zero, f0, zero_add, zero_add]
    generalize hE : rnd (bEst - rnd (a * rnd (bErr * bErr))) = E at *
    generalize he' : bEst - a * (bErr * bErr) = e at *
    generalize hXX : |bEst| + a * (bErr * bErr) = X at *
    have X0 : 0 < X := (two_zpow_pos _).trans_le hX.1
    have hcond : (0 ≤ e ∨ 0 ≤ e * s) ↔ 0 ≤ e := ⟨fun hh => hh.elim id fun h2 => nonneg_of_mul_nonneg_left h2 s0, Or.inl⟩
    have hb : (if 0 ≤ e ∨ 0 ≤ e * s then e else 0) = max e 0 := by
      by_cases h0 : 0 ≤ e
      · rw [if_pos (Or.inl h0), max_eq_left h0]
      · rw [if_neg (fun hh => h0 (hcond.1 hh)), max_eq_right (not_le.1 h0).le]
    rw [hb]
    refine ⟨?_, le_max_right _ _, hA.1⟩
    have key := empty_near h hθ hθ1 hz.source hs hX he e1
    refine (mul_le_mul_of_nonneg_left key a0.le).trans ?_
    have : 0 < θ * (a * X) := by positivity
    linarith
  · have hn1 : (1 : ℝ) ≤ n := by exact_mod_cast hn0
    have n0 : (0 : ℝ) < n := by linarith
    have hnb : (2 : ℝ) ^ (0 : ℤ) ≤ n ∧ (n : ℝ) ≤ 2 ^ (53 : ℤ) := ⟨by simpa using hn1, by exact_mod_cast hn⟩
    unfold cancelled
    rw [if_neg n0.ne', if_pos n0, if_pos n0]
    have hpn := prod_bounds (r := -90) (r' := 143) hp hnb (by norm_num) (by norm_num)
    have hXs := prod_bounds (r := -190) (r' := 141) hX hz.source (by norm_num) (by norm_num)
    have hY := plus_bounds (r := 144) hpn ⟨(two_zpow_pos _).le.trans hXs.1, hXs.2⟩ (by norm_num) (by norm_num)
    have hC := plus_bounds (r := 122) hA ⟨s0.le, hz.source.2⟩ (by norm_num) (by norm_num)
    have hCC := prod_bounds (r := -240) (r' := 244) hC hC (by norm_num) (by norm_num)
    have h2 : (2 : ℝ) ^ (1 : ℤ) ≤ 2 ∧ (2 : ℝ) ≤ 2 ^ (1 : ℤ) := by norm_num
    have h4 : (2 : ℝ) ^ (2 : ℤ) ≤ 4 ∧ (4 : ℝ) ≤ 2 ^ (2 : ℤ) := by norm_num
    have h2a := prod_bounds (r := -29) (r' := 31) h2 hz.ratio (by norm_num) (by norm_num)
    have h4a := prod_bounds (r := -28) (r' := 32) h4 hz.ratio (by norm_num) (by norm_num)
    have h4aY := prod_bounds (r := -118) (r' := 176) h4a hY (by norm_num) (by norm_num)
    have hvar : 2 ^ (-118 : ℤ) ≤ 4 * a * (a * (bErr * bErr) * n) ∧ 4 * a * (a * (bErr * bErr) * n) ≤ (2 : ℝ) ^ (175 : ℤ) :=
      prod_bounds h4a hpn (by norm_num) (by norm_num)
    have hG := plus_bounds (r := 245) hCC ⟨(two_zpow_pos _).le.trans hvar.1, hvar.2⟩ (by norm_num) (by norm_num)
    have hGd : grossDisc s n bEst bErr a = (a * (|bEst| + a * (bErr * bErr)) + s) * (a * (|bEst| + a * (bErr * bErr)) + s) + 4 * a * (a * (bErr * bErr) * n) := by
      unfold grossDisc; ring
    have hDd : netDisc s n bEst bErr a = (a * (bEst - a * (bErr * bErr)) - s) * (a * (bEst - a * (bErr * bErr)) - s) +
        4 * a * (a * (bErr * bErr) * n + (bEst - a * (bErr * bErr)) * s) := by
      unfold netDisc; ring
    have hD1 : 2 ^ (-118 : ℤ) ≤ netDisc s n bEst bErr a := by
      refine hvar.1.trans ?_
      unfold netDisc
      have := sq_nonneg (a * (bEst - a * (bErr * bErr)) + s)
      linarith
    have hDG : netDisc s n bEst bErr a ≤ grossDisc s n bEst bErr a := by
      unfold netDisc grossDisc
      have k1 := _root_.abs_le.1 he
      have k2 : a * (bEst - a * (bErr * bErr)) ≤ a * (|bEst| + a * (bErr * bErr)) := mul_le_mul_of_nonneg_left k1.2 a0.le
      have k3 : a * -(|bEst| + a * (bErr * bErr)) ≤ a * (bEst - a * (bErr * bErr)) := mul_le_mul_of_nonneg_left k1.1 a0.le
      have : (a * (bEst - a * (bErr * bErr)) + s) ^ 2 ≤ (a * (|bEst| + a * (bErr * bErr)) + s) ^ 2 := by
        apply sq_le_sq'
        · linarith
        · linarith
      linarith
    have e2 := slope_near h hθ hθ1 p0 n0 s0 e0 he e1 hs (wide hpn (by norm_num) (by norm_num)) (wide hXs (by norm_num) (by norm_num)) (wide hY (by norm_num) (by norm_num))
    have e3 := linear_near h hθ hθ1 a0 s0 he e1 hs (wide hA (by norm_num) (by norm_num)) (wide hC (by norm_num) (by norm_num))
    have D0 : 0 < netDisc s n bEst bErr a := (two_zpow_pos _).trans_le hD1
    have hr : 0 < Real.sqrt (netDisc s n bEst bErr a) := Real.sqrt_pos.2 D0
    have hrr := Real.mul_self_sqrt D0.le
    have hC0 : 0 ≤ a * (|bEst| + a * (bErr * bErr)) + s := (two_zpow_pos _).le.trans hC.1
    have hG0 : 0 < grossDisc s n bEst bErr a := D0.trans_le hDG
    -- the gross discriminant over the root bounds its parts
    have hL1 : Real.sqrt (netDisc s n bEst bErr a) ≤ grossDisc s n bEst bErr a / Real.sqrt (netDisc s n bEst bErr a) := by
      rw [le_div_iff₀ hr, hrr]; exact hDG
    have hCG : (a * (|bEst| + a * (bErr * bErr)) + s) * (a * (|bEst| + a * (bErr * bErr)) + s) ≤ grossDisc s n bEst bErr a := by
      rw [hGd]; have := (two_zpow_pos _).le.trans hvar.1; linarith
    have hL2 : a * (|bEst| + a * (bErr * bErr)) + s ≤ grossDisc s n bEst bErr a / Real.sqrt (netDisc s n bEst bErr a) := by
      rw [le_div_iff₀ hr]
      by_contra hcon
      have hcon := not_le.1 hcon
      have k1 : Real.sqrt (netDisc s n bEst bErr a) * Real.sqrt (netDisc s n bEst bErr a) ≤ grossDisc s n bEst bErr a := by rw [hrr]; exact hDG
      generalize Real.sqrt (netDisc s n bEst bErr a) = r at *
      generalize a * (|bEst| + a * (bErr * bErr)) + s = C at *
      clear hC hCC hG hY h4aY hvar hD1 hnb hpn hXs hX hA hv hp e1 e2 e3
      nlinarith [mul_self_nonneg (C - r)]
    have hYG : 4 * a * (a * (bErr * bErr) * n + (|bEst| + a * (bErr * bErr)) * s) ≤ grossDisc s n bEst bErr a := by
      rw [hGd]
      have := sq_nonneg (a * (|bEst| + a * (bErr * bErr)) - s)
      linarith
    have hG245 : grossDisc s n bEst bErr a ≤ (2 : ℝ) ^ (245 : ℤ) := by rw [hGd]; exact hG.2
    have hLup : grossDisc s n bEst bErr a / Real.sqrt (netDisc s n bEst bErr a) ≤ (2 : ℝ) ^ (304 : ℤ) := by
      have k : (2 : ℝ) ^ (-59 : ℤ) ≤ Real.sqrt (netDisc s n bEst bErr a) := by
        apply Real.le_sqrt_of_sq_le
        refine le_trans (le_of_eq ?_) hD1
        norm_num
      rw [div_le_iff₀ hr]
      refine hG245.trans (le_trans ?_ (mul_le_mul_of_nonneg_left k (two_zpow_pos _).le))
      rw [← zpow_add₀ (by norm_num)]
      exact zpow_le (by norm_num)
    have hLlow : (2 : ℝ) ^ (-120 : ℤ) ≤ grossDisc s n bEst bErr a / Real.sqrt (netDisc s n bEst bErr a) := hC.1.trans hL2
    have hL := (⟨hLlow, hLup⟩ : 2 ^ (-120 : ℤ) ≤ grossDisc s n bEst bErr a / Real.sqrt (netDisc s n bEst bErr a) ∧ _)
    have h2L := prod_bounds (r := -119) (r' := 305) h2 hL (by norm_num) (by norm_num)
    have hLa : 2 ^ (-150 : ℤ) ≤ grossDisc s n bEst bErr a / Real.sqrt (netDisc s n bEst bErr a) / a ∧
        grossDisc s n bEst bErr a / Real.sqrt (netDisc s n bEst bErr a) / a ≤ (2 : ℝ) ^ (334 : ℤ) := by
      have := div_in hL hz.ratio
      exact ⟨(zpow_le (by norm_num)).trans this.1, this.2.trans (zpow_le (by norm_num))⟩
    have hcC : |a * (bEst - a * (bErr * bErr)) - s| ≤ a * (|bEst| + a * (bErr * bErr)) + s := by
      refine (abs_sub _ _).trans ?_
      rw [abs_mul, abs_of_pos a0, abs_of_pos s0]
      exact add_le_add (mul_le_mul_of_nonneg_left he a0.le) (le_refl _)
    have hfY : |a * (bErr * bErr) * n + (bEst - a * (bErr * bErr)) * s| ≤ a * (bErr * bErr) * n + (|bEst| + a * (bErr * bErr)) * s := by
      refine (abs_add_le _ _).trans (add_le_add (le_of_eq (abs_of_pos (mul_pos p0 n0))) ?_)
      rw [abs_mul, abs_of_pos s0]
      exact mul_le_mul_of_nonneg_right he s0.le
    rw [hDd] at D0 hDG hL1 hL2 hLlow hL h2L hLa hr hrr hLup ⊢
    have e4 := disc_near h hθ hθ1 a0 hcC e3 hfY e2 hCG hYG D0 hDG (wide h4a (by norm_num) (by norm_num)) (wide h4aY (by norm_num) (by norm_num))
      (wide hCC (by norm_num) (by norm_num)) ⟨(zpow_le (by norm_num)).trans (hCC.1.trans hCG), hG245.trans (zpow_le (by norm_num))⟩ (wide hL (by norm_num) (by norm_num))
    have e5 := quot_near h hθ hθ1 a0 hcC e3 ((abs_of_pos hr).le.trans hL1) e4 hL2 (wide h2a (by norm_num) (by norm_num)) (wide h2L (by norm_num) (by norm_num))
      (wide hLa (by norm_num) (by norm_num))
    clear hCC hG h4aY hvar hD1 hnb hG245 hLup hL h2L hLa hC hY hXs hpn h2a h4a h2 h4 hGd hDd e4 e0
    generalize hU : rnd (rnd (rnd (rnd (a * rnd (bEst - rnd (a * rnd (bErr * bErr)))) - s') + root rnd (rnd (rnd (a * rnd (bEst - rnd (a * rnd (bErr * bErr)))) - s'))
      (rnd (rnd (4 * a) * rnd (rnd (rnd (a * rnd (bErr * bErr)) * n) + rnd (rnd (bEst - rnd (a * rnd (bErr * bErr))) * s'))))) / rnd (2 * a)) = R' at *
    generalize rnd (rnd (rnd (a * rnd (bErr * bErr)) * n) + rnd (rnd (bEst - rnd (a * rnd (bErr * bErr))) * s')) = f' at *
    generalize rnd (bEst - rnd (a * rnd (bErr * bErr))) = e' at *
    clear e3
    have hfe : a * (bErr * bErr) * n + (bEst - a * (bErr * bErr)) * s = a * (bErr * bErr) * n + (bEst - a * (bErr * bErr)) * s := rfl
    generalize bEst - a * (bErr * bErr) = e at *
    have hXp : 0 < |bEst| + a * (bErr * bErr) := (two_zpow_pos _).trans_le hX.1
    have pn0 : 0 < a * (bErr * bErr) * n := mul_pos p0 n0
    generalize |bEst| + a * (bErr * bErr) = X at *
    generalize a * (bErr * bErr) * (n : ℝ) = P at *
    generalize grossDisc s n bEst bErr a = G at *
    have hlow : (2 : ℝ) ^ (-120 : ℤ) ≤ G / Real.sqrt ((a * e - s) * (a * e - s) + 4 * a * (P + e * s)) := hLlow
    clear hLlow hA hX hv hp
    generalize hf : P + e * s = f at *
    generalize hc : a * e - s = c at *
    generalize hd : Real.sqrt (c * c + 4 * a * f) = d at *
    have hΛ0 : 0 < G / d := div_pos hG0 hr
    have hΛ : G / d * d = G := div_mul_cancel₀ G hr.ne'
    generalize G / d = Λ at *
    refine ⟨branch_near θ0 hθ1 a0 s0 hXp pn0 hΛ0 hr hf hc hd hrr hΛ he hL2 hYG hCG e1 e2 e5, ?_, hlow⟩
    split
    · rename_i hin
      have f0 : 0 ≤ f := hin.elim (fun hh => by rw [← hf]; have := mul_nonneg hh s0.le; linarith) id
      have m1 := mul_nonneg (by linarith : (0 : ℝ) ≤ 4 * a) f0
      have : |c| ≤ d := by rw [← hd]; exact Real.le_sqrt_of_sq_le (by rw [sq_abs]; nlinarith)
      exact div_nonneg (by linarith [(_root_.abs_le.1 this).1]) (by linarith)
    · exact le_refl _

/-! ## The term of the background -/

theorem normal_abs {rnd} (h : Nearest rnd) {θ v m m' σ W : ℝ} (hθ : 2 ^ (-52 : ℤ) ≤ θ) (hθ1 : θ ≤ 1 / 600) (σ0 : 0 < σ) (hm : |v - m| ≤ W) (hmm : |m' - m| ≤ 23 * θ * W) (m1 : Mid W)
    (m2 : Mid (W / σ)) (m3 : Mid ((W / σ) ^ 2)) (hS : W / σ ≤ 2 ^ (200 : ℤ)) :
    |normalF rnd v m' σ - normalLogProb v m σ| ≤ 29 * θ * (W / σ) ^ 2 ∧ normalF rnd v m' σ ≤ 0 ∧ |normalLogProb v m σ| ≤ (W / σ) ^ 2 := by
  have θ0 : 0 < θ := (two_zpow_pos _).trans_le hθ
  have h1 := carry h (k := 23) hθ (a := v - m') (x := v - m) hm (by rwa [show v - m' - (v - m) = -(m' - m) by ring, abs_neg]) (by linarith) m1
  have ht : |(v - m) / σ| ≤ W / σ := by
    rw [abs_div, abs_of_pos σ0]
    exact div_le_div_of_nonneg_right hm σ0.le
  have h2 := carry h (k := 24) hθ (a := rnd (v - m') / σ) (x := (v - m) / σ) ht (by
    rw [← sub_div, abs_div, abs_of_pos σ0, ← mul_div_assoc]
    refine div_le_div_of_nonneg_right (h1.trans (le_of_eq ?_)) σ0.le
    ring) (by linarith) m2
  have hN : ∀ hz, normalF rnd v m' σ ≤ 0 := normalF_nonpos h
  unfold normalLogProb
  unfold normalF at hN ⊢
  generalize W / σ = S at *
  generalize (v - m) / σ = t at *
  have S0 : 0 < S := (two_zpow_pos _).trans_le m2.1
  have hzS : |rnd (rnd (v - m') / σ)| ≤ 25 / 24 * S := by
    have := abs_add_le (rnd (rnd (v - m') / σ) - t) t
    rw [sub_add_cancel] at this
    have k : 25 * θ * S ≤ 1 / 24 * S := mul_le_mul_of_nonneg_right (by linarith) S0.le
    linarith
  have hz400 : |rnd (rnd (v - m') / σ)| ≤ 2 ^ (400 : ℤ) := by
    refine hzS.trans ((mul_le_mul (by norm_num : (25 / 24 : ℝ) ≤ 2 ^ (1 : ℤ)) hS S0.le (two_zpow_pos _).le).trans ?_)
    rw [← zpow_add₀ (by norm_num)]
    exact zpow_le (by norm_num)
  have htt : |-1 / 2 * t * t| ≤ S ^ 2 := by
    rw [mul_assoc, abs_mul, abs_mul, show |(-1 / 2 : ℝ)| = 1 / 2 by norm_num [abs_of_neg]]
    have := mul_le_mul ht ht (abs_nonneg _) S0.le
    have := mul_nonneg (abs_nonneg t) (abs_nonneg t)
    rw [pow_two]
    linarith
  refine ⟨?_, hN hz400, htt⟩
  clear hz400 hN hS
  generalize rnd (rnd (v - m') / σ) = z at *
  have hth : |-1 / 2 * t| ≤ 1 / 2 * S := by
    rw [abs_mul, show |(-1 / 2 : ℝ)| = 1 / 2 by norm_num [abs_of_neg]]
    linarith
  have h3 := carry h (k := 13) hθ (a := -1 / 2 * z) (x := -1 / 2 * t) (L := S) (hth.trans (by linarith)) (by
    rw [← mul_sub, abs_mul, show |(-1 / 2 : ℝ)| = 1 / 2 by norm_num [abs_of_neg]]
    have := mul_pos θ0 S0
    linarith) (by linarith) m2
  have h4 := carry h (k := 28) hθ (a := rnd (-1 / 2 * z) * z) (x := -1 / 2 * t * t) htt (by
    rw [show rnd (-1 / 2 * z) * z - -1 / 2 * t * t = (rnd (-1 / 2 * z) - -1 / 2 * t) * z + -1 / 2 * t * (z - t) by ring]
    refine (abs_add_le _ _).trans ?_
    rw [abs_mul, abs_mul _ (z - t)]
    have p1 := mul_le_mul h3 hzS (abs_nonneg _) ((abs_nonneg _).trans h3)
    have p2 := mul_le_mul hth h2 (abs_nonneg _) (by linarith)
    refine (add_le_add p1 p2).trans ?_
    have := mul_pos θ0 (mul_pos S0 S0)
    rw [pow_two]
    linarith) (by linarith) m3
  refine h4.trans (le_of_eq ?_)
  ring

/-! ## One channel -/

/-- How much larger than the expected counts the numbers are that cancel in the profile background (specification, C155). -/
noncomputable def pgLoss (s n bEst bErr a : ℝ) : ℝ := (s + cancelled s n bEst bErr a) / (s + a * pgstatBackground s n bEst bErr a)

/-- The size of the two terms of the PG-statistic of a channel (specification, C155): the size of the Poisson term, and the square of the magnitudes of the background estimate, the
profile background and what cancels in it, over the uncertainty. -/
noncomputable def pgSize (s n bEst bErr a : ℝ) : ℝ :=
  bulk n (s + a * pgstatBackground s n bEst bErr a) + ((|bEst| + pgstatBackground s n bEst bErr a + cancelled s n bEst bErr a / a) / bErr) ^ 2

theorem pg_channel {rnd lg} (h : Nearest rnd) (hl : Accurate lg) (sparse : Bool) {θ s s' bEst bErr a : ℝ} {n : ℕ} (hθ : 2 ^ (-52 : ℤ) ≤ θ) (hz : Sized s bEst bErr a) (hn : n ≤ 2 ^ 53)
    (hs : |s' - s| ≤ θ * s) (hμ : s + a * pgstatBackground s n bEst bErr a ≤ 2 ^ (56 : ℤ)) (hloss : θ * (1 + pgLoss s n bEst bErr a) ≤ 1 / 600) :
    |pgLoglikeF rnd lg sparse s' n bEst bErr a - (poissonLogProb n (s + a * pgstatBackground s n bEst bErr a) + normalLogProb bEst (pgstatBackground s n bEst bErr a) bErr)|
      ≤ 69 * θ * ((1 + pgLoss s n bEst bErr a) * pgSize s n bEst bErr a) ∧
    pgLoglikeF rnd lg sparse s' n bEst bErr a ≤ 0 ∧
    (2 ^ (-200 : ℤ) ≤ pgSize s n bEst bErr a ∧ pgSize s n bEst bErr a ≤ 2 ^ (323 : ℤ)) ∧
    |poissonLogProb n (s + a * pgstatBackground s n bEst bErr a) + normalLogProb bEst (pgstatBackground s n bEst bErr a) bErr| ≤ pgSize s n bEst bErr a ∧
    0 ≤ pgLoss s n bEst bErr a ∧ 1 + pgLoss s n bEst bErr a ≤ 2 ^ (43 : ℤ) := by
  have a0 : 0 < a := (two_zpow_pos _).trans_le hz.ratio.1
  have s0 : 0 < s := (two_zpow_pos _).trans_le hz.source.1
  have θ0 : 0 < θ := (two_zpow_pos _).trans_le hθ
  have σ0 : 0 < bErr := (two_zpow_pos _).trans_le hz.err.1
  have κ0 : 0 ≤ pgLoss s n bEst bErr a := by
    have : 0 ≤ pgstatBackground s n bEst bErr a ∧ 0 ≤ cancelled s n bEst bErr a := by
      obtain ⟨-, q2, q3⟩ := pgback_near (θ := 1 / 600) h (s' := s) (by norm_num) (le_refl _) hz hn (by rw [sub_self, abs_zero]; positivity)
      exact ⟨q2, (two_zpow_pos _).le.trans q3⟩
    unfold pgLoss
    obtain ⟨q1, q2⟩ := this
    positivity
  have hθ1 : θ ≤ 1 / 600 := by
    refine le_trans ?_ hloss
    have := mul_nonneg θ0.le κ0
    linarith
  have κ2 : 1 + pgLoss s n bEst bErr a ≤ 2 ^ (43 : ℤ) := by
    have k1 : 2 ^ (-52 : ℤ) * (1 + pgLoss s n bEst bErr a) ≤ 2 ^ (-52 : ℤ) * 2 ^ (43 : ℤ) :=
      ((mul_le_mul_of_nonneg_right hθ (by linarith)).trans hloss).trans (by norm_num)
    exact le_of_mul_le_mul_left k1 (two_zpow_pos _)
  obtain ⟨hA, b0, L1⟩ := pgback_near h hθ hθ1 hz hn hs
  have hκ : pgLoss s n bEst bErr a * (s + a * pgstatBackground s n bEst bErr a) = s + cancelled s n bEst bErr a := by
    unfold pgLoss
    have : 0 < s + a * pgstatBackground s n bEst bErr a := by positivity
    exact div_mul_cancel₀ _ this.ne'
  unfold pgLoglikeF pgSize
  generalize pgback rnd s' n bEst bErr a = b' at *
  generalize pgstatBackground s n bEst bErr a = b at *
  generalize pgLoss s n bEst bErr a = κ at *
  generalize cancelled s n bEst bErr a = Λ at *
  have Λ0 : 0 < Λ := (two_zpow_pos _).trans_le L1
  have ab0 := mul_nonneg a0.le b0
  have μ1 : 2 ^ (-100 : ℤ) ≤ s + a * b := hz.source.1.trans (by linarith)
  have μ0 : 0 < s + a * b := (two_zpow_pos _).trans_le μ1
  have hz52 : (2 : ℝ) ^ (-52 : ℤ) ≤ 1 / 10000 := by norm_num
  have z0 := two_zpow_pos (-52)
  -- the source region
  have hon := onRate_near h (s' := s') (b' := b') (η := 24 * θ * κ) s0.le a0.le b0 (by linarith) (by
    rw [mul_assoc, hκ]
    have := mul_pos θ0 s0
    have := mul_pos θ0 Λ0
    linarith) ((zpow_le (by norm_num)).trans μ1) (hμ.trans (zpow_le (by norm_num)))
  have E1 := term_error h hl sparse hn ((zpow_le (by norm_num)).trans μ1) hμ (by linarith) hon
  have B1 := bulk_bounds hn ((zpow_le (by norm_num)).trans μ1) (hμ.trans (zpow_le (by norm_num)))
  have X1 := exact_le (n := n) μ0
  have B0 : 0 < bulk n (s + a * b) := (two_zpow_pos _).trans_le B1.1
  -- the background
  have hb86 : b ≤ (2 : ℝ) ^ (86 : ℤ) := by
    have k1 : 2 ^ (-30 : ℤ) * b ≤ 2 ^ (-30 : ℤ) * (2 : ℝ) ^ (86 : ℤ) := by
      refine (mul_le_mul_of_nonneg_right hz.ratio.1 b0).trans (le_trans (by linarith : a * b ≤ s + a * b) (hμ.trans ?_))
      rw [← zpow_add₀ (by norm_num)]
      exact zpow_le (by norm_num)
    exact le_of_mul_le_mul_left k1 (two_zpow_pos _)
  have hΛ99 : Λ ≤ (2 : ℝ) ^ (99 : ℤ) := by
    have k1 : κ * (s + a * b) ≤ 2 ^ (43 : ℤ) * 2 ^ (56 : ℤ) := mul_le_mul (by linarith) hμ μ0.le (two_zpow_pos _).le
    rw [hκ, ← zpow_add₀ (by norm_num)] at k1
    exact le_trans (by linarith) k1
  have hΛa : 2 ^ (-150 : ℤ) ≤ Λ / a ∧ Λ / a ≤ (2 : ℝ) ^ (129 : ℤ) := by
    have := div_in ⟨L1, hΛ99⟩ hz.ratio
    exact ⟨(zpow_le (by norm_num)).trans this.1, this.2.trans (zpow_le (by norm_num))⟩
  have hW : 2 ^ (-150 : ℤ) ≤ |bEst| + b + Λ / a ∧ |bEst| + b + Λ / a ≤ (2 : ℝ) ^ (131 : ℤ) := by
    have k1 := plus_bounds (r := 130) hΛa ⟨b0, hb86⟩ (by norm_num) (by norm_num)
    have k2 := plus_bounds (r := 131) k1 ⟨abs_nonneg bEst, hz.est⟩ (by norm_num) (by norm_num)
    rwa [show Λ / a + b + |bEst| = |bEst| + b + Λ / a by ring] at k2
  have hS : 2 ^ (-180 : ℤ) ≤ (|bEst| + b + Λ / a) / bErr ∧ (|bEst| + b + Λ / a) / bErr ≤ (2 : ℝ) ^ (161 : ℤ) := by
    have := div_in hW hz.err
    exact ⟨(zpow_le (by norm_num)).trans this.1, this.2.trans (zpow_le (by norm_num))⟩
  have hSS : 2 ^ (-360 : ℤ) ≤ ((|bEst| + b + Λ / a) / bErr) ^ 2 ∧ ((|bEst| + b + Λ / a) / bErr) ^ 2 ≤ (2 : ℝ) ^ (322 : ℤ) := by
    rw [pow_two]
    exact prod_bounds hS hS (by norm_num) (by norm_num)
  have hbb : |b' - b| ≤ 23 * θ * (|bEst| + b + Λ / a) := by
    have k1 : |b' - b| ≤ 23 * θ * (Λ / a) := by
      rw [← mul_div_assoc, le_div_iff₀ a0, mul_comm]
      exact hA
    refine k1.trans (mul_le_mul_of_nonneg_left ?_ (by positivity))
    linarith [abs_nonneg bEst]
  have hbe : |bEst - b| ≤ |bEst| + b + Λ / a := by
    refine (abs_sub _ _).trans ?_
    rw [abs_of_nonneg b0]
    have := div_pos Λ0 a0
    linarith
  obtain ⟨E2, N2, X2⟩ := normal_abs h hθ hθ1 σ0 hbe hbb (wide hW (by norm_num) (by norm_num)) (wide hS (by norm_num) (by norm_num)) (wide hSS (by norm_num) (by norm_num))
    (hS.2.trans (zpow_le (by norm_num)))
  generalize ((|bEst| + b + Λ / a) / bErr) ^ 2 = Q at *
  have Q0 : 0 < Q := (two_zpow_pos _).trans_le hSS.1
  have hT : 2 ^ (-200 : ℤ) ≤ bulk n (s + a * b) + Q ∧ bulk n (s + a * b) + Q ≤ (2 : ℝ) ^ (323 : ℤ) :=
    plus_bounds B1 ⟨Q0.le, hSS.2⟩ (by norm_num) (by norm_num)
  have X : |poissonLogProb n (s + a * b) + normalLogProb bEst b bErr| ≤ bulk n (s + a * b) + Q := (abs_add_le _ _).trans (add_le_add X1 X2)
  have E : |poissonF rnd lg sparse n (onRate rnd s' a b') + normalF rnd bEst b' bErr - (poissonLogProb n (s + a * b) + normalLogProb bEst b bErr)|
      ≤ 68 * (1 + κ) * θ * (bulk n (s + a * b) + Q) := by
    rw [add_sub_add_comm]
    refine (abs_add_le _ _).trans ((add_le_add E1 E2).trans ?_)
    clear hT hSS hS hW hΛa hΛ99 hb86 B1 E1 E2 μ1 hμ hon L1 κ2
    generalize (2 : ℝ) ^ (-52 : ℤ) = z at *
    generalize bulk n (s + a * b) = P at *
    have q1 : 68 * z * P ≤ 68 * θ * P := mul_le_mul_of_nonneg_right (by linarith) B0.le
    have q2 : 0 ≤ θ * κ * P := by positivity
    have q3 : 0 ≤ θ * κ * Q := by positivity
    have q4 : 0 < θ * Q := by positivity
    linarith
  have hr := carry h (k := 68 * (1 + κ)) hθ X E (by linarith) (wide hT (by norm_num) (by norm_num))
  have hneg : poissonF rnd lg sparse n (onRate rnd s' a b') + normalF rnd bEst b' bErr ≤ 0 := add_nonpos (poissonF_nonpos ..) N2
  have hT0 : 0 < bulk n (s + a * b) + Q := add_pos B0 Q0
  refine ⟨hr.trans ?_, ?_, hT, X, κ0, κ2⟩
  · have q1 : 0 ≤ κ * θ * (bulk n (s + a * b) + Q) := by positivity
    linarith
  · refine h.le ?_ rep_zero hneg
    have k := abs_add_le (poissonF rnd lg sparse n (onRate rnd s' a b') + normalF rnd bEst b' bErr - (poissonLogProb n (s + a * b) + normalLogProb bEst b bErr))
      (poissonLogProb n (s + a * b) + normalLogProb bEst b bErr)
    rw [sub_add_cancel] at k
    have k2 : 68 * (1 + κ) * θ * (bulk n (s + a * b) + Q) ≤ 1 * (bulk n (s + a * b) + Q) := mul_le_mul_of_nonneg_right (by linarith) hT0.le
    have k3 : |poissonF rnd lg sparse n (onRate rnd s' a b') + normalF rnd bEst b' bErr| ≤ 2 * (bulk n (s + a * b) + Q) := by linarith
    refine k3.trans ((mul_le_mul (by norm_num : (2 : ℝ) ≤ 2 ^ (1 : ℤ)) hT.2 hT0.le (two_zpow_pos _).le).trans ?_)
    rw [← zpow_add₀ (by norm_num)]
    exact zpow_le (by norm_num)

/-! ## The statistic -/

/-- The profile background of a channel in exact arithmetic (likelihood.py:41-86, 354). -/
noncomputable def pgProfiled (d : FitData) (b : FitBack) (unfold : List ℝ) (j : ℕ) : ℝ :=
  pgstatBackground (d.sourceCounts unfold j) (nth d.specCounts j) (nth b.counts j) (nth b.errors j) (nth b.ratio j)

/-- `pgLoss` of a channel of a data set (specification, C155). -/
noncomputable def pgLossAt (d : FitData) (b : FitBack) (unfold : List ℝ) (j : ℕ) : ℝ :=
  pgLoss (d.sourceCounts unfold j) (nth d.specCounts j) (nth b.counts j) (nth b.errors j) (nth b.ratio j)

/-- `pgSize` of a channel of a data set (specification, C155). -/
noncomputable def pgSizeAt (d : FitData) (b : FitBack) (unfold : List ℝ) (j : ℕ) : ℝ :=
  pgSize (d.sourceCounts unfold j) (nth d.specCounts j) (nth b.counts j) (nth b.errors j) (nth b.ratio j)

/-- **C155.** The PG-statistic of a data set as computed in float64, from the product with the response to the profile background and the sum over the channels, differs from the exact
one by at most `2 ^ -50` times the sum over the channels of the size of their terms, times the number of operations a channel goes through (35 times the photon bins, the channels and
142 more), times one more than the ratio of what cancels in the profile background to the expected counts, in whatever order the sums are taken and whichever branch of the profile
background the computed numbers select. -/
theorem C155_pgstat {F : Impl} (h : F.Legal) {lg : ℝ → ℝ} (hl : Accurate lg) (sparse : Bool) {d : FitData} {b : FitBack} {unfold : List ℝ} {progs : ℕ → Prog}
    (hs : Folded d unfold progs) (hback : d.back = some b) (ha : ∀ j < d.size, 2 ^ (-30 : ℤ) ≤ nth b.ratio j ∧ nth b.ratio j ≤ 2 ^ (30 : ℤ))
    (hn : ∀ j < d.size, ∃ n : ℕ, nth d.specCounts j = n ∧ n ≤ 2 ^ 53) (hb : ∀ j < d.size, |nth b.counts j| ≤ 2 ^ (60 : ℤ))
    (hσ : ∀ j < d.size, 2 ^ (-30 : ℤ) ≤ nth b.errors j ∧ nth b.errors j ≤ 2 ^ (30 : ℤ))
    (hμ : ∀ j < d.size, d.sourceCounts unfold j + nth b.ratio j * pgProfiled d b unfold j ≤ 2 ^ (56 : ℤ))
    (hloss : ∀ j < d.size, (((progs j).size : ℝ) + 4) * 2 ^ (-52 : ℤ) * (1 + pgLossAt d b unfold j) ≤ 1 / 600)
    {sites : Sites} (hsites : likelihood .pgstat d unfold = .ok sites) :
    |pgDevianceF F lg sparse d b progs - (deviance (getLoglike [sites])).total| ≤
      ((List.range d.size).map fun j : ℕ => (35 * ((progs j).size : ℝ) + 103 + d.size + 39) * 2 ^ (-50 : ℤ) * ((1 + pgLossAt d b unfold j) * pgSizeAt d b unfold j)).sum := by
  have hex : (deviance (getLoglike [sites])).total = -2 * ((List.range d.size).map fun j : ℕ =>
      poissonLogProb (nth d.specCounts j) (d.sourceCounts unfold j + nth b.ratio j * pgProfiled d b unfold j) +
      normalLogProb (nth b.counts j) (pgProfiled d b unfold j) (nth b.errors j)).sum := by
    simp only [likelihood, hback, Except.ok.injEq] at hsites
    subst hsites
    simp only [deviance, getLoglike, List.map_cons, List.map_nil, List.flatten_cons, List.flatten_nil, List.append_nil]
    congr 2
    apply List.map_congr_left
    intro j hj
    have hj' := List.mem_range.1 hj
    simp [nth, hj', pgProfiled]
  rw [hex]
  have hN : Nearest F.rnd := h.nearest
  have hmain : ∀ j < d.size,
      |pgLoglikeF F.rnd lg sparse (counts F.rnd (progs j) (nth d.areaScale j) d.exposure) (nth d.specCounts j) (nth b.counts j) (nth b.errors j) (nth b.ratio j) -
          (poissonLogProb (nth d.specCounts j) (d.sourceCounts unfold j + nth b.ratio j * pgProfiled d b unfold j) +
            normalLogProb (nth b.counts j) (pgProfiled d b unfold j) (nth b.errors j))|
        ≤ 69 * ((((progs j).size : ℝ) + 4) * 2 ^ (-52 : ℤ)) * ((1 + pgLossAt d b unfold j) * pgSizeAt d b unfold j) ∧
      pgLoglikeF F.rnd lg sparse (counts F.rnd (progs j) (nth d.areaScale j) d.exposure) (nth d.specCounts j) (nth b.counts j) (nth b.errors j) (nth b.ratio j) ≤ 0 ∧
      (2 ^ (-200 : ℤ) ≤ pgSizeAt d b unfold j ∧ pgSizeAt d b unfold j ≤ 2 ^ (323 : ℤ)) ∧
      |poissonLogProb (nth d.specCounts j) (d.sourceCounts unfold j + nth b.ratio j * pgProfiled d b unfold j) +
        normalLogProb (nth b.counts j) (pgProfiled d b unfold j) (nth b.errors j)| ≤ pgSizeAt d b unfold j ∧
      0 ≤ pgLossAt d b unfold j ∧ 1 + pgLossAt d b unfold j ≤ 2 ^ (43 : ℤ) := by
    intro j hj
    obtain ⟨n, en, hn2⟩ := hn j hj
    have hc := C147_counts hN d unfold j (progs j) (hs.way j hj).1 ((hs.way j hj).2.trans (by norm_num)) (hs.response j hj) hs.model (hs.area j hj) hs.exposure
      ((hs.rate j hj).trans (zpow_le (by norm_num)))
    have eb := exact_counts_bounds d unfold j
    have s0 : 0 < d.sourceCounts unfold j := lt_of_lt_of_le (by norm_num) eb.1
    have hmu := hμ j hj
    have hlo := hloss j hj
    unfold pgLossAt at hlo
    unfold pgProfiled at hmu
    rw [en] at hmu hlo
    have := pg_channel hN hl sparse (θ := (((progs j).size : ℝ) + 4) * 2 ^ (-52 : ℤ)) (s := d.sourceCounts unfold j) (a := nth b.ratio j) (bEst := nth b.counts j) (bErr := nth b.errors j)
      (n := n) (le_mul_of_one_le_left (two_zpow_pos _).le (by linarith [Nat.cast_nonneg (α := ℝ) (progs j).size]))
      ⟨⟨le_trans (by norm_num) eb.1, eb.2.trans (by norm_num)⟩, ha j hj, hb j hj, hσ j hj⟩ hn2
      (hc.trans (mul_le_mul_of_nonneg_right (mul_le_mul_of_nonneg_right (by linarith) (two_zpow_pos _).le) s0.le)) hmu hlo
    rw [← en] at this
    exact this
  refine statistic_error h (K := fun j => 35 * ((progs j).size : ℝ) + 103) hs.channels (fun j hj => ⟨by positivity, ?_⟩) (fun j hj => ?_)
    (fun j hj => (hmain j hj).2.1) (fun j hj => ?_) (fun j hj => ?_)
  · have hl0 : 0 ≤ pgLossAt d b unfold j := (hmain j hj).2.2.2.2.1
    have hlo := hloss j hj
    have K0 : (0 : ℝ) ≤ (progs j).size := Nat.cast_nonneg _
    show 35 * ((progs j).size : ℝ) + 103 ≤ 2 ^ 49
    clear hmain hex
    generalize ((progs j).size : ℝ) = K at *
    generalize pgLossAt d b unfold j = l at *
    have e : (2 : ℝ) ^ (-52 : ℤ) * 2 ^ 52 = 1 := by norm_num
    have k1 : (K + 4) * (1 + l) ≤ 2 ^ 52 / 600 := by
      have := mul_le_mul_of_nonneg_right hlo (by norm_num : (0 : ℝ) ≤ 2 ^ 52)
      rw [show (K + 4) * (2 : ℝ) ^ (-52 : ℤ) * (1 + l) * 2 ^ 52 = (K + 4) * (1 + l) * ((2 : ℝ) ^ (-52 : ℤ) * 2 ^ 52) by ring, e, mul_one] at this
      linarith
    have := mul_nonneg K0 hl0
    norm_num at k1 ⊢
    linarith
  · refine (hmain j hj).1.trans ?_
    obtain ⟨-, -, hT, -, hl0, -⟩ := hmain j hj
    have hT0 : 0 ≤ pgSizeAt d b unfold j := (two_zpow_pos _).le.trans hT.1
    have hl1 : 0 ≤ pgLossAt d b unfold j := hl0
    refine mul_le_mul_of_nonneg_right ?_ (by positivity)
    rw [show (2 : ℝ) ^ (-51 : ℤ) = 2 * 2 ^ (-52 : ℤ) by norm_num]
    have hz := two_zpow_pos (-52)
    have K0 : (0 : ℝ) ≤ (progs j).size := Nat.cast_nonneg _
    have q := mul_nonneg K0 hz.le
    clear hmain hex hT
    generalize (2 : ℝ) ^ (-52 : ℤ) = z at *
    linarith
  · obtain ⟨-, -, hT, -, hl0, hl2⟩ := hmain j hj
    have hT0 := (two_zpow_pos _).le.trans hT.1
    constructor
    · exact ((zpow_le (by norm_num)).trans hT.1).trans (le_mul_of_one_le_left hT0 (by linarith))
    · refine (mul_le_mul hl2 hT.2 hT0 (two_zpow_pos _).le).trans ?_
      rw [← zpow_add₀ (by norm_num)]
      exact zpow_le (by norm_num)
  · obtain ⟨-, -, hT, hX, hl0, -⟩ := hmain j hj
    have hT0 := (two_zpow_pos _).le.trans hT.1
    exact hX.trans (le_mul_of_one_le_left hT0 (by linarith))

/-- **C155 (loss).** Where the background estimate is at least twice its variance times the ratio of the regions, as it is for a background of counts and a ratio of at most one half,
what cancels in the profile background is at most nineteen times the expected counts. -/
theorem C155_loss {s n bEst bErr a : ℝ} (s0 : 0 < s) (n0 : 0 ≤ n) (a0 : 0 < a) (hb : 2 * (a * (bErr * bErr)) ≤ bEst) (hb0 : 0 < bEst) : pgLoss s n bEst bErr a ≤ 19 := by
  have v0 : 0 ≤ bErr * bErr := mul_self_nonneg _
  have p0 : 0 ≤ a * (bErr * bErr) := mul_nonneg a0.le v0
  have e0 : 0 < bEst - a * (bErr * bErr) := by linarith
  have hX : |bEst| + a * (bErr * bErr) ≤ 3 * (bEst - a * (bErr * bErr)) := by rw [abs_of_pos hb0]; linarith
  have hA : a * (|bEst| + a * (bErr * bErr)) ≤ 3 * (a * (bEst - a * (bErr * bErr))) := by
    have := mul_le_mul_of_nonneg_left hX a0.le
    linarith
  have hA0 : 0 ≤ a * (|bEst| + a * (bErr * bErr)) := mul_nonneg a0.le (add_nonneg (abs_nonneg _) p0)
  have ae0 : 0 < a * (bEst - a * (bErr * bErr)) := mul_pos a0 e0
  unfold pgLoss
  rcases n0.eq_or_lt with hn | hn
  · subst hn
    have hb' : pgstatBackground s 0 bEst bErr a = bEst - a * (bErr * bErr) := by
      unfold pgstatBackground
      dsimp only
      rw [if_pos (Or.inl e0.le), if_neg (lt_irrefl _)]
    rw [hb', cancelled, if_pos rfl, div_le_iff₀ (by linarith)]
    linarith
  · have hD : netDisc s n bEst bErr a = (a * (bEst - a * (bErr * bErr)) - s) * (a * (bEst - a * (bErr * bErr)) - s) +
        4 * a * (a * (bErr * bErr) * n + (bEst - a * (bErr * bErr)) * s) := by
      unfold netDisc; ring
    have hb' : pgstatBackground s n bEst bErr a = (a * (bEst - a * (bErr * bErr)) - s + Real.sqrt (netDisc s n bEst bErr a)) / (2 * a) := by
      unfold pgstatBackground
      dsimp only
      rw [if_pos (Or.inl e0.le), if_pos hn, hD]
    have hvn : 0 ≤ 4 * a ^ 2 * (bErr * bErr) * n := by positivity
    have D0 : 0 < netDisc s n bEst bErr a := by
      unfold netDisc
      positivity
    have hG : grossDisc s n bEst bErr a ≤ 9 * netDisc s n bEst bErr a := by
      unfold grossDisc netDisc
      have : (a * (|bEst| + a * (bErr * bErr)) + s) ^ 2 ≤ (3 * (a * (bEst - a * (bErr * bErr)) + s)) ^ 2 := pow_le_pow_left₀ (by linarith) (by linarith) 2
      nlinarith
    have hr : 0 < Real.sqrt (netDisc s n bEst bErr a) := Real.sqrt_pos.2 D0
    have hrr := Real.mul_self_sqrt D0.le
    have hΛ : cancelled s n bEst bErr a ≤ 9 * Real.sqrt (netDisc s n bEst bErr a) := by
      unfold cancelled
      rw [if_neg hn.ne', div_le_iff₀ hr, mul_assoc, hrr]
      exact hG
    have hμ : s + a * pgstatBackground s n bEst bErr a = (a * (bEst - a * (bErr * bErr)) + s + Real.sqrt (netDisc s n bEst bErr a)) / 2 := by
      rw [hb']
      field_simp
      ring
    rw [hμ, div_le_iff₀ (by linarith)]
    linarith

/-- **C155 (in practice).** If moreover no channel adds up more than `2 ^ 38` photon bins, the hypothesis about what cancels is not needed: the error is at most `2 ^ -50` times the sum
over the channels of the size of their terms, times twenty times the number of operations a channel goes through. -/
theorem C155_practice {F : Impl} (h : F.Legal) {lg : ℝ → ℝ} (hl : Accurate lg) (sparse : Bool) {d : FitData} {b : FitBack} {unfold : List ℝ} {progs : ℕ → Prog}
    (hs : Folded d unfold progs) (hback : d.back = some b) (ha : ∀ j < d.size, 2 ^ (-30 : ℤ) ≤ nth b.ratio j ∧ nth b.ratio j ≤ 2 ^ (30 : ℤ))
    (hn : ∀ j < d.size, ∃ n : ℕ, nth d.specCounts j = n ∧ n ≤ 2 ^ 53) (hb : ∀ j < d.size, |nth b.counts j| ≤ 2 ^ (60 : ℤ))
    (hσ : ∀ j < d.size, 2 ^ (-30 : ℤ) ≤ nth b.errors j ∧ nth b.errors j ≤ 2 ^ (30 : ℤ))
    (hμ : ∀ j < d.size, d.sourceCounts unfold j + nth b.ratio j * pgProfiled d b unfold j ≤ 2 ^ (56 : ℤ))
    (hsig : ∀ j < d.size, 2 * (nth b.ratio j * (nth b.errors j * nth b.errors j)) ≤ nth b.counts j) (hK : ∀ j < d.size, (progs j).size ≤ 2 ^ 38)
    {sites : Sites} (hsites : likelihood .pgstat d unfold = .ok sites) :
    |pgDevianceF F lg sparse d b progs - (deviance (getLoglike [sites])).total| ≤
      ((List.range d.size).map fun j : ℕ => (35 * ((progs j).size : ℝ) + 103 + d.size + 39) * 2 ^ (-50 : ℤ) * (20 * pgSizeAt d b unfold j)).sum := by
  have hloss : ∀ j < d.size, pgLossAt d b unfold j ≤ 19 := by
    intro j hj
    obtain ⟨n, en, -⟩ := hn j hj
    have a0 : 0 < nth b.ratio j := (two_zpow_pos _).trans_le (ha j hj).1
    have σ0 : 0 < nth b.errors j := (two_zpow_pos _).trans_le (hσ j hj).1
    have s0 : 0 < d.sourceCounts unfold j := lt_of_lt_of_le (by norm_num) (exact_counts_bounds d unfold j).1
    unfold pgLossAt
    rw [en]
    refine C155_loss s0 (Nat.cast_nonneg n) a0 (hsig j hj) (lt_of_lt_of_le ?_ (hsig j hj))
    positivity
  refine (C155_pgstat h hl sparse hs hback ha hn hb hσ hμ (fun j hj => ?_) hsites).trans (sum_mono fun j hj => ?_)
  · have k1 : ((progs j).size : ℝ) ≤ 2 ^ 38 := by exact_mod_cast hK j hj
    have k2 : 1 + pgLossAt d b unfold j ≤ 20 := by linarith [hloss j hj]
    refine (mul_le_mul_of_nonneg_left k2 (by positivity)).trans ?_
    refine (mul_le_mul_of_nonneg_right (mul_le_mul_of_nonneg_right (add_le_add k1 (le_refl 4)) (two_zpow_pos _).le) (by norm_num)).trans ?_
    norm_num
  · have hj' := List.mem_range.1 hj
    have hT : 0 ≤ pgSizeAt d b unfold j := by
      obtain ⟨n, en, hn2⟩ := hn j hj'
      unfold pgSizeAt
      rw [en]
      have hm : pgSize (d.sourceCounts unfold j) n (nth b.counts j) (nth b.errors j) (nth b.ratio j) =
        bulk n (d.sourceCounts unfold j + nth b.ratio j * pgstatBackground (d.sourceCounts unfold j) n (nth b.counts j) (nth b.errors j) (nth b.ratio j)) +
        ((|nth b.counts j| + pgstatBackground (d.sourceCounts unfold j) n (nth b.counts j) (nth b.errors j) (nth b.ratio j) +
          cancelled (d.sourceCounts unfold j) n (nth b.counts j) (nth b.errors j) (nth b.ratio j) / nth b.ratio j) / nth b.errors j) ^ 2 := rfl
      rw [hm]
      have eb := exact_counts_bounds d unfold j
      have q := (pgback_near h.nearest (θ := 1 / 600) (s' := d.sourceCounts unfold j) (by norm_num) (le_refl _)
        ⟨⟨le_trans (by norm_num) eb.1, eb.2.trans (by norm_num)⟩, ha j hj', hb j hj', hσ j hj'⟩ hn2 (by
          rw [sub_self, abs_zero]
          have : 0 < d.sourceCounts unfold j := lt_of_lt_of_le (by norm_num) eb.1
          positivity)).2.1
      have a0 : 0 < nth b.ratio j := (two_zpow_pos _).trans_le (ha j hj').1
      have s0 : 0 < d.sourceCounts unfold j := lt_of_lt_of_le (by norm_num) eb.1
      have := exact_le (n := n) (μ := d.sourceCounts unfold j + nth b.ratio j * pgstatBackground (d.sourceCounts unfold j) n (nth b.counts j) (nth b.errors j) (nth b.ratio j))
        (by positivity)
      exact add_nonneg ((abs_nonneg _).trans this) (sq_nonneg _)
    refine mul_le_mul_of_nonneg_left (mul_le_mul_of_nonneg_right (by linarith [hloss j hj']) hT) (by positivity)

/-! ## A concrete case -/

set_option exponentiation.threshold 400 in
/-- Three counts over a background of eight, with an uncertainty of three, at a ratio of one quarter, where the model has two hundred source counts. -/
theorem exPg : FitData.sourceCounts { exFold with back := some exBack } [4, 5] 0 = 200 := by
  norm_num [FitData.sourceCounts, FitData.sourceRate, exFold, nth, clip, List.range_succ]

theorem exProfile : 0 ≤ pgstatBackground 200 3 8 3 (1 / 4) ∧ pgstatBackground 200 3 8 3 (1 / 4) ≤ 100 := by
  have h1 : Real.sqrt ((1 / 4 * (8 - 1 / 4 * (3 * 3)) - 200) * (1 / 4 * (8 - 1 / 4 * (3 * 3)) - 200) + 4 * (1 / 4) * (1 / 4 * (3 * 3) * 3 + (8 - 1 / 4 * (3 * 3)) * 200)) ≤ 210 := by
    rw [Real.sqrt_le_left (by norm_num)]; norm_num
  have h2 : 200 ≤ Real.sqrt ((1 / 4 * (8 - 1 / 4 * (3 * 3)) - 200) * (1 / 4 * (8 - 1 / 4 * (3 * 3)) - 200) + 4 * (1 / 4) * (1 / 4 * (3 * 3) * 3 + (8 - 1 / 4 * (3 * 3)) * 200)) := by
    refine Real.le_sqrt_of_sq_le ?_; norm_num
  unfold pgstatBackground
  dsimp only
  rw [if_pos (Or.inl (by norm_num)), if_pos (by norm_num)]
  generalize Real.sqrt _ = r at *
  constructor
  · refine div_nonneg ?_ (by norm_num)
    norm_num
    linarith
  · rw [div_le_iff₀ (by norm_num)]
    norm_num
    linarith

theorem exPgLoss : pgLoss 200 3 8 3 (1 / 4) ≤ 3 := by
  obtain ⟨h1, -⟩ := exProfile
  have h2 : 200 ≤ Real.sqrt (netDisc 200 3 8 3 (1 / 4)) := by
    refine Real.le_sqrt_of_sq_le ?_; norm_num [netDisc]
  have h3 : cancelled 200 3 8 3 (1 / 4) ≤ 250 := by
    unfold cancelled
    rw [if_neg (by norm_num), div_le_iff₀ (by linarith)]
    have : grossDisc 200 3 8 3 (1 / 4) ≤ 50000 := by norm_num [grossDisc, abs_of_pos]
    linarith
  unfold pgLoss
  rw [div_le_iff₀ (by linarith)]
  linarith

example := C155_pgstat (b := exBack) leftImpl_legal exLog_ok true exFolded' rfl (fun j hj => by obtain rfl := exOne j hj; norm_num [exBack, nth])
  (fun j hj => by obtain rfl := exOne j hj; exact ⟨3, by simp [exFold, nth], by norm_num⟩) (fun j hj => by obtain rfl := exOne j hj; norm_num [exBack, nth, abs_of_pos])
  (fun j hj => by obtain rfl := exOne j hj; norm_num [exBack, nth])
  (fun j hj => by
    obtain rfl := exOne j hj
    unfold pgProfiled
    rw [exPg]
    have h := exProfile
    norm_num [exBack, exFold, nth] at h ⊢
    linarith)
  (fun j hj => by
    obtain rfl := exOne j hj
    have h : pgLossAt { exFold with back := some exBack } exBack [4, 5] 0 ≤ 3 := by
      unfold pgLossAt
      rw [exPg]
      have h := exPgLoss
      norm_num [exBack, exFold, nth] at h ⊢
      linarith
    refine (mul_le_mul_of_nonneg_left (add_le_add (le_refl 1) h) (by positivity)).trans ?_
    norm_num [Prog.size]) rfl

example := C155_loss (s := 200) (n := 3) (bEst := 8) (bErr := 3) (a := 1 / 4) (by norm_num) (by norm_num) (by norm_num) (by norm_num) (by norm_num)
example := C155_practice (b := exBack) leftImpl_legal exLog_ok true exFolded' rfl (fun j hj => by obtain rfl := exOne j hj; norm_num [exBack, nth])
  (fun j hj => by obtain rfl := exOne j hj; exact ⟨3, by simp [exFold, nth], by norm_num⟩) (fun j hj => by obtain rfl := exOne j hj; norm_num [exBack, nth, abs_of_pos])
  (fun j hj => by obtain rfl := exOne j hj; norm_num [exBack, nth])
  (fun j hj => by
    obtain rfl := exOne j hj
    unfold pgProfiled
    rw [exPg]
    have h := exProfile
    norm_num [exBack, exFold, nth] at h ⊢
    linarith)
  (fun j hj => by obtain rfl := exOne j hj; norm_num [exBack, nth]) (fun j hj => by norm_num [Prog.size]) rfl

end Elisa.Infer.Fl
