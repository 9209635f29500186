import Verif.Infer.FloatStat
import Verif.Grouping.FloatErrorProps
import Mathlib.Analysis.SpecialFunctions.Pow.Real

/-!
# C146: the profile backgrounds in floating point
-/

namespace Elisa.Infer.Fl

open Elisa Elisa.Infer Elisa.Grouping.Fl

/-! ## Specification -/

/-- Results are rounded to a nearest binary64 number; ties may go either way. -/
def Nearest (rnd : ℝ → ℝ) : Prop := ∀ x : ℝ, |x| ≤ 2 ^ 1023 → Rep (rnd x) ∧ ∀ y, Rep y → |rnd x - x| ≤ |y - x|

/-- Number of the format between `2 ^ p` and `2 ^ q`. -/
def In (p q : ℤ) (x : ℝ) : Prop := Rep x ∧ 2 ^ p ≤ x ∧ x ≤ 2 ^ q

/-! ## Rounding -/

theorem zpow_le {p q : ℤ} (h : p ≤ q) : (2 : ℝ) ^ p ≤ 2 ^ q := zpow_le_zpow_right₀ (by norm_num) h

theorem nat1023 : (2 : ℝ) ^ 1023 = 2 ^ (1023 : ℤ) := by rw [show (1023 : ℤ) = ((1023 : ℕ) : ℤ) by norm_num, zpow_natCast]

theorem rep_pow {p : ℤ} (h1 : -1022 ≤ p) (h2 : p ≤ 1023) : Rep (2 ^ p) := by
  refine ⟨2 ^ 52, p - 52, by norm_num, by omega, by omega, ?_⟩
  have : (2 : ℝ) ^ p = 2 ^ ((52 : ℕ) : ℤ) * 2 ^ (p - 52) := by
    rw [← zpow_add₀ (by norm_num)]; congr 1; push_cast; ring
  rw [this, zpow_natCast]
  push_cast
  congr 1
  norm_num

theorem rep_neg {x : ℝ} (h : Rep x) : Rep (-x) := by
  obtain ⟨m, e, hm, h1, h2, rfl⟩ := h
  exact ⟨-m, e, by rwa [abs_neg], h1, h2, by push_cast; ring⟩

theorem Nearest.rep {rnd} (h : Nearest rnd) {x : ℝ} (hx : |x| ≤ 2 ^ (1023 : ℤ)) : Rep (rnd x) := (h x (by rwa [nat1023])).1

theorem Nearest.fix {rnd} (h : Nearest rnd) {x : ℝ} (hr : Rep x) (hx : |x| ≤ 2 ^ (1023 : ℤ)) : rnd x = x := by
  have := (h x (by rwa [nat1023])).2 x hr
  rw [sub_self, abs_zero] at this
  have := abs_eq_zero.1 (le_antisymm this (abs_nonneg _))
  linarith

/-- Rounding does not go past a number of the format. -/
theorem Nearest.ge {rnd} (h : Nearest rnd) {x y : ℝ} (hx : |x| ≤ 2 ^ (1023 : ℤ)) (hy : Rep y) (hle : y ≤ x) : y ≤ rnd x := by
  have := (h x (by rwa [nat1023])).2 y hy
  rw [abs_of_nonpos (by linarith : y - x ≤ 0)] at this
  have := (abs_le.1 this).1
  linarith

theorem Nearest.le {rnd} (h : Nearest rnd) {x y : ℝ} (hx : |x| ≤ 2 ^ (1023 : ℤ)) (hy : Rep y) (hle : x ≤ y) : rnd x ≤ y := by
  have := (h x (by rwa [nat1023])).2 y hy
  rw [abs_of_nonneg (by linarith : 0 ≤ y - x)] at this
  have := (abs_le.1 this).2
  linarith

theorem abs_bound {x : ℝ} {q : ℤ} (h0 : 0 ≤ x) (h1 : x ≤ 2 ^ q) (hq : q ≤ 1023) : |x| ≤ 2 ^ (1023 : ℤ) := by
  rw [abs_of_nonneg h0]; exact h1.trans (zpow_le hq)

theorem Nearest.nonneg {rnd} (h : Nearest rnd) {x : ℝ} (hx : |x| ≤ 2 ^ (1023 : ℤ)) (h0 : 0 ≤ x) : 0 ≤ rnd x := h.ge hx rep_zero h0

theorem Nearest.mem {rnd} (h : Nearest rnd) {x : ℝ} {p q : ℤ} (h1 : 2 ^ p ≤ x) (h2 : x ≤ 2 ^ q) (hp : -1022 ≤ p) (hq : q ≤ 1023) : In p q (rnd x) := by
  have hb := abs_bound ((two_zpow_pos p).le.trans h1) h2 hq
  have hpq : p ≤ q := by
    by_contra hc
    have : (2 : ℝ) ^ q < 2 ^ p := zpow_lt_zpow_right₀ (by norm_num) (by omega)
    linarith
  exact ⟨h.rep hb, h.ge hb (rep_pow hp (by omega)) h1, h.le hb (rep_pow (by omega) hq) h2⟩

/-- Non-negative results stay non-negative and below a power of two. -/
theorem Nearest.upto {rnd} (h : Nearest rnd) {x : ℝ} {q : ℤ} (h1 : 0 ≤ x) (h2 : x ≤ 2 ^ q) (hp : -1022 ≤ q) (hq : q ≤ 1023) :
    Rep (rnd x) ∧ 0 ≤ rnd x ∧ rnd x ≤ 2 ^ q := by
  have hb := abs_bound h1 h2 hq
  exact ⟨h.rep hb, h.nonneg hb h1, h.le hb (rep_pow hp hq) h2⟩

theorem In.pos {p q : ℤ} {x : ℝ} (h : In p q x) : 0 < x := lt_of_lt_of_le (two_zpow_pos p) h.2.1

theorem mul_in {p q p' q' : ℤ} {x y : ℝ} (hx : 2 ^ p ≤ x ∧ x ≤ 2 ^ q) (hy : 2 ^ p' ≤ y ∧ y ≤ 2 ^ q') : 2 ^ (p + p') ≤ x * y ∧ x * y ≤ 2 ^ (q + q') := by
  have hp := two_zpow_pos p
  have hp' := two_zpow_pos p'
  rw [zpow_add₀ (by norm_num), zpow_add₀ (by norm_num)]
  exact ⟨mul_le_mul hx.1 hy.1 hp'.le (hp.le.trans hx.1), mul_le_mul hx.2 hy.2 (hp'.le.trans hy.1) (two_zpow_pos q).le⟩

theorem div_in {p q p' q' : ℤ} {x y : ℝ} (hx : 2 ^ p ≤ x ∧ x ≤ 2 ^ q) (hy : 2 ^ p' ≤ y ∧ y ≤ 2 ^ q') : 2 ^ (p - q') ≤ x / y ∧ x / y ≤ 2 ^ (q - p') := by
  have hy0 : 0 < y := lt_of_lt_of_le (two_zpow_pos p') hy.1
  have hx0 : 0 < x := lt_of_lt_of_le (two_zpow_pos p) hx.1
  rw [le_div_iff₀ hy0, div_le_iff₀ hy0]
  constructor
  · calc (2 : ℝ) ^ (p - q') * y ≤ 2 ^ (p - q') * 2 ^ q' := mul_le_mul_of_nonneg_left hy.2 (two_zpow_pos _).le
      _ = 2 ^ p := by rw [← zpow_add₀ (by norm_num)]; congr 1; ring
      _ ≤ x := hx.1
  · calc x ≤ 2 ^ q := hx.2
      _ = 2 ^ (q - p') * 2 ^ p' := by rw [← zpow_add₀ (by norm_num)]; congr 1; ring
      _ ≤ 2 ^ (q - p') * y := mul_le_mul_of_nonneg_left hy.1 (two_zpow_pos _).le

/-- Relative error of a rounded result of the normal range. -/
theorem Nearest.rel {rnd} (h : Nearest rnd) {x : ℝ} {p q : ℤ} (hx : 2 ^ p ≤ x ∧ x ≤ 2 ^ q) (hp : -1022 ≤ p) (hq : q ≤ 1023) :
    |rnd x - x| ≤ unit * x := by
  obtain ⟨y, hy, he⟩ := near_rep ((zpow_le hp).trans hx.1) (by rw [nat1023]; exact hx.2.trans (zpow_le hq))
  exact ((h x (by rw [nat1023]; exact abs_bound ((two_zpow_pos p).le.trans hx.1) hx.2 hq)).2 y hy).trans he

/-! ## Spacing -/

/-- Numbers of the format that are not below `2 ^ p` are multiples of `2 ^ (p - 52)`. -/
theorem multiple {x : ℝ} {p : ℤ} (h : Rep x) (hp : 2 ^ p ≤ |x|) : ∃ k : ℤ, x = k * 2 ^ (p - 52) := by
  obtain ⟨m, e, hm, -, -, rfl⟩ := h
  have he : p - 52 ≤ e := by
    by_contra hc
    rw [abs_mul, abs_of_pos (two_zpow_pos e)] at hp
    have h1 : |(m : ℝ)| < 2 ^ 53 := by exact_mod_cast hm
    have h2 : |(m : ℝ)| * 2 ^ e < 2 ^ 53 * 2 ^ e := mul_lt_mul_of_pos_right h1 (two_zpow_pos e)
    have h3 : (2 : ℝ) ^ 53 * 2 ^ e ≤ 2 ^ p := by
      rw [← zpow_natCast, ← zpow_add₀ (by norm_num)]; exact zpow_le (by push_cast; omega)
    linarith
  obtain ⟨j, hj⟩ := Int.eq_ofNat_of_zero_le (show 0 ≤ e - (p - 52) by omega)
  refine ⟨m * 2 ^ j, ?_⟩
  rw [show e = (j : ℤ) + (p - 52) by omega, zpow_add₀ (by norm_num), zpow_natCast]
  push_cast
  ring

/-- Different numbers of the format are apart. -/
theorem apart {x y : ℝ} {p : ℤ} (hx : Rep x) (hy : Rep y) (hlt : x < y) (hp : 2 ^ p ≤ y) : 2 ^ (p - 53) ≤ y - x := by
  have h1 : (2 : ℝ) ^ p = 2 * 2 ^ (p - 1) := by
    rw [show p = 1 + (p - 1) by ring, zpow_add₀ (by norm_num), zpow_one]; congr 2; ring
  have h2 : (2 : ℝ) ^ (p - 53) ≤ 2 ^ (p - 1) := zpow_le (by omega)
  rcases le_or_gt x (2 ^ (p - 1)) with hc | hc
  · linarith
  · have hx0 : 0 < x := (two_zpow_pos _).trans hc
    obtain ⟨k, hk⟩ := multiple (p := p - 1) hx (by rw [abs_of_pos hx0]; exact hc.le)
    obtain ⟨l, hl⟩ := multiple (p := p - 1) hy (by rw [abs_of_pos (hx0.trans hlt)]; linarith)
    rw [show p - 1 - 52 = p - 53 by ring] at hk hl
    have hE := two_zpow_pos (p - 53)
    have hkl : k < l := by
      rw [hk, hl] at hlt
      exact_mod_cast lt_of_mul_lt_mul_right hlt hE.le
    have hone : (1 : ℝ) ≤ (l : ℝ) - k := by exact_mod_cast (by omega : 1 ≤ l - k)
    rw [hl, hk, ← sub_mul]
    calc (2 : ℝ) ^ (p - 53) = 1 * 2 ^ (p - 53) := (one_mul _).symm
      _ ≤ _ := mul_le_mul_of_nonneg_right hone hE.le

/-! ## The square root of a square -/

theorem sqrt_square {rnd} (h : Nearest rnd) {c q : ℝ} (hc : Rep c) (h1 : 2 ^ (-500 : ℤ) ≤ c) (h2 : c ≤ 2 ^ (500 : ℤ)) (hq : rnd (c * c) ≤ q)
    (hq2 : q ≤ 2 ^ (1020 : ℤ)) : c ≤ rnd (Real.sqrt q) := by
  have hc0 : 0 < c := (two_zpow_pos _).trans_le h1
  have hcc := mul_in ⟨h1, h2⟩ ⟨h1, h2⟩
  have hmem := h.mem hcc.1 hcc.2 (by norm_num) (by norm_num)
  have hq0 : 0 < q := hmem.pos.trans_le hq
  set s := Real.sqrt q with hs
  have hs0 : 0 ≤ s := Real.sqrt_nonneg _
  have hss : s * s = q := Real.mul_self_sqrt hq0.le
  have hsb : |s| ≤ 2 ^ (1023 : ℤ) := by
    rw [abs_of_nonneg hs0, hs, Real.sqrt_le_left (two_zpow_pos _).le, ← zpow_natCast, ← zpow_mul]
    exact hq2.trans (zpow_le (by norm_num))
  rcases le_or_gt c s with hle | hgt
  · exact h.ge hsb hc hle
  by_contra hcon
  have hr := not_le.1 hcon
  have hrr := h.rep hsb
  have hn := (h s (by rwa [nat1023])).2 c hc
  rw [abs_of_pos (by linarith : 0 < c - s)] at hn
  have hn1 := (abs_le.1 hn).1
  obtain ⟨k, hk1, hk2⟩ := exists_mem_Ico_zpow hc0 (by norm_num : (1 : ℝ) < 2)
  have e1 : (2 : ℝ) ^ (k + 1) = 2 * 2 ^ k := by rw [zpow_add₀ (by norm_num), zpow_one]; ring
  have hkb : k < 501 := by
    by_contra hb
    have u1 : (2 : ℝ) ^ (501 : ℤ) ≤ 2 ^ k := zpow_le (by omega)
    have u2 : (2 : ℝ) ^ (500 : ℤ) < 2 ^ (501 : ℤ) := zpow_lt_zpow_right₀ (by norm_num) (by norm_num)
    exact absurd (u1.trans (hk1.trans h2)) (not_le.2 u2)
  have hka : -502 < k := by
    by_contra hb
    have : (2 : ℝ) ^ (k + 1) ≤ 2 ^ (-500 : ℤ) := zpow_le (by omega)
    linarith
  rcases eq_or_lt_of_le hk1 with heq | hlt
  · -- a power of two: the square is exact
    have hex : Rep (c * c) := by
      rw [← heq, ← zpow_add₀ (by norm_num)]; exact rep_pow (by omega) (by omega)
    rw [h.fix hex (abs_bound (mul_self_nonneg c) hcc.2 (by norm_num))] at hq
    nlinarith
  · obtain ⟨M, hM⟩ := multiple (p := k) hc (by rw [abs_of_pos hc0]; exact hk1)
    set E := (2 : ℝ) ^ (k - 52) with hE
    have hE0 : 0 < E := two_zpow_pos _
    have eK : (2 : ℝ) ^ k = 2 ^ 52 * E := by
      rw [hE, ← zpow_natCast, ← zpow_add₀ (by norm_num)]; congr 1; push_cast; ring
    have eK1 : (2 : ℝ) ^ (k + 1) = 2 ^ 53 * E := by rw [e1, eK]; ring
    -- the next number below
    have hpred : rnd s ≤ c - E := by
      rcases lt_or_ge (rnd s) (2 ^ k) with hb | hb
      · have hM1 : (2 : ℝ) ^ 52 < M := by
          rw [hM, eK] at hlt; exact lt_of_mul_lt_mul_right hlt hE0.le
        have hM2 : (2 : ℤ) ^ 52 + 1 ≤ M := by
          have : (2 : ℤ) ^ 52 < M := by exact_mod_cast hM1
          omega
        have hM3 : (2 : ℝ) ^ 52 + 1 ≤ M := by exact_mod_cast hM2
        have := mul_le_mul_of_nonneg_right hM3 hE0.le
        rw [hM]
        rw [eK] at hb
        linarith
      · obtain ⟨N, hN⟩ := multiple (p := k) hrr (by rw [abs_of_nonneg ((two_zpow_pos k).le.trans hb)]; exact hb)
        have hNM : N < M := by
          rw [hM, hN] at hr; exact_mod_cast lt_of_mul_lt_mul_right hr hE0.le
        have hNM' : (N : ℝ) + 1 ≤ M := by exact_mod_cast hNM
        have := mul_le_mul_of_nonneg_right hNM' hE0.le
        rw [hM, hN]
        linarith
    have hs1 : s ≤ c - E / 2 := by linarith
    have hrel := (abs_le.1 (h.rel hcc (by norm_num) (by norm_num))).1
    have hqc : c * c - unit * (c * c) ≤ s * s := by rw [hss]; linarith
    have hss2 : s * s ≤ (c - E / 2) * (c - E / 2) := mul_self_le_mul_self hs0 hs1
    -- `c` is at least one step below the next power of two
    have hM4 : (M : ℝ) + 1 ≤ 2 ^ 53 := by
      have : (M : ℝ) < 2 ^ 53 := by rw [hM, eK1] at hk2; exact lt_of_mul_lt_mul_right hk2 hE0.le
      have : M < 2 ^ 53 := by exact_mod_cast this
      exact_mod_cast (by omega : M + 1 ≤ 2 ^ 53)
    have hM5 : (2 : ℝ) ^ 52 < M := by rw [hM, eK] at hlt; exact lt_of_mul_lt_mul_right hlt hE0.le
    have hu : unit = 1 / 2 ^ 53 := by unfold unit; norm_num
    rw [hu, hM] at hqc
    rw [hM] at hss2
    have hfin : (M : ℝ) * E - 0 = M * E := by ring
    have key : (M * E) * E - E * E / 4 ≤ 1 / 2 ^ 53 * ((M * E) * (M * E)) := by nlinarith
    have key2 : (M : ℝ) - 1 / 4 ≤ 1 / 2 ^ 53 * (M * M) := by
      have hEE : 0 < E * E := mul_pos hE0 hE0
      have : ((M : ℝ) - 1 / 4) * (E * E) ≤ (1 / 2 ^ 53 * (M * M)) * (E * E) := by nlinarith
      exact le_of_mul_le_mul_right this hEE
    have hM0 : (0 : ℝ) ≤ M := le_trans (by norm_num) hM5.le
    have k3 : (M : ℝ) * M ≤ M * (2 ^ 53 - 1) := mul_le_mul_of_nonneg_left (by linarith) hM0
    have k4 : 1 / 2 ^ 53 * ((M : ℝ) * M) ≤ 1 / 2 ^ 53 * (M * (2 ^ 53 - 1)) := mul_le_mul_of_nonneg_left k3 (by norm_num)
    linarith

/-- `sqrt(c * c + t)` is not smaller than `-c`. -/
theorem root_ge {rnd} (h : Nearest rnd) {c t : ℝ} (hc : Rep c) (h1 : 0 ≤ c ∨ 2 ^ (-500 : ℤ) ≤ -c) (h2 : |c| ≤ 2 ^ (500 : ℤ)) (ht : 0 ≤ t)
    (ht2 : t ≤ 2 ^ (1000 : ℤ)) : 0 ≤ c + root rnd c t ∧ c + root rnd c t ≤ 2 ^ (503 : ℤ) := by
  have hcc0 : 0 ≤ c * c := mul_self_nonneg c
  have hcc2 : c * c ≤ 2 ^ (1000 : ℤ) := by
    rw [← abs_mul_abs_self, show (1000 : ℤ) = 500 + 500 by norm_num, zpow_add₀ (by norm_num)]
    exact mul_le_mul h2 h2 (abs_nonneg _) (two_zpow_pos _).le
  obtain ⟨-, a1, a2⟩ := h.upto hcc0 hcc2 (by norm_num) (by norm_num)
  have hsum : rnd (c * c) + t ≤ 2 ^ (1001 : ℤ) := by
    rw [show (1001 : ℤ) = 1 + 1000 by norm_num, zpow_add₀ (by norm_num), zpow_one]
    linarith
  obtain ⟨-, b1, b2⟩ := h.upto (add_nonneg a1 ht) hsum (by norm_num) (by norm_num)
  have hge : rnd (c * c) ≤ rnd (rnd (c * c) + t) :=
    h.ge (abs_bound (add_nonneg a1 ht) hsum (by norm_num)) (h.rep (abs_bound hcc0 hcc2 (by norm_num))) (by linarith)
  have hsq : Real.sqrt (rnd (rnd (c * c) + t)) ≤ 2 ^ (502 : ℤ) := by
    rw [Real.sqrt_le_left (two_zpow_pos _).le, ← zpow_natCast, ← zpow_mul]
    exact b2.trans (zpow_le (by norm_num))
  obtain ⟨-, c1, c2⟩ := h.upto (Real.sqrt_nonneg _) hsq (by norm_num) (by norm_num)
  have habs := abs_le.1 h2
  have hroot : 0 ≤ root rnd c t ∧ root rnd c t ≤ 2 ^ (502 : ℤ) := ⟨c1, c2⟩
  have e503 : (2 : ℝ) ^ (503 : ℤ) = 2 ^ (502 : ℤ) + 2 ^ (502 : ℤ) := by
    rw [show (503 : ℤ) = 1 + 502 by norm_num, zpow_add₀ (by norm_num), zpow_one]; ring
  have e502 : (2 : ℝ) ^ (500 : ℤ) ≤ 2 ^ (502 : ℤ) := zpow_le (by norm_num)
  refine ⟨?_, by rw [e503]; exact add_le_add (habs.2.trans e502) hroot.2⟩
  rcases h1 with h1 | h1
  · linarith
  · have := sqrt_square h (rep_neg hc) h1 (neg_le.1 habs.1) (q := rnd (rnd (c * c) + t)) (by rw [neg_mul_neg]; exact hge)
      (b2.trans (zpow_le (by norm_num)))
    have : -c ≤ root rnd c t := this
    linarith

/-! ## Helpers for the two statistics -/

theorem one_add_in {a : ℝ} (ha : In (-100) 100 a) : 2 ^ (0 : ℤ) ≤ a + 1 ∧ a + 1 ≤ 2 ^ (101 : ℤ) := by
  have h0 := ha.pos
  refine ⟨by rw [zpow_zero]; linarith, ?_⟩
  have h1 : (1 : ℝ) ≤ 2 ^ (100 : ℤ) := by rw [← zpow_zero (2 : ℝ)]; exact zpow_le (by norm_num)
  rw [show (101 : ℤ) = 1 + 100 by norm_num, zpow_add₀ (by norm_num), zpow_one, two_mul]
  exact add_le_add ha.2.2 h1

theorem lit (k : ℕ) (x : ℝ) (h : x = 2 ^ k) : 2 ^ (k : ℤ) ≤ x ∧ x ≤ 2 ^ (k : ℤ) := by rw [zpow_natCast, h]; exact ⟨le_refl _, le_refl _⟩

theorem nat_in {n : ℕ} (h0 : 0 < n) (h1 : n ≤ 2 ^ 53) : 2 ^ (0 : ℤ) ≤ (n : ℝ) ∧ (n : ℝ) ≤ 2 ^ (53 : ℤ) := by
  rw [zpow_zero, show (53 : ℤ) = ((53 : ℕ) : ℤ) by norm_num, zpow_natCast]
  exact ⟨by exact_mod_cast h0, by exact_mod_cast h1⟩

/-- A difference of numbers between `-2 ^ q` and `2 ^ q` (`c` in both formulas): its rounded value is not too small when it is negative. -/
theorem diff_ok {rnd} (h : Nearest rnd) {x y : ℝ} {p q : ℤ} (hx : Rep x) (hy : Rep y) (hx2 : |x| ≤ 2 ^ q) (hy1 : 2 ^ p ≤ y) (hy2 : y ≤ 2 ^ q)
    (hp : -447 ≤ p) (hp2 : p ≤ 900) (hq : q ≤ 499) (hq0 : -1000 ≤ q) :
    Rep (rnd (x - y)) ∧ (0 ≤ rnd (x - y) ∨ 2 ^ (-500 : ℤ) ≤ -rnd (x - y)) ∧ |rnd (x - y)| ≤ 2 ^ (500 : ℤ) := by
  have hy0 : 0 < y := (two_zpow_pos p).trans_le hy1
  have e : (2 : ℝ) ^ (q + 1) = 2 ^ q + 2 ^ q := by rw [zpow_add₀ (by norm_num), zpow_one]; ring
  have habs : |x - y| ≤ 2 ^ (q + 1) := by
    have := abs_le.1 hx2
    rw [e, abs_le]
    have := two_zpow_pos q
    constructor <;> linarith
  have hb : |x - y| ≤ 2 ^ (1023 : ℤ) := habs.trans (zpow_le (by omega))
  have h500 : |x - y| ≤ 2 ^ (500 : ℤ) := habs.trans (zpow_le (by omega))
  have h5 := abs_le.1 h500
  refine ⟨h.rep hb, ?_, ?_⟩
  · rcases le_or_gt y x with hle | hlt
    · exact Or.inl (h.nonneg hb (by linarith))
    · right
      have hd := apart hx hy hlt hy1
      have hm : (2 : ℝ) ^ (-500 : ℤ) ≤ y - x := (zpow_le (by omega)).trans hd
      have := h.le hb (rep_neg (rep_pow (p := -500) (by norm_num) (by norm_num))) (by linarith)
      linarith
  · rw [abs_le]
    exact ⟨h.ge hb (rep_neg (rep_pow (by norm_num) (by norm_num))) h5.1, h.le hb (rep_pow (by norm_num) (by norm_num)) h5.2⟩

/-- With a non-negative background the rate of the source region is positive. -/
theorem onRate_pos {rnd} (h : Nearest rnd) {s a b : ℝ} (hs : In (-100) 50 s) (ha : In (-100) 100 a) (hb0 : 0 ≤ b) (hb1 : b ≤ 2 ^ (700 : ℤ)) :
    s ≤ onRate rnd s a b := by
  have hab : a * b ≤ 2 ^ (800 : ℤ) := by
    rw [show (800 : ℤ) = 100 + 700 by norm_num, zpow_add₀ (by norm_num)]
    exact mul_le_mul ha.2.2 hb1 hb0 (two_zpow_pos _).le
  obtain ⟨-, r1, r2⟩ := h.upto (mul_nonneg ha.pos.le hb0) hab (by norm_num) (by norm_num)
  have hsum : s + rnd (a * b) ≤ 2 ^ (801 : ℤ) := by
    rw [show (801 : ℤ) = 1 + 800 by norm_num, zpow_add₀ (by norm_num), zpow_one, two_mul]
    exact add_le_add (hs.2.2.trans (zpow_le (by norm_num))) r2
  exact h.ge (abs_bound (add_nonneg hs.pos.le r1) hsum (by norm_num)) hs.1 (by linarith)

theorem div_upto {g d : ℝ} {p q : ℤ} (hg0 : 0 ≤ g) (hg : g ≤ 2 ^ q) (hd : 2 ^ p ≤ d) : 0 ≤ g / d ∧ g / d ≤ 2 ^ (q - p) := by
  have hd0 : 0 < d := (two_zpow_pos p).trans_le hd
  refine ⟨by positivity, ?_⟩
  rw [div_le_iff₀ hd0]
  calc g ≤ 2 ^ q := hg
    _ = 2 ^ (q - p) * 2 ^ p := by rw [← zpow_add₀ (by norm_num)]; congr 1; ring
    _ ≤ 2 ^ (q - p) * d := mul_le_mul_of_nonneg_left hd (two_zpow_pos _).le

theorem Nearest.rel_neg {rnd} (h : Nearest rnd) {w : ℝ} {p q : ℤ} (hw : 2 ^ p ≤ w ∧ w ≤ 2 ^ q) (hp : -1022 ≤ p) (hq : q ≤ 1023) :
    |rnd (-w) + w| ≤ unit * w := by
  obtain ⟨y, hy, he⟩ := near_rep ((zpow_le hp).trans hw.1) (by rw [nat1023]; exact hw.2.trans (zpow_le hq))
  have := (h (-w) (by rw [abs_neg, nat1023]; exact abs_bound ((two_zpow_pos p).le.trans hw.1) hw.2 hq)).2 (-y) (rep_neg hy)
  rw [sub_neg_eq_add, sub_neg_eq_add] at this
  refine this.trans ?_
  rwa [show -y + w = -(y - w) by ring, abs_neg]

/-! ## W-statistic -/

/-- The main branch. -/
theorem wback_main {rnd} (h : Nearest rnd) {s a : ℝ} (hs : In (-100) 50 s) (ha : In (-100) 100 a) {n m : ℕ} (hn : 0 < n) (hm : 0 < m)
    (hn2 : n ≤ 2 ^ 53) (hm2 : m ≤ 2 ^ 53) : 0 ≤ wback rnd s n m a ∧ wback rnd s n m a ≤ 2 ^ (700 : ℤ) := by
  have hN : In 1 54 (rnd ((n : ℝ) + m)) := by
    have i1 := nat_in hn hn2
    have i2 := nat_in hm hm2
    have e1 : (2 : ℝ) ^ (1 : ℤ) = 2 ^ (0 : ℤ) + 2 ^ (0 : ℤ) := by norm_num
    have e54 : (2 : ℝ) ^ (54 : ℤ) = 2 ^ (53 : ℤ) + 2 ^ (53 : ℤ) := by norm_num
    refine h.mem (by rw [e1]; exact add_le_add i1.1 i2.1) (by rw [e54]; exact add_le_add i1.2 i2.2) (by norm_num) (by norm_num)
  have hx : In (-99) 154 (rnd (a * rnd ((n : ℝ) + m))) := by
    have := mul_in ha.2 hN.2
    exact h.mem this.1 this.2 (by norm_num) (by norm_num)
  have hA : In 0 101 (rnd (a + 1)) := h.mem (one_add_in ha).1 (one_add_in ha).2 (by norm_num) (by norm_num)
  have hy : In (-100) 151 (rnd (rnd (a + 1) * s)) := by
    have := mul_in hA.2 hs.2
    exact h.mem this.1 this.2 (by norm_num) (by norm_num)
  obtain ⟨c1, c2, c3⟩ := diff_ok h hx.1 hy.1 (by rw [abs_of_pos hx.pos]; exact hx.2.2) hy.2.1 (hy.2.2.trans (zpow_le (by norm_num)))
    (by norm_num) (by norm_num) (by norm_num) (by norm_num)
  have h4 : In (-98) 102 (rnd (4 * a)) := by
    have := mul_in (lit 2 4 (by norm_num)) ha.2
    exact h.mem this.1 this.2 (by norm_num) (by norm_num)
  have h4A : In (-98) 203 (rnd (rnd (4 * a) * rnd (a + 1))) := by
    have := mul_in h4.2 hA.2
    exact h.mem this.1 this.2 (by norm_num) (by norm_num)
  have h4m : In (-98) 256 (rnd (rnd (rnd (4 * a) * rnd (a + 1)) * m)) := by
    have := mul_in h4A.2 (nat_in hm hm2)
    exact h.mem this.1 this.2 (by norm_num) (by norm_num)
  have ht : In (-198) 306 (wt rnd s m a) := by
    have := mul_in h4m.2 hs.2
    exact h.mem this.1 this.2 (by norm_num) (by norm_num)
  obtain ⟨r1, r2⟩ := root_ge h c1 c2 c3 ht.pos.le (ht.2.2.trans (zpow_le (by norm_num)))
  obtain ⟨-, g1, g2⟩ := h.upto r1 r2 (by norm_num) (by norm_num)
  have h2 : In (-99) 101 (rnd (2 * a)) := by
    have := mul_in (lit 1 2 (by norm_num)) ha.2
    exact h.mem this.1 this.2 (by norm_num) (by norm_num)
  have hD : In (-99) 202 (rnd (rnd (2 * a) * rnd (a + 1))) := by
    have := mul_in h2.2 hA.2
    exact h.mem this.1 this.2 (by norm_num) (by norm_num)
  have hq := div_upto g1 g2 hD.2.1
  obtain ⟨-, b1, b2⟩ := h.upto hq.1 hq.2 (by norm_num) (by norm_num)
  have hn' : (n : ℝ) ≠ 0 := by exact_mod_cast hn.ne'
  have hm' : (m : ℝ) ≠ 0 := by exact_mod_cast hm.ne'
  have hval : wback rnd s n m a = rnd (rnd (wc rnd s n m a + root rnd (wc rnd s n m a) (wt rnd s m a)) / rnd (rnd (2 * a) * rnd (a + 1))) := by
    simp only [wback, if_neg hn', if_neg hm']
  rw [hval]
  exact ⟨b1, b2.trans (zpow_le (by norm_num))⟩

theorem small_neg {u w y q : ℝ} (hu : 0 ≤ u) (hu2 : u ≤ 1 / 16) (hq : 0 ≤ q) (hw : w ≤ 4 * u * y) (hy : y ≤ (1 + u) * q) : (1 + u) * w ≤ 8 * u * q := by
  have h1 : w ≤ 4 * u * ((1 + u) * q) := hw.trans (mul_le_mul_of_nonneg_left hy (by linarith))
  have h2 : (1 + u) * w ≤ (1 + u) * (4 * u * ((1 + u) * q)) := mul_le_mul_of_nonneg_left h1 (by linarith)
  have h3 : (1 + u) * (1 + u) ≤ 2 := by nlinarith
  have h4 : (1 + u) * (1 + u) * (4 * u * q) ≤ 2 * (4 * u * q) := mul_le_mul_of_nonneg_right h3 (by positivity)
  linarith

/-- No counts in the background region, source weaker than the data. -/
theorem wback_none {rnd} (h : Nearest rnd) {s a : ℝ} (hs : In (-100) 50 s) (ha : In (-100) 100 a) {n : ℕ} (hn : 0 < n) (hn2 : n ≤ 2 ^ 53)
    (hle : s ≤ rnd (rnd (a / rnd (a + 1)) * n)) :
    -(2 ^ (-50 : ℤ) * (s / a)) ≤ rnd (rnd (n / rnd (1 + a)) - rnd (s / a)) ∧ rnd (rnd (n / rnd (1 + a)) - rnd (s / a)) ≤ 2 ^ (700 : ℤ) := by
  rw [add_comm (1 : ℝ) a]
  have hA : In 0 101 (rnd (a + 1)) := h.mem (one_add_in ha).1 (one_add_in ha).2 (by norm_num) (by norm_num)
  set A := rnd (a + 1)
  have hA0 := hA.pos
  have ha0 := ha.pos
  have hn1 := nat_in hn hn2
  have hn0 : (0 : ℝ) < n := by exact_mod_cast hn
  have iz := div_in hn1 hA.2
  have iY := div_in hs.2 ha.2
  have iρ := div_in ha.2 hA.2
  have hρ := h.mem iρ.1 iρ.2 (by norm_num) (by norm_num)
  have iT := mul_in hρ.2 hn1
  have eρ := (abs_le.1 (h.rel iρ (by norm_num) (by norm_num))).2
  have eT := (abs_le.1 (h.rel iT (by norm_num) (by norm_num))).2
  have eY := (abs_le.1 (h.rel iY (by norm_num) (by norm_num))).2
  have eX := (abs_le.1 (h.rel iz (by norm_num) (by norm_num))).1
  have hX := h.mem iz.1 iz.2 (by norm_num) (by norm_num)
  have hY := h.mem iY.1 iY.2 (by norm_num) (by norm_num)
  set ρ := rnd (a / A)
  set T := rnd (ρ * n)
  set X := rnd (n / A)
  set Y := rnd (s / a)
  have hu := unit_pos
  have hu1 : unit = 1 / 2 ^ 53 := by unfold unit; norm_num
  have hu2 : unit ≤ 1 / 16 := by rw [hu1]; norm_num
  have z0 : 0 < (n : ℝ) / A := by positivity
  -- the quotient `s / a` against `n / A`
  have k1 : s / a ≤ (1 + unit) ^ 2 * (n / A) := by
    rw [div_le_iff₀ ha0]
    have k2 : ρ ≤ (1 + unit) * (a / A) := by linarith
    have k3 : s ≤ (1 + unit) * (ρ * n) := by linarith
    have k4 : ρ * n ≤ (1 + unit) * (a / A) * n := mul_le_mul_of_nonneg_right k2 hn0.le
    have k5 : (1 + unit) * (ρ * n) ≤ (1 + unit) * ((1 + unit) * (a / A) * n) := mul_le_mul_of_nonneg_left k4 (by linarith)
    refine (k3.trans k5).trans (le_of_eq ?_)
    field_simp
  have k6 : Y ≤ (1 + unit) ^ 3 * (n / A) := by
    have : Y ≤ (1 + unit) * (s / a) := by linarith
    refine this.trans ?_
    calc (1 + unit) * (s / a) ≤ (1 + unit) * ((1 + unit) ^ 2 * (n / A)) := mul_le_mul_of_nonneg_left k1 (by linarith)
      _ = _ := by ring
  have k7 : (1 - 4 * unit) * Y ≤ X := by
    have p1 : (1 - 4 * unit) * Y ≤ (1 - 4 * unit) * ((1 + unit) ^ 3 * (n / A)) := mul_le_mul_of_nonneg_left k6 (by linarith)
    have p2 : (1 - 4 * unit) * (1 + unit) ^ 3 ≤ 1 - unit := by nlinarith [pow_pos hu 2, pow_pos hu 3, pow_pos hu 4]
    have p3 := mul_le_mul_of_nonneg_right p2 z0.le
    have p4 : (1 - unit) * (n / A) ≤ X := by linarith
    nlinarith
  have hXb : X ≤ 2 ^ (53 : ℤ) := hX.2.2.trans (zpow_le (by norm_num))
  have sa0 : 0 < s / a := div_pos hs.pos ha0
  have e50 : (2 : ℝ) ^ (-50 : ℤ) = 8 * unit := by unfold unit; norm_num
  rcases le_or_gt Y X with hc | hc
  · have hd0 : 0 ≤ X - Y := by linarith
    have hd1 : X - Y ≤ 2 ^ (53 : ℤ) := le_trans (by linarith [hY.pos]) hXb
    obtain ⟨-, r1, r2⟩ := h.upto hd0 hd1 (by norm_num) (by norm_num)
    refine ⟨le_trans ?_ r1, r2.trans (zpow_le (by norm_num))⟩
    have : 0 < (2 : ℝ) ^ (-50 : ℤ) * (s / a) := mul_pos (two_zpow_pos _) sa0
    linarith
  · have w1 := apart hX.1 hY.1 hc hY.2.1
    have w2 : Y - X ≤ 2 ^ (150 : ℤ) := le_trans (by linarith [hX.pos]) (hY.2.2.trans (zpow_le (by norm_num)))
    have hr := abs_le.1 (h.rel_neg ⟨w1, w2⟩ (by norm_num) (by norm_num))
    rw [show X - Y = -(Y - X) by ring]
    have w3 : Y - X ≤ 4 * unit * Y := by linarith
    have w4 : 0 < Y - X := by linarith
    have w5 : Y ≤ (1 + unit) * (s / a) := by linarith
    constructor
    · rw [e50]
      have v1 : -((1 + unit) * (Y - X)) ≤ rnd (-(Y - X)) := by linarith [hr.1]
      exact le_trans (neg_le_neg (small_neg hu.le hu2 sa0.le w3 w5)) v1
    · have : rnd (-(Y - X)) ≤ 0 := by
        have : unit * (Y - X) ≤ 1 / 16 * (Y - X) := mul_le_mul_of_nonneg_right hu2 w4.le
        linarith [hr.2]
      exact this.trans (two_zpow_pos _).le

/-- **C146 (W-statistic).** In float64, for every expected number of source counts `s` the code can use (it clips them to `1e-30 … 1e15`), ratio `a` and whole
numbers of counts: the rate of the source region is positive, so that its logarithm is defined; the profile background is not negative, except that it can
fall below zero by a rounding error of at most `2 ^ -50 * s / a` when there are no counts in the background region. -/
theorem C146_wstat {rnd} (h : Nearest rnd) {s a : ℝ} (hs : In (-100) 50 s) (ha : In (-100) 100 a) (n m : ℕ) (hn : n ≤ 2 ^ 53) (hm : m ≤ 2 ^ 53) :
    0 < onRate rnd s a (wback rnd s n m a) ∧ (0 < m ∨ n = 0 → 0 ≤ wback rnd s n m a) ∧ -(2 ^ (-50 : ℤ) * (s / a)) ≤ wback rnd s n m a := by
  have sa0 : 0 < (2 : ℝ) ^ (-50 : ℤ) * (s / a) := mul_pos (two_zpow_pos _) (div_pos hs.pos ha.pos)
  have good : ∀ b : ℝ, 0 ≤ b → b ≤ 2 ^ (700 : ℤ) → 0 < onRate rnd s a b ∧ (0 < m ∨ n = 0 → 0 ≤ b) ∧ -(2 ^ (-50 : ℤ) * (s / a)) ≤ b := fun b h0 h1 =>
    ⟨hs.pos.trans_le (onRate_pos h hs ha h0 h1), fun _ => h0, by linarith⟩
  rcases Nat.eq_zero_or_pos n with hn0 | hn0
  · have hval : wback rnd s n m a = rnd (m / rnd (1 + a)) := by simp only [wback, hn0, Nat.cast_zero, if_true]
    have hA : In 0 101 (rnd (1 + a)) := by
      rw [add_comm]; exact h.mem (one_add_in ha).1 (one_add_in ha).2 (by norm_num) (by norm_num)
    have hmb : (m : ℝ) ≤ 2 ^ (53 : ℤ) := by
      rw [show (53 : ℤ) = ((53 : ℕ) : ℤ) by norm_num, zpow_natCast]; exact_mod_cast hm
    have hq := div_upto (Nat.cast_nonneg m) hmb hA.2.1
    obtain ⟨-, b1, b2⟩ := h.upto hq.1 hq.2 (by norm_num) (by norm_num)
    rw [hval]
    exact good _ b1 (b2.trans (zpow_le (by norm_num)))
  · rcases Nat.eq_zero_or_pos m with hm0 | hm0
    · have hn' : (n : ℝ) ≠ 0 := by exact_mod_cast hn0.ne'
      by_cases hle : s ≤ rnd (rnd (a / rnd (a + 1)) * n)
      · have hval : wback rnd s n m a = rnd (rnd (n / rnd (1 + a)) - rnd (s / a)) := by
          simp only [wback, hm0, Nat.cast_zero, if_true, if_neg hn', if_pos hle]
        obtain ⟨b1, b2⟩ := wback_none h hs ha hn0 hn hle
        rw [hval]
        generalize rnd (rnd (n / rnd (1 + a)) - rnd (s / a)) = b at b1 b2
        refine ⟨?_, fun hor => by omega, b1⟩
        rcases le_or_gt 0 b with hb | hb
        · exact (good b hb b2).1
        · obtain ⟨k, hk1, hk2⟩ := exists_mem_Ico_zpow hs.pos (by norm_num : (1 : ℝ) < 2)
          have hka : -102 < k := by
            by_contra hc
            have : (2 : ℝ) ^ (k + 1) ≤ 2 ^ (-100 : ℤ) := zpow_le (by omega)
            have := hs.2.1
            linarith
          have hkb : k ≤ 50 := by
            by_contra hc
            have u1 : (2 : ℝ) ^ (50 : ℤ) < 2 ^ k := zpow_lt_zpow_right₀ (by norm_num) (by omega)
            have := hs.2.2
            linarith
          have hab : -(2 ^ (-50 : ℤ) * s) ≤ a * b := by
            have := mul_le_mul_of_nonneg_left b1 ha.pos.le
            refine le_trans (le_of_eq ?_) this
            have := ha.pos.ne'
            field_simp
          have hab0 : a * b ≤ 0 := mul_nonpos_of_nonneg_of_nonpos ha.pos.le hb.le
          have e1 : (2 : ℝ) ^ (k + 1) = 4 * 2 ^ (k - 1) := by
            rw [show k + 1 = 2 + (k - 1) by ring, zpow_add₀ (by norm_num)]; norm_num
          have e2 : (2 : ℝ) ^ k = 2 * 2 ^ (k - 1) := by
            have : (2 : ℝ) ^ k = 2 ^ (1 + (k - 1)) := by congr 1; ring
            rw [this, zpow_add₀ (by norm_num), zpow_one]
          have hsm : (2 : ℝ) ^ (-50 : ℤ) * s ≤ 2 ^ (k - 1) := by
            have : (2 : ℝ) ^ (-50 : ℤ) ≤ 1 / 4 := by norm_num
            have := mul_le_mul_of_nonneg_right this hs.pos.le
            refine this.trans ?_
            rw [e1] at hk2
            linarith
          have hbb : |a * b| ≤ 2 ^ (1023 : ℤ) := by
            rw [abs_of_nonpos hab0]
            refine le_trans (by linarith) (zpow_le (show k - 1 ≤ 1023 by omega))
          have hr := h.ge hbb (rep_neg (rep_pow (p := k - 1) (by omega) (by omega))) (by linarith)
          have hr0 := h.le hbb rep_zero hab0
          have hlow : (2 : ℝ) ^ (k - 1) ≤ s + rnd (a * b) := by linarith
          have hup : s + rnd (a * b) ≤ 2 ^ (50 : ℤ) := le_trans (by linarith) hs.2.2
          exact (h.mem hlow hup (by omega) (by norm_num)).pos
      · have hval : wback rnd s n m a = 0 := by
          simp only [wback, hm0, Nat.cast_zero, if_true, if_neg hn', if_neg hle]
        rw [hval]
        exact good 0 (le_refl _) (two_zpow_pos _).le
    · obtain ⟨b1, b2⟩ := wback_main h hs ha hn0 hm0 hn hm
      exact good _ b1 b2

/-! ## PG-statistic -/

theorem mul_abs {p q : ℤ} {x y : ℝ} (hx : |x| ≤ 2 ^ p) (hy : |y| ≤ 2 ^ q) : |x * y| ≤ 2 ^ (p + q) := by
  rw [abs_mul, zpow_add₀ (by norm_num)]
  exact mul_le_mul hx hy (abs_nonneg _) (two_zpow_pos _).le

theorem add_abs {p q r : ℤ} {x y : ℝ} (hx : |x| ≤ 2 ^ p) (hy : |y| ≤ 2 ^ q) (h1 : p < r) (h2 : q < r) : |x + y| ≤ 2 ^ r := by
  have e : (2 : ℝ) ^ r = 2 ^ (r - 1) + 2 ^ (r - 1) := by
    have : (2 : ℝ) ^ r = 2 ^ (1 + (r - 1)) := by congr 1; ring
    rw [this, zpow_add₀ (by norm_num), zpow_one]; ring
  rw [e]
  exact (abs_add_le x y).trans (add_le_add (hx.trans (zpow_le (by omega))) (hy.trans (zpow_le (by omega))))

theorem Nearest.abs_le {rnd} (h : Nearest rnd) {x : ℝ} {q : ℤ} (hx : |x| ≤ 2 ^ q) (h1 : -1022 ≤ q) (h2 : q ≤ 1023) : Rep (rnd x) ∧ |rnd x| ≤ 2 ^ q := by
  have hb : |x| ≤ 2 ^ (1023 : ℤ) := hx.trans (zpow_le h2)
  have := _root_.abs_le.1 hx
  exact ⟨h.rep hb, _root_.abs_le.2 ⟨h.ge hb (rep_neg (rep_pow h1 h2)) this.1, h.le hb (rep_pow h1 h2) this.2⟩⟩

theorem In.abs {p q : ℤ} {x : ℝ} (h : In p q x) : |x| ≤ 2 ^ q := by rw [abs_of_pos h.pos]; exact h.2.2

/-- **C146 (PG-statistic).** In float64, for whole numbers of counts and a background estimate with a positive error: the profile background is not negative and
the rate of the source region is not below the expected source counts, so that its logarithm is defined. -/
theorem C146_pgstat {rnd} (h : Nearest rnd) {s a bEst bErr : ℝ} (hs : In (-100) 50 s) (ha : In (-100) 100 a) (hb : Rep bEst) (hb2 : |bEst| ≤ 2 ^ (100 : ℤ))
    (he : In (-100) 100 bErr) (n : ℕ) (hn : n ≤ 2 ^ 53) :
    0 ≤ pgback rnd s n bEst bErr a ∧ s ≤ onRate rnd s a (pgback rnd s n bEst bErr a) := by
  have hv : In (-200) 200 (rnd (bErr * bErr)) := by
    have := mul_in he.2 he.2
    exact h.mem this.1 this.2 (by norm_num) (by norm_num)
  have hav : In (-300) 300 (rnd (a * rnd (bErr * bErr))) := by
    have := mul_in ha.2 hv.2
    exact h.mem this.1 this.2 (by norm_num) (by norm_num)
  generalize hvar : rnd (bErr * bErr) = variance at hv hav
  generalize hAV : rnd (a * variance) = av at hav
  have hes : |bEst - av| ≤ 2 ^ (301 : ℤ) := by
    rw [sub_eq_add_neg]
    exact add_abs hb2 (by rw [abs_neg]; exact hav.abs) (by norm_num) (by norm_num)
  obtain ⟨e1, e2⟩ := h.abs_le hes (by norm_num) (by norm_num)
  have eneg : rnd (bEst - av) < 0 → rnd (bEst - av) ≤ -2 ^ (-353 : ℤ) := by
    intro hlt
    have hb' : |bEst - av| ≤ 2 ^ (1023 : ℤ) := hes.trans (zpow_le (by norm_num))
    have hba : bEst < av := by
      by_contra hc
      exact absurd (h.nonneg hb' (by linarith)) (not_le.2 hlt)
    have hd := apart hb hav.1 hba hav.2.1
    exact h.le hb' (rep_neg (rep_pow (by norm_num) (by norm_num))) (by
      have : (2 : ℝ) ^ (-300 - 53 : ℤ) = 2 ^ (-353 : ℤ) := by norm_num
      rw [this] at hd
      linarith)
  generalize hE : rnd (bEst - av) = e at e1 e2 eneg
  have hnb : |(n : ℝ)| ≤ 2 ^ (53 : ℤ) := by
    rw [abs_of_nonneg (Nat.cast_nonneg n), show (53 : ℤ) = ((53 : ℕ) : ℤ) by norm_num, zpow_natCast]; exact_mod_cast hn
  have hg := h.abs_le (mul_abs hav.abs hnb) (by norm_num) (by norm_num)
  have hg0 : 0 ≤ rnd (av * n) := h.nonneg ((mul_abs hav.abs hnb).trans (zpow_le (by norm_num))) (mul_nonneg hav.pos.le (Nat.cast_nonneg n))
  have hesb := mul_abs e2 hs.abs
  have hk := h.abs_le hesb (by norm_num) (by norm_num)
  have hfs := add_abs (r := 354) hg.2 hk.2 (by norm_num) (by norm_num)
  have hf := h.abs_le hfs (by norm_num) (by norm_num)
  have f0 : 0 ≤ e → 0 ≤ rnd (rnd (av * n) + rnd (e * s)) := fun h0 =>
    h.nonneg (hfs.trans (zpow_le (by norm_num)))
      (add_nonneg hg0 (h.nonneg (hesb.trans (zpow_le (by norm_num))) (mul_nonneg h0 hs.pos.le)))
  have fneg : n = 0 → e < 0 → rnd (rnd (av * n) + rnd (e * s)) < 0 := by
    intro hn0 hlt
    have h1 : e * s ≤ -2 ^ (-453 : ℤ) := by
      have m1 : (2 : ℝ) ^ (-353 : ℤ) * 2 ^ (-100 : ℤ) ≤ (-e) * s := mul_le_mul (by linarith [eneg hlt]) hs.2.1 (two_zpow_pos _).le (by linarith)
      rw [← zpow_add₀ (by norm_num)] at m1
      have : (2 : ℝ) ^ (-353 + -100 : ℤ) = 2 ^ (-453 : ℤ) := by norm_num
      rw [this] at m1
      linarith
    have h2 : rnd (e * s) ≤ -2 ^ (-453 : ℤ) :=
      h.le (hesb.trans (zpow_le (by norm_num))) (rep_neg (rep_pow (by norm_num) (by norm_num))) h1
    have h3 : rnd (av * n) = 0 := by
      rw [hn0, Nat.cast_zero, mul_zero]; exact h.fix rep_zero (by rw [abs_zero]; exact (two_zpow_pos _).le)
    rw [h3, zero_add]
    have h4 := h.le (hk.2.trans (zpow_le (by norm_num))) (rep_neg (rep_pow (p := -453) (by norm_num) (by norm_num))) h2
    exact h4.trans_lt (neg_lt_zero.2 (two_zpow_pos _))
  generalize hF : rnd (rnd (av * n) + rnd (e * s)) = f at hf f0 fneg
  have hae := h.abs_le (mul_abs ha.abs e2) (by norm_num) (by norm_num)
  obtain ⟨c1, c2, c3⟩ := diff_ok h hae.1 hs.1 hae.2 hs.2.1 (hs.2.2.trans (zpow_le (by norm_num))) (by norm_num) (by norm_num) (by norm_num) (by norm_num)
  have h4 : In (-98) 102 (rnd (4 * a)) := by
    have := mul_in (lit 2 4 (by norm_num)) ha.2
    exact h.mem this.1 this.2 (by norm_num) (by norm_num)
  have h2 : In (-99) 101 (rnd (2 * a)) := by
    have := mul_in (lit 1 2 (by norm_num)) ha.2
    exact h.mem this.1 this.2 (by norm_num) (by norm_num)
  have htb := mul_abs h4.abs hf.2
  have ht := h.abs_le htb (by norm_num) (by norm_num)
  have main : 0 ≤ f → 0 ≤ rnd (rnd (rnd (rnd (a * e) - s) + root rnd (rnd (rnd (a * e) - s)) (rnd (rnd (4 * a) * f))) / rnd (2 * a)) ∧
      rnd (rnd (rnd (rnd (a * e) - s) + root rnd (rnd (rnd (a * e) - s)) (rnd (rnd (4 * a) * f))) / rnd (2 * a)) ≤ 2 ^ (700 : ℤ) := by
    intro hf0
    have ht0 : 0 ≤ rnd (rnd (4 * a) * f) := h.nonneg (htb.trans (zpow_le (by norm_num))) (mul_nonneg h4.pos.le hf0)
    obtain ⟨r1, r2⟩ := root_ge h c1 c2 c3 ht0 (((le_abs_self _).trans ht.2).trans (zpow_le (by norm_num)))
    obtain ⟨-, g1, g2⟩ := h.upto r1 r2 (by norm_num) (by norm_num)
    have hq := div_upto g1 g2 h2.2.1
    obtain ⟨-, b1, b2⟩ := h.upto hq.1 hq.2 (by norm_num) (by norm_num)
    exact ⟨b1, b2.trans (zpow_le (by norm_num))⟩
  have hres : 0 ≤ pgback rnd s n bEst bErr a ∧ pgback rnd s n bEst bErr a ≤ 2 ^ (700 : ℤ) := by
    have hdef : pgback rnd s n bEst bErr a = if 0 ≤ e ∨ 0 ≤ f then
        (if (0 : ℝ) < n then rnd (rnd (rnd (rnd (a * e) - s) + root rnd (rnd (rnd (a * e) - s)) (rnd (rnd (4 * a) * f))) / rnd (2 * a)) else e) else 0 := by
      simp only [pgback, hvar, hAV, hE, hF]
    rw [hdef]
    split_ifs with k1 k2
    · exact main (k1.elim f0 id)
    · have hn0 : n = 0 := by
        by_contra hne
        exact k2 (by exact_mod_cast Nat.pos_of_ne_zero hne)
      have he0 : 0 ≤ e := by
        by_contra hc
        rcases k1 with k1 | k1
        · exact hc k1
        · exact absurd (fneg hn0 (not_le.1 hc)) (not_lt.2 k1)
      exact ⟨he0, ((le_abs_self _).trans e2).trans (zpow_le (by norm_num))⟩
    · exact ⟨le_refl _, (two_zpow_pos _).le⟩
  exact ⟨hres.1, onRate_pos h hs ha hres.1 hres.2⟩

/-! ## The exceptions -/

/-- A result closer than half a step to a number of the format that is not a power of two is rounded to it. -/
theorem Nearest.eq {rnd} (h : Nearest rnd) {x y : ℝ} (M E : ℤ) (hy : y = M * 2 ^ E) (hM : 2 ^ 52 < |M|) (hM2 : |M| < 2 ^ 53) (hE1 : -1000 ≤ E) (hE2 : E ≤ 900)
    (hx : |x - y| < 2 ^ (E - 1)) : rnd x = y := by
  have hE := two_zpow_pos E
  have e1 : (2 : ℝ) ^ E = 2 * 2 ^ (E - 1) := by
    have : (2 : ℝ) ^ E = 2 ^ (1 + (E - 1)) := by congr 1; ring
    rw [this, zpow_add₀ (by norm_num), zpow_one]
  have hyr : Rep y := ⟨M, E, hM2, by omega, by omega, hy⟩
  have hMr : (2 : ℝ) ^ 52 + 1 ≤ |(M : ℝ)| := by exact_mod_cast (by omega : 2 ^ 52 + 1 ≤ |M|)
  have hMr2 : |(M : ℝ)| ≤ 2 ^ 53 := by exact_mod_cast hM2.le
  have hay : |y| = |(M : ℝ)| * 2 ^ E := by rw [hy, abs_mul, abs_of_pos hE]
  have e52 : (2 : ℝ) ^ (E + 52) = 2 ^ 52 * 2 ^ E := by rw [zpow_add₀ (by norm_num), mul_comm]; norm_num
  have e53 : (2 : ℝ) ^ (E + 53) = 2 ^ 53 * 2 ^ E := by rw [zpow_add₀ (by norm_num), mul_comm]; norm_num
  have hylow : 2 ^ (E + 52) + 2 ^ E ≤ |y| := by
    rw [hay, e52]
    have := mul_le_mul_of_nonneg_right hMr hE.le
    linarith
  have hyup : |y| ≤ 2 ^ (E + 53) := by rw [hay, e53]; exact mul_le_mul_of_nonneg_right hMr2 hE.le
  have hxb : |x| ≤ 2 ^ (1023 : ℤ) := by
    have h1 : |x| ≤ 2 ^ (E + 54) := by
      have : x = (x - y) + y := by ring
      rw [this]
      exact add_abs (p := E - 1) (q := E + 53) hx.le hyup (by omega) (by omega)
    exact h1.trans (zpow_le (by omega))
  obtain ⟨hr, hn⟩ := h x (by rwa [nat1023])
  have hny := hn y hyr
  rw [abs_sub_comm y x] at hny
  have hry : |rnd x - y| < 2 ^ E := by
    have : rnd x - y = (rnd x - x) + (x - y) := by ring
    rw [this, e1, two_mul]
    exact (abs_add_le _ _).trans_lt (add_lt_add_of_le_of_lt (hny.trans hx.le) hx)
  have hrlow : 2 ^ (E + 52) ≤ |rnd x| := by
    have : |y| ≤ |rnd x| + |rnd x - y| := by
      have h1 : y = rnd x - (rnd x - y) := by ring
      calc |y| = |rnd x - (rnd x - y)| := by rw [← h1]
        _ ≤ _ := abs_sub _ _
    linarith
  obtain ⟨k, hk⟩ := multiple hr hrlow
  rw [show E + 52 - 52 = E by ring] at hk
  rw [hk, hy, ← sub_mul, abs_mul, abs_of_pos hE] at hry
  have hlt : |(k : ℝ) - M| < 1 := by
    by_contra hc
    have := mul_le_mul_of_nonneg_right (not_lt.1 hc) hE.le
    linarith
  have : |k - M| < 1 := by exact_mod_cast hlt
  have : k = M := by
    have := Int.abs_lt_one_iff.1 this
    omega
  rw [hk, hy, this]

theorem small_abs {x : ℝ} (h : |x| ≤ 2 ^ 200) : |x| ≤ 2 ^ (1023 : ℤ) := by
  refine h.trans ?_
  rw [← zpow_natCast]
  exact zpow_le (by norm_num)

/-- **C146 (exception).** A background rate below zero is reached, in every round-to-nearest arithmetic: no counts in the background region, 7 counts in the source
region, ratio 1/4 and the expected source counts `1.4000000000000001`.  (Simulating data from such a rate raises an error in numpy.) -/
theorem C146_negative_refuted {rnd} (h : Nearest rnd) :
    In (-100) 50 (6305039478318695 * 2 ^ (-52 : ℤ)) ∧ In (-100) 100 (1 / 4) ∧ wback rnd (6305039478318695 * 2 ^ (-52 : ℤ)) (7 : ℕ) (0 : ℕ) (1 / 4) < 0 := by
  have hrs : Rep (6305039478318695 * 2 ^ (-52 : ℤ)) := ⟨6305039478318695, -52, by norm_num, by norm_num, by norm_num, by norm_num⟩
  refine ⟨⟨hrs, by norm_num, by norm_num⟩, ⟨⟨1, -2, by norm_num, by norm_num, by norm_num, by norm_num⟩, by norm_num, by norm_num⟩, ?_⟩
  have hA : rnd (1 / 4 + 1) = 5 / 4 := by
    rw [show (1 / 4 + 1 : ℝ) = 5 / 4 by norm_num]
    exact h.fix ⟨5, -2, by norm_num, by norm_num, by norm_num, by norm_num⟩ (small_abs (by norm_num [abs_of_pos]))
  have hA' : rnd (1 + 1 / 4) = 5 / 4 := by rw [add_comm]; exact hA
  have hρ : rnd (1 / 4 / (5 / 4)) = 7205759403792794 * 2 ^ (-55 : ℤ) :=
    h.eq 7205759403792794 (-55) (by norm_num) (by norm_num) (by norm_num) (by norm_num) (by norm_num) (by rw [abs_lt]; norm_num)
  have hT : rnd (7205759403792794 * 2 ^ (-55 : ℤ) * (7 : ℕ)) = 6305039478318695 * 2 ^ (-52 : ℤ) :=
    h.eq 6305039478318695 (-52) (by norm_num) (by norm_num) (by norm_num) (by norm_num) (by norm_num) (by rw [abs_lt]; norm_num)
  have hX : rnd (((7 : ℕ) : ℝ) / (5 / 4)) = 6305039478318694 * 2 ^ (-50 : ℤ) :=
    h.eq 6305039478318694 (-50) (by norm_num) (by norm_num) (by norm_num) (by norm_num) (by norm_num) (by rw [abs_lt]; norm_num)
  have hY : rnd (6305039478318695 * 2 ^ (-52 : ℤ) / (1 / 4)) = 6305039478318695 * 2 ^ (-50 : ℤ) := by
    rw [show (6305039478318695 * 2 ^ (-52 : ℤ) / (1 / 4) : ℝ) = 6305039478318695 * 2 ^ (-50 : ℤ) by norm_num]
    exact h.fix ⟨6305039478318695, -50, by norm_num, by norm_num, by norm_num, by norm_num⟩ (small_abs (by norm_num [abs_of_pos]))
  have hD : rnd (6305039478318694 * 2 ^ (-50 : ℤ) - 6305039478318695 * 2 ^ (-50 : ℤ)) = -2 ^ (-50 : ℤ) := by
    rw [show (6305039478318694 * 2 ^ (-50 : ℤ) - 6305039478318695 * 2 ^ (-50 : ℤ) : ℝ) = -2 ^ (-50 : ℤ) by ring]
    exact h.fix (rep_neg (rep_pow (by norm_num) (by norm_num))) (by rw [abs_neg, abs_of_pos (two_zpow_pos _)]; exact zpow_le (by norm_num))
  have h7 : ((7 : ℕ) : ℝ) ≠ 0 := by norm_num
  have hval : wback rnd (6305039478318695 * 2 ^ (-52 : ℤ)) (7 : ℕ) (0 : ℕ) (1 / 4) = -2 ^ (-50 : ℤ) := by
    simp only [wback, if_neg h7, Nat.cast_zero, if_true, hA, hA', hρ, hT, hX, hY, hD, le_refl]
  rw [hval]
  exact neg_lt_zero.2 (two_zpow_pos _)

/-- **C146 (exception).** A background rate of zero is reached although a background count was observed (the logarithm in the statistic is then minus infinity), for
a ratio of `2 ^ -10` and `2 ^ 49` expected source counts; the exact profile background is positive there. -/
theorem C146_zero_refuted {rnd} (h : Nearest rnd) :
    In (-100) 50 (2 ^ (49 : ℤ)) ∧ In (-100) 100 (2 ^ (-10 : ℤ)) ∧ wback rnd (2 ^ (49 : ℤ)) (1 : ℕ) (1 : ℕ) (2 ^ (-10 : ℤ)) = 0 ∧
      0 < wstatBackground (2 ^ (49 : ℤ)) (1 : ℕ) (1 : ℕ) (2 ^ (-10 : ℤ)) := by
  refine ⟨⟨rep_pow (by norm_num) (by norm_num), by norm_num, by norm_num⟩, ⟨rep_pow (by norm_num) (by norm_num), by norm_num, by norm_num⟩, ?_, ?_⟩
  · have f (x : ℝ) (m e : ℤ) (hx : x = m * 2 ^ e) (hm : |m| < 2 ^ 53) (h1 : -1074 ≤ e) (h2 : e ≤ 100) : rnd x = m * 2 ^ e := by
      rw [hx]
      refine h.fix ⟨m, e, hm, h1, by omega, rfl⟩ ?_
      have hmr : |(m : ℝ)| ≤ 2 ^ (53 : ℤ) := by
        rw [show (53 : ℤ) = ((53 : ℕ) : ℤ) by norm_num, zpow_natCast]; exact_mod_cast hm.le
      exact (mul_abs hmr (by rw [abs_of_pos (two_zpow_pos e)])).trans (zpow_le (by omega))
    have hN := f (((1 : ℕ) : ℝ) + (1 : ℕ)) 1 1 (by norm_num) (by norm_num) (by norm_num) (by norm_num)
    have hx := f (2 ^ (-10 : ℤ) * (((1 : ℤ) : ℝ) * 2 ^ (1 : ℤ))) 1 (-9) (by norm_num) (by norm_num) (by norm_num) (by norm_num)
    have hA := f (2 ^ (-10 : ℤ) + 1) 1025 (-10) (by norm_num) (by norm_num) (by norm_num) (by norm_num)
    have hy := f (((1025 : ℤ) : ℝ) * 2 ^ (-10 : ℤ) * 2 ^ (49 : ℤ)) 1025 39 (by norm_num) (by norm_num) (by norm_num) (by norm_num)
    have hc : rnd (((1 : ℤ) : ℝ) * 2 ^ (-9 : ℤ) - ((1025 : ℤ) : ℝ) * 2 ^ (39 : ℤ)) = -(1025 * 2 ^ (39 : ℤ)) :=
      h.eq (-(1025 * 2 ^ 42)) (-3) (by norm_num) (by norm_num) (by norm_num) (by norm_num) (by norm_num) (by rw [abs_lt]; norm_num)
    have hcc := f (-(1025 * 2 ^ (39 : ℤ)) * -(1025 * 2 ^ (39 : ℤ))) 1050625 78 (by norm_num) (by norm_num) (by norm_num) (by norm_num)
    have h4 := f (4 * 2 ^ (-10 : ℤ)) 1 (-8) (by norm_num) (by norm_num) (by norm_num) (by norm_num)
    have h4A := f (((1 : ℤ) : ℝ) * 2 ^ (-8 : ℤ) * (((1025 : ℤ) : ℝ) * 2 ^ (-10 : ℤ))) 1025 (-18) (by norm_num) (by norm_num) (by norm_num) (by norm_num)
    have h4m := f (((1025 : ℤ) : ℝ) * 2 ^ (-18 : ℤ) * (1 : ℕ)) 1025 (-18) (by norm_num) (by norm_num) (by norm_num) (by norm_num)
    have ht := f (((1025 : ℤ) : ℝ) * 2 ^ (-18 : ℤ) * 2 ^ (49 : ℤ)) 1025 31 (by norm_num) (by norm_num) (by norm_num) (by norm_num)
    have hsum : rnd (((1050625 : ℤ) : ℝ) * 2 ^ (78 : ℤ) + ((1025 : ℤ) : ℝ) * 2 ^ (31 : ℤ)) = 1050625 * 2 ^ (78 : ℤ) :=
      h.eq (1050625 * 2 ^ 32) 46 (by norm_num) (by norm_num) (by norm_num) (by norm_num) (by norm_num) (by rw [abs_lt]; norm_num)
    have hsq : Real.sqrt (1050625 * 2 ^ (78 : ℤ)) = 1025 * 2 ^ (39 : ℤ) := by
      rw [show (1050625 * 2 ^ (78 : ℤ) : ℝ) = (1025 * 2 ^ (39 : ℤ)) ^ 2 by norm_num]
      exact Real.sqrt_sq (by norm_num)
    have hd := f (1025 * 2 ^ (39 : ℤ)) 1025 39 (by norm_num) (by norm_num) (by norm_num) (by norm_num)
    have h0 : rnd 0 = 0 := h.fix rep_zero (by rw [abs_zero]; exact (two_zpow_pos _).le)
    have hz : -(1025 * 2 ^ (39 : ℤ)) + ((1025 : ℤ) : ℝ) * 2 ^ (39 : ℤ) = 0 := by norm_num
    have h1 : ((1 : ℕ) : ℝ) ≠ 0 := by norm_num
    simp only [wback, if_neg h1, wc, wt, root, hN, hx, hA, hy, hc, hcc, h4, h4A, h4m, ht, hsum, hsq, hd, hz, h0, zero_div]
  · have h1 : ((1 : ℕ) : ℝ) ≠ 0 := by norm_num
    simp only [wstatBackground, if_neg h1]
    refine div_pos ?_ (by norm_num)
    have := Real.lt_sqrt_of_sq_lt (x := -(2 ^ (-10 : ℤ) * (((1 : ℕ) : ℝ) + (1 : ℕ)) - (2 ^ (-10 : ℤ) + 1) * 2 ^ (49 : ℤ)))
      (y := (2 ^ (-10 : ℤ) * (((1 : ℕ) : ℝ) + (1 : ℕ)) - (2 ^ (-10 : ℤ) + 1) * 2 ^ (49 : ℤ)) * (2 ^ (-10 : ℤ) * (((1 : ℕ) : ℝ) + (1 : ℕ)) - (2 ^ (-10 : ℤ) + 1) * 2 ^ (49 : ℤ))
        + 4 * 2 ^ (-10 : ℤ) * (2 ^ (-10 : ℤ) + 1) * (1 : ℕ) * 2 ^ (49 : ℤ)) (by norm_num)
    linarith

/-! ## Concrete cases -/

theorem leftNearest : Nearest leftImpl.rnd := leftImpl_legal.nearest

example := C146_wstat leftNearest (s := 1) (a := 1 / 2) ⟨by simpa using rep_int (k := 1) (by norm_num), by norm_num, by norm_num⟩
  ⟨⟨1, -1, by norm_num, by norm_num, by norm_num, by norm_num⟩, by norm_num, by norm_num⟩ 5 3 (by norm_num) (by norm_num)
example := C146_pgstat leftNearest (s := 1) (a := 1 / 2) (bEst := -3) (bErr := 2) ⟨by simpa using rep_int (k := 1) (by norm_num), by norm_num, by norm_num⟩
  ⟨⟨1, -1, by norm_num, by norm_num, by norm_num, by norm_num⟩, by norm_num, by norm_num⟩ (by simpa using rep_int (k := -3) (by norm_num)) (by norm_num)
  ⟨by simpa using rep_int (k := 2) (by norm_num), by norm_num, by norm_num⟩ 5 (by norm_num)
example := C146_negative_refuted leftNearest
example := C146_zero_refuted leftNearest

end Elisa.Infer.Fl
