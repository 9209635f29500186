import Verif.Models.FloatPower
import Verif.Models.Spectra
import Mathlib.Analysis.SpecialFunctions.Integrals.Basic

/-!
# Power law bins in floating point (C150)
-/

namespace Elisa.Models.Fl

open Elisa Elisa.Infer.Fl Elisa.Grouping.Fl

/-! ## Specification -/

/-- A power with a relative error of at most eight units in the last place. -/
def AccuratePow (pw : ℝ → ℝ → ℝ) : Prop := ∀ x y : ℝ, 0 < x → |pw x y - x ^ y| ≤ 2 ^ (-50 : ℤ) * x ^ y

/-- The photons between `a` and `b` of the power law of index `alpha`. -/
noncomputable def photons (alpha a b : ℝ) : ℝ := ∫ e in a..b, e ^ (-alpha)

/-! ## The exponent -/

theorem one_sub_ne {alpha : ℝ} (hr : Rep alpha) (h1 : alpha ≠ 1) : 2 ^ (-53 : ℤ) ≤ |1 - alpha| := by
  have r1 : Rep 1 := by simpa using rep_int (k := 1) (by norm_num)
  rcases lt_or_gt_of_ne h1 with h | h
  · have := apart (p := 0) hr r1 h (by norm_num)
    rw [abs_of_pos (by linarith)]
    simpa using this
  · have := apart (p := 0) r1 hr h (by norm_num; linarith)
    rw [abs_of_neg (by linarith)]
    have e : -(1 - alpha) = alpha - 1 := by ring
    rw [e]
    simpa using this


theorem Nearest.signed {rnd} (h : Nearest rnd) {x : ℝ} {p q : ℤ} (h1 : 2 ^ p ≤ |x|) (h2 : |x| ≤ 2 ^ q) (hp : -1022 ≤ p) (hq : q ≤ 1023) :
    |rnd x - x| ≤ unit * |x| ∧ 2 ^ p ≤ |rnd x| ∧ |rnd x| ≤ 2 ^ q ∧ (0 < x ↔ 0 < rnd x) := by
  rcases le_or_gt 0 x with h0 | h0
  · rw [abs_of_nonneg h0] at h1 h2 ⊢
    have hm := h.mem h1 h2 hp hq
    have hr := h.rel ⟨h1, h2⟩ hp hq
    rw [abs_of_pos hm.pos]
    exact ⟨hr, hm.2.1, hm.2.2, by simp [hm.pos, (two_zpow_pos p).trans_le h1]⟩
  · rw [abs_of_neg h0] at h1 h2 ⊢
    have hm := h.neg.mem h1 h2 hp hq
    have hr := h.neg.rel ⟨h1, h2⟩ hp hq
    simp only [neg_neg] at hm hr
    have hneg : rnd x < 0 := by linarith [hm.pos]
    rw [abs_of_neg hneg]
    refine ⟨?_, hm.2.1, hm.2.2, ?_⟩
    · rwa [show -rnd x - -x = -(rnd x - x) by ring, abs_neg] at hr
    · constructor <;> intro hc <;> linarith

/-- Rounding to nearest keeps the order. -/
theorem Nearest.mono {rnd} (h : Nearest rnd) {x y : ℝ} (hx : |x| ≤ 2 ^ (1023 : ℤ)) (hy : |y| ≤ 2 ^ (1023 : ℤ)) (hxy : x ≤ y) : rnd x ≤ rnd y := by
  rcases le_or_gt x (rnd y) with hc | hc
  · exact h.le hx (h.rep hy) hc
  · rcases hxy.eq_or_lt with rfl | hlt
    · exact le_refl _
    · have a1 := (h x (by rwa [nat1023])).2 (rnd y) (h.rep hy)
      have a2 := (h y (by rwa [nat1023])).2 (rnd x) (h.rep hx)
      clear hx hy
      rw [abs_of_neg (by linarith : rnd y - x < 0)] at a1
      rw [abs_of_neg (by linarith : rnd y - y < 0)] at a2
      rcases le_total (rnd x) y with h3 | h3
      · rw [abs_of_nonpos (by linarith : rnd x - y ≤ 0)] at a2
        linarith
      · rw [abs_of_nonneg (by linarith : 0 ≤ rnd x - y)] at a2
        rw [abs_of_nonneg (by linarith : 0 ≤ rnd x - x)] at a1
        linarith

/-! ## Powers -/

/-- Energies between a millionth of a keV and a million keV. -/
def Energy (e : ℝ) : Prop := 2 ^ (-20 : ℤ) ≤ e ∧ e ≤ 2 ^ (20 : ℤ)

theorem Energy.pos {e : ℝ} (h : Energy e) : 0 < e := (two_zpow_pos _).trans_le h.1

theorem Energy.log {e : ℝ} (h : Energy e) : |Real.log e| ≤ 20 * Real.log 2 := by
  have a1 := Real.log_le_log (two_zpow_pos _) h.1
  have a2 := Real.log_le_log h.pos h.2
  rw [Real.log_zpow] at a1 a2
  push_cast at a1 a2
  exact abs_le.2 ⟨by linarith, a2⟩

theorem pow_bounds {e q : ℝ} (he : Energy e) (hq : |q| ≤ 16) : 2 ^ (-320 : ℤ) ≤ e ^ q ∧ e ^ q ≤ 2 ^ (320 : ℤ) := by
  have hl := he.log
  have l0 := Real.log_pos (by norm_num : (1 : ℝ) < 2)
  have hm : |Real.log e * q| ≤ 320 * Real.log 2 := by
    rw [abs_mul]
    have := mul_le_mul hl hq (abs_nonneg _) (by linarith)
    linarith
  obtain ⟨m1, m2⟩ := abs_le.1 hm
  rw [Real.rpow_def_of_pos he.pos]
  constructor
  · rw [← Real.log_le_iff_le_exp (two_zpow_pos _), Real.log_zpow]
    push_cast
    linarith
  · rw [← Real.le_log_iff_exp_le (two_zpow_pos _), Real.log_zpow]
    push_cast
    linarith

theorem photons_eq {q a b : ℝ} (ha : 0 < a) (hb : 0 < b) (hq : q ≠ 0) : photons (1 - q) a b = (b ^ q - a ^ q) / q := by
  unfold photons
  rw [integral_rpow]
  · simp only [neg_sub, sub_add_cancel]
  · right
    refine ⟨fun hc => hq (by linarith), fun hc => ?_⟩
    have := Set.mem_uIcc.1 hc
    rcases this with h | h <;> linarith [h.1]

theorem photons_one {a b : ℝ} (ha : 0 < a) (hb : 0 < b) : photons 1 a b = Real.log b - Real.log a := by
  unfold photons
  have : (fun e : ℝ => e ^ (-1 : ℝ)) = fun e => e⁻¹ := by funext e; exact Real.rpow_neg_one e
  rw [this, integral_inv_of_pos ha hb, Real.log_div hb.ne' ha.ne']

/-- The cancellation in the difference of two powers. -/
theorem cancellation {q a b : ℝ} (ha : 0 < a) (hab : a < b) (hq : q ≠ 0) :
    (a ^ q + b ^ q) / |q| ≤ (1 + 2 / (|q| * Real.log (b / a))) * ((b ^ q - a ^ q) / q) := by
  have hb : 0 < b := ha.trans hab
  have hL : 0 < Real.log (b / a) := Real.log_pos (by rw [lt_div_iff₀ ha]; linarith)
  -- the larger power is `r` times the smaller one
  have key : ∀ s t : ℝ, 0 < s → 0 < t → ∀ u : ℝ, 0 < u → t = s * Real.exp u → (s + t) ≤ (1 + 2 / u) * (t - s) := by
    intro s t hs _ u hu ht
    have h1 := Real.add_one_le_exp u
    rw [ht]
    have h2 : u * s ≤ s * Real.exp u - s := by nlinarith
    have h3 : 2 * s ≤ 2 / u * (s * Real.exp u - s) := by
      rw [div_mul_eq_mul_div, le_div_iff₀ hu]; nlinarith
    nlinarith
  have hr : b ^ q = a ^ q * Real.exp (q * Real.log (b / a)) := by
    rw [Real.rpow_def_of_pos ha, Real.rpow_def_of_pos hb, ← Real.exp_add, Real.log_div hb.ne' ha.ne']
    congr 1; ring
  rcases lt_or_gt_of_ne hq with hneg | hpos
  · rw [abs_of_neg hneg]
    have hu : 0 < -q * Real.log (b / a) := mul_pos (by linarith) hL
    have := key (b ^ q) (a ^ q) (Real.rpow_pos_of_pos hb _) (Real.rpow_pos_of_pos ha _) _ hu (by
      rw [hr, mul_assoc, ← Real.exp_add]; simp)
    rw [show (b ^ q - a ^ q) / q = (a ^ q - b ^ q) / -q by rw [div_neg, ← neg_div, neg_sub], ← mul_div_assoc]
    exact div_le_div_of_nonneg_right (by linarith) (by linarith)
  · rw [abs_of_pos hpos]
    have hu : 0 < q * Real.log (b / a) := mul_pos hpos hL
    have := key (a ^ q) (b ^ q) (Real.rpow_pos_of_pos ha _) (Real.rpow_pos_of_pos hb _) _ hu hr
    rw [← mul_div_assoc]
    exact div_le_div_of_nonneg_right this hpos.le

/-! ## The bins -/

theorem edge_error {rnd pw} (h : Nearest rnd) (hp : AccuratePow pw) {q e S : ℝ} (he : 0 < e) (hq : q ≠ 0) (h1 : 2 ^ (-1000 : ℤ) ≤ S) (h2 : S ≤ 2 ^ (1000 : ℤ))
    (hS : e ^ q / |q| ≤ S) : |edgeF rnd pw q e - e ^ q / q| ≤ 2 * 2 ^ (-50 : ℤ) * S := by
  have hpos : 0 < |q| := abs_pos.2 hq
  have hP := Real.rpow_pos_of_pos he q
  have := step h (a := pw e q / q) (x := e ^ q / q) (k := 1) h1 h2 (by norm_num) (by rw [abs_div, abs_of_pos hP]; exact hS) (by
    rw [← sub_div, abs_div]
    refine (div_le_div_of_nonneg_right (hp e q he) hpos.le).trans ?_
    rw [mul_div_assoc, one_mul]
    exact mul_le_mul_of_nonneg_left hS (two_zpow_pos _).le)
  exact this.trans (le_of_eq (by norm_num))

/-- **C150 (error).** For an index different from one, the computed photons of a bin are those of a power law whose index differs from the one asked for by
rounding only, up to a relative error of `2 ^ -47` times `1 + 2 / (|1 - index| ln (b / a))`.

Missing for the full property: the second factor is not bounded, it grows without limit as the index approaches one (see `C150_refuted`). -/
theorem C150_error_partial {rnd pw lg} (h : Nearest rnd) (hp : AccuratePow pw) {alpha a b : ℝ} (hr : Rep alpha) (h1 : alpha ≠ 1) (hb : |alpha| ≤ 15) (ha : Energy a)
    (hbe : Energy b) (hab : a < b) :
    ∃ index : ℝ, |index - alpha| ≤ 2 ^ (-53 : ℤ) * |1 - alpha| ∧ index ≠ 1 ∧
      |powBinF rnd pw lg alpha a b - photons index a b| ≤ 2 ^ (-47 : ℤ) * (1 + 2 / (|1 - index| * Real.log (b / a))) * photons index a b := by
  have hne := one_sub_ne hr h1
  have hle : |1 - alpha| ≤ 2 ^ (4 : ℤ) := by
    refine (abs_sub _ _).trans ?_
    rw [abs_one]; norm_num; linarith
  obtain ⟨q1, q2, q3, -⟩ := Nearest.signed h hne hle (by norm_num) (by norm_num)
  have hq16 : |rnd (1 - alpha)| ≤ 16 := q3.trans (by norm_num)
  have hq0 : rnd (1 - alpha) ≠ 0 := by
    intro hc
    rw [hc, abs_zero] at q2
    linarith [two_zpow_pos (-53)]
  simp only [powBinF, if_pos h1, ne_eq, h1, not_false_eq_true, if_true]
  generalize rnd (1 - alpha) = q at *
  refine ⟨1 - q, ?_, fun hc => hq0 (by linarith), ?_⟩
  · rw [show 1 - q - alpha = -(q - (1 - alpha)) by ring, abs_neg]
    exact q1
  rw [photons_eq ha.pos hbe.pos hq0, show 1 - (1 - q) = q by ring]
  have hqp : 0 < |q| := abs_pos.2 hq0
  obtain ⟨a1, a2⟩ := pow_bounds ha hq16
  obtain ⟨b1, b2⟩ := pow_bounds hbe hq16
  have hA := Real.rpow_pos_of_pos ha.pos q
  have hB := Real.rpow_pos_of_pos hbe.pos q
  have hcan := cancellation ha.pos hab hq0
  have s1 : 2 ^ (-1000 : ℤ) ≤ (a ^ q + b ^ q) / |q| := by
    rw [le_div_iff₀ hqp]
    refine (mul_le_mul_of_nonneg_left (hq16.trans (by norm_num : (16 : ℝ) ≤ 2 ^ (4 : ℤ))) (two_zpow_pos _).le).trans ?_
    rw [← zpow_add₀ (by norm_num)]
    exact (zpow_le (by norm_num)).trans (a1.trans (by linarith))
  have s2 : (a ^ q + b ^ q) / |q| ≤ 2 ^ (1000 : ℤ) := by
    rw [div_le_iff₀ hqp]
    refine (add_le_add a2 b2).trans ?_
    refine le_trans ?_ (mul_le_mul_of_nonneg_left q2 (two_zpow_pos _).le)
    rw [← two_mul, ← zpow_one_add₀ (by norm_num), ← zpow_add₀ (by norm_num)]
    exact zpow_le (by norm_num)
  have eA := edge_error h hp ha.pos hq0 s1 s2 (div_le_div_of_nonneg_right (by linarith) hqp.le)
  have eB := edge_error h hp hbe.pos hq0 s1 s2 (div_le_div_of_nonneg_right (by linarith) hqp.le)
  have hfin := step h (a := edgeF rnd pw q b - edgeF rnd pw q a) (x := (b ^ q - a ^ q) / q) (k := 4) s1 s2 (by norm_num)
    (by
      rw [abs_div]
      refine div_le_div_of_nonneg_right ((abs_sub _ _).trans ?_) hqp.le
      rw [abs_of_pos hA, abs_of_pos hB, add_comm])
    (by
      rw [sub_div, show ∀ w x y z : ℝ, w - x - (y - z) = w - y - (x - z) from fun w x y z => by ring]
      exact (abs_sub _ _).trans ((add_le_add eB eA).trans (le_of_eq (by ring))))
  refine hfin.trans ?_
  rw [mul_assoc (2 ^ (-47 : ℤ))]
  refine le_trans ?_ (mul_le_mul_of_nonneg_left hcan (two_zpow_pos _).le)
  refine mul_le_mul_of_nonneg_right (by norm_num) ((two_zpow_pos _).le.trans s1)

/-- **C150 (in practice).** If the index is at least `1e-3` away from one and the edges of the bin differ by at least a thousandth, the relative error is below `2e-8`. -/
theorem C150_practice {rnd pw lg} (h : Nearest rnd) (hp : AccuratePow pw) {alpha a b : ℝ} (hr : Rep alpha) (h1 : 1e-3 ≤ |1 - alpha|) (hb : |alpha| ≤ 15) (ha : Energy a)
    (hbe : Energy b) (hab : 1.001 * a ≤ b) :
    ∃ index : ℝ, |index - alpha| ≤ 2 ^ (-53 : ℤ) * |1 - alpha| ∧ |powBinF rnd pw lg alpha a b - photons index a b| ≤ 2e-8 * photons index a b := by
  have h0 := ha.pos
  have hlt : a < b := by linarith
  have hne : alpha ≠ 1 := by rintro rfl; norm_num at h1
  obtain ⟨index, hi, hi1, he⟩ := C150_error_partial (lg := lg) h hp hr hne hb ha hbe hlt
  refine ⟨index, hi, he.trans (mul_le_mul_of_nonneg_right ?_ ?_)⟩
  · have hq : (999 / 1000000 : ℝ) ≤ |1 - index| := by
      have h3 : |1 - alpha| ≤ |1 - index| + |index - alpha| := by
        have := abs_add_le (1 - index) (index - alpha)
        rwa [sub_add_sub_cancel] at this
      have h4 := hi.trans (mul_le_mul_of_nonneg_right (by norm_num : (2 : ℝ) ^ (-53 : ℤ) ≤ 1 / 1000) (abs_nonneg _))
      have h5 : (1 / 1000 : ℝ) ≤ |1 - alpha| := le_trans (by norm_num) h1
      clear he hi h1
      linarith
    have hL : (99 / 100000 : ℝ) ≤ Real.log (b / a) := by
      have hx : 1.001 ≤ b / a := by rw [le_div_iff₀ h0]; exact hab
      have h6 := Real.one_sub_inv_le_log_of_pos (lt_of_lt_of_le (by norm_num) hx)
      have h5 : (b / a)⁻¹ ≤ 99901 / 100000 := (inv_anti₀ (by norm_num) hx).trans (by norm_num)
      generalize (b / a)⁻¹ = w at *
      clear he hi h1 hx hab
      linarith
    have hm : 0.98e-6 ≤ |1 - index| * Real.log (b / a) := by
      have := mul_le_mul hq hL (by norm_num) (abs_nonneg _)
      refine le_trans ?_ this
      norm_num
    have hd : 2 / (|1 - index| * Real.log (b / a)) ≤ 2 / 0.98e-6 := div_le_div_of_nonneg_left (by norm_num) (by norm_num) hm
    refine (mul_le_mul_of_nonneg_left (add_le_add (le_refl _) hd) (two_zpow_pos _).le).trans ?_
    norm_num
  · have hq0 : 1 - index ≠ 0 := fun hc => hi1 (by linarith)
    have := cancellation h0 hlt hq0
    have hP : photons index a b = (b ^ (1 - index) - a ^ (1 - index)) / (1 - index) := by
      rw [← photons_eq h0 hbe.pos hq0]; congr 1; ring
    rw [hP]
    have hL : 0 < Real.log (b / a) := Real.log_pos (by rw [lt_div_iff₀ h0]; linarith)
    have hc : 0 < 1 + 2 / (|1 - index| * Real.log (b / a)) := by have := abs_pos.2 hq0; positivity
    have hl : 0 ≤ (a ^ (1 - index) + b ^ (1 - index)) / |1 - index| :=
      div_nonneg (add_nonneg (Real.rpow_nonneg h0.le _) (Real.rpow_nonneg hbe.pos.le _)) (abs_nonneg _)
    by_contra hneg
    push Not at hneg
    have := mul_neg_of_pos_of_neg hc hneg
    linarith

/-- **C150 (index one).** For the index one the error is at most `2 ^ -48` of the sum of the logarithms of the edges. -/
theorem C150_one {rnd pw lg} (h : Nearest rnd) (hl : Accurate lg) {a b : ℝ} (ra : Rep a) (rb : Rep b) (ha : Energy a) (hbe : Energy b) (hab : a < b) :
    |powBinF rnd pw lg 1 a b - photons 1 a b| ≤ 2 ^ (-48 : ℤ) * (|Real.log a| + |Real.log b|) := by
  simp only [powBinF, ne_eq, not_true_eq_false, if_false]
  rw [photons_one ha.pos hbe.pos]
  have hgap := apart ra rb hab hbe.1
  have hlog : 2 ^ (-93 : ℤ) ≤ Real.log b - Real.log a := by
    have h1 := Real.one_sub_inv_le_log_of_pos (div_pos hbe.pos ha.pos)
    rw [Real.log_div hbe.pos.ne' ha.pos.ne', inv_div] at h1
    refine le_trans ?_ h1
    rw [le_sub_iff_add_le, ← le_sub_iff_add_le', div_le_iff₀ hbe.pos]
    have h2 : (2 : ℝ) ^ (-93 : ℤ) * b ≤ 2 ^ (-93 : ℤ) * 2 ^ (20 : ℤ) := mul_le_mul_of_nonneg_left hbe.2 (two_zpow_pos _).le
    rw [← zpow_add₀ (by norm_num)] at h2
    norm_num at h2 hgap ⊢
    linarith
  have hS : 2 ^ (-1000 : ℤ) ≤ |Real.log a| + |Real.log b| := by
    refine (zpow_le (by norm_num)).trans (hlog.trans ?_)
    linarith [le_abs_self (Real.log b), neg_abs_le (Real.log a)]
  have hS2 : |Real.log a| + |Real.log b| ≤ 2 ^ (1000 : ℤ) := by
    have l2 := Real.log_two_lt_d9
    refine le_trans ?_ (zpow_le (p := 6) (by norm_num))
    have := ha.log
    have := hbe.log
    norm_num at l2 ⊢
    linarith
  have := step h (a := lg b - lg a) (x := Real.log b - Real.log a) (k := 1) hS hS2 (by norm_num) ((abs_sub _ _).trans (by rw [add_comm])) (by
    rw [sub_sub_sub_comm]
    refine (abs_sub _ _).trans ((add_le_add (hl b hbe.pos) (hl a ha.pos)).trans (le_of_eq (by ring))))
  refine this.trans (mul_le_mul_of_nonneg_right (by norm_num) ((two_zpow_pos _).le.trans hS))

/-- **C150 (sign).** With a correctly rounded power the computed photons of a bin are never negative. -/
theorem C150_nonneg {rnd lg} (h : Nearest rnd) {alpha a b : ℝ} (hr : Rep alpha) (h1 : alpha ≠ 1) (hb : |alpha| ≤ 15) (ha : Energy a) (hbe : Energy b) (hab : a < b) :
    0 ≤ powBinF rnd (fun x y => rnd (x ^ y)) lg alpha a b := by
  have hne := one_sub_ne hr h1
  have hle : |1 - alpha| ≤ 2 ^ (4 : ℤ) := by
    refine (abs_sub _ _).trans ?_
    rw [abs_one]; norm_num; linarith
  obtain ⟨-, q2, q3, -⟩ := Nearest.signed h hne hle (by norm_num) (by norm_num)
  have hq16 : |rnd (1 - alpha)| ≤ 16 := q3.trans (by norm_num)
  have hq0 : rnd (1 - alpha) ≠ 0 := by
    intro hc
    rw [hc, abs_zero] at q2
    linarith [two_zpow_pos (-53)]
  simp only [powBinF, ne_eq, h1, not_false_eq_true, if_true, edgeF]
  generalize rnd (1 - alpha) = q at *
  have hqp : 0 < |q| := abs_pos.2 hq0
  have big : ∀ e, Energy e → |e ^ q| ≤ 2 ^ (1023 : ℤ) ∧ |rnd (e ^ q)| ≤ 2 ^ (320 : ℤ) ∧ |rnd (e ^ q) / q| ≤ 2 ^ (1022 : ℤ) := by
    intro e he
    obtain ⟨p1, p2⟩ := pow_bounds he hq16
    have p0 := Real.rpow_pos_of_pos he.pos q
    have hm := h.mem p1 p2 (by norm_num) (by norm_num)
    refine ⟨abs_bound p0.le p2 (by norm_num), hm.abs, ?_⟩
    rw [abs_div, div_le_iff₀ hqp]
    refine hm.abs.trans (le_trans ?_ (mul_le_mul_of_nonneg_left q2 (two_zpow_pos _).le))
    rw [← zpow_add₀ (by norm_num)]
    exact zpow_le (by norm_num)
  obtain ⟨A1, -, A3⟩ := big a ha
  obtain ⟨B1, -, B3⟩ := big b hbe
  have hmono : rnd (a ^ q) / q ≤ rnd (b ^ q) / q := by
    rcases lt_or_gt_of_ne hq0 with hneg | hpos
    · have : b ^ q ≤ a ^ q := Real.rpow_le_rpow_of_nonpos ha.pos hab.le hneg.le
      exact div_le_div_of_nonpos_of_le hneg.le (Nearest.mono h B1 A1 this)
    · have : a ^ q ≤ b ^ q := Real.rpow_le_rpow ha.pos.le hab.le hpos.le
      exact div_le_div_of_nonneg_right (Nearest.mono h A1 B1 this) hpos.le
  have lift : (2 : ℝ) ^ (1022 : ℤ) ≤ 2 ^ (1023 : ℤ) := zpow_le (by norm_num)
  have hr2 := Nearest.mono h (A3.trans lift) (B3.trans lift) hmono
  have cA := h.abs_le A3 (by norm_num) (by norm_num)
  have cB := h.abs_le B3 (by norm_num) (by norm_num)
  refine h.nonneg ?_ (by linarith)
  refine (abs_sub _ _).trans ((add_le_add cB.2 cA.2).trans (le_of_eq ?_))
  rw [← two_mul, ← zpow_one_add₀ (by norm_num)]
  norm_num

/-! ## Close to index one -/

theorem round_one {rnd} (h : Nearest rnd) {x : ℝ} (hx : |x - 1| < 2 ^ (-54 : ℤ)) : rnd x = 1 := by
  have r1 : Rep 1 := by simpa using rep_int (k := 1) (by norm_num)
  have hsm : (2 : ℝ) ^ (-54 : ℤ) < 1 / 2 := by norm_num
  obtain ⟨x1, x2⟩ := abs_lt.1 hx
  obtain ⟨w1, w2⟩ := abs_lt.1 (hx.trans hsm)
  have hb : |x| ≤ 2 ^ (1023 : ℤ) := abs_bound (q := 1) (by clear x1 x2 hsm hx; linarith) (by clear x1 x2 hsm hx; norm_num; linarith) (by norm_num)
  have hn := (h x (by rwa [nat1023])).2 1 r1
  have hrep := h.rep hb
  rw [abs_sub_comm 1 x] at hn
  obtain ⟨n1, n2⟩ := abs_le.1 hn
  have e : (2 : ℝ) ^ (-53 : ℤ) = 2 * 2 ^ (-54 : ℤ) := by norm_num
  by_contra hne
  rcases lt_or_gt_of_ne hne with hlt | hgt
  · have := apart (p := 0) hrep r1 hlt (by norm_num)
    rw [zero_sub, e] at this
    clear hb
    linarith
  · have := apart (p := 0) r1 hrep hgt (by norm_num; linarith)
    rw [zero_sub, e] at this
    clear hb
    linarith

/-- **C150 (refuted).** For an index just above one a power law has no photons at all between 0.9 and 1.1 keV: every bin there is computed as zero, with a correctly
rounded power and logarithm, although it holds more than half its width in photons.  (A power law normalised to its flux in such a band is then infinite times zero.) -/
theorem C150_refuted {rnd lg} (h : Nearest rnd) {a b : ℝ} (ha : 9 / 10 ≤ a) (hab : a < b) (hb : b ≤ 11 / 10) :
    Rep (1 + 2 ^ (-52 : ℤ)) ∧ powBinF rnd (fun x y => rnd (x ^ y)) lg (1 + 2 ^ (-52 : ℤ)) a b = 0 ∧ (b - a) / 2 < photons (1 + 2 ^ (-52 : ℤ)) a b := by
  have hne : (1 : ℝ) + 2 ^ (-52 : ℤ) ≠ 1 := by have := two_zpow_pos (-52); intro hc; linarith
  have a0 : 0 < a := by linarith
  refine ⟨⟨2 ^ 52 + 1, -52, by norm_num, by norm_num, by norm_num, by norm_num⟩, ?_, ?_⟩
  · have hq : rnd (1 - (1 + 2 ^ (-52 : ℤ))) = -2 ^ (-52 : ℤ) := by
      rw [show (1 : ℝ) - (1 + 2 ^ (-52 : ℤ)) = -2 ^ (-52 : ℤ) by ring]
      refine h.fix (rep_neg (rep_pow (by norm_num) (by norm_num))) ?_
      rw [abs_neg]
      exact abs_bound (q := 0) (two_zpow_pos _).le (zpow_le (by norm_num)) (by norm_num)
    have one : ∀ e : ℝ, 9 / 10 ≤ e → e ≤ 11 / 10 → rnd (e ^ (-2 ^ (-52 : ℤ) : ℝ)) = 1 := by
      intro e e1 e2
      have e0 : 0 < e := by linarith
      refine round_one h ?_
      rw [Real.rpow_def_of_pos e0]
      have hl : |Real.log e| ≤ 1 / 9 := by
        have l1 := Real.log_le_sub_one_of_pos e0
        have l2 := Real.one_sub_inv_le_log_of_pos e0
        have l3 : e⁻¹ ≤ 10 / 9 := by rw [inv_le_comm₀ e0 (by norm_num)]; norm_num; linarith
        rw [abs_le]
        constructor <;> linarith
      have hm : |Real.log e * -2 ^ (-52 : ℤ)| ≤ 1 / 9 * 2 ^ (-52 : ℤ) := by
        rw [abs_mul, abs_neg, abs_of_pos (two_zpow_pos (-52))]
        exact mul_le_mul_of_nonneg_right hl (two_zpow_pos _).le
      have := Real.abs_exp_sub_one_le (x := Real.log e * -2 ^ (-52 : ℤ)) (hm.trans (by norm_num))
      refine this.trans_lt ?_
      refine (mul_le_mul_of_nonneg_left hm (by norm_num)).trans_lt (by norm_num)
    simp only [powBinF, ne_eq, hne, not_false_eq_true, if_true, edgeF, hq]
    rw [one a ha (by linarith), one b (by linarith) hb, sub_self]
    exact h.fix rep_zero (by rw [abs_zero]; exact (two_zpow_pos _).le)
  · have hlow : ∀ e ∈ Set.Icc a b, (3 / 4 : ℝ) ≤ e ^ (-(1 + 2 ^ (-52 : ℤ)) : ℝ) := by
      intro e he
      have e0 : 0 < e := a0.trans_le he.1
      have hs : (2 : ℝ) ^ (-52 : ℤ) ≤ 1 := by norm_num
      have hp := two_zpow_pos (-52)
      rcases le_total e 1 with h1 | h1
      · have := Real.one_le_rpow_of_pos_of_le_one_of_nonpos e0 h1 (by linarith : -((1 : ℝ) + 2 ^ (-52 : ℤ)) ≤ 0)
        exact le_trans (by norm_num) this
      · have := Real.rpow_le_rpow_of_exponent_le h1 (by linarith : (-2 : ℝ) ≤ -(1 + 2 ^ (-52 : ℤ)))
        refine le_trans ?_ this
        rw [Real.rpow_neg e0.le, Real.rpow_two, le_inv_comm₀ (by norm_num) (by positivity)]
        have : e ≤ 11 / 10 := he.2.trans hb
        nlinarith
    have hint : IntervalIntegrable (fun e : ℝ => e ^ (-(1 + 2 ^ (-52 : ℤ)) : ℝ)) MeasureTheory.volume a b :=
      intervalIntegral.intervalIntegrable_rpow (Or.inr fun hc => by
        rw [Set.uIcc_of_le hab.le] at hc
        linarith [hc.1])
    have := intervalIntegral.integral_mono_on hab.le (f := fun _ => (3 / 4 : ℝ)) intervalIntegrable_const hint hlow
    rw [intervalIntegral.integral_const, smul_eq_mul] at this
    unfold photons
    refine lt_of_lt_of_le ?_ this
    linarith

/-! ## Concrete cases -/

/-- A power that is always a little too large. -/
noncomputable def exPow (x y : ℝ) : ℝ := (1 + 2 ^ (-51 : ℤ)) * x ^ y

theorem exPow_ok : AccuratePow exPow := by
  intro x y hx
  have := Real.rpow_pos_of_pos hx y
  unfold exPow
  rw [show (1 + (2 : ℝ) ^ (-51 : ℤ)) * x ^ y - x ^ y = 2 ^ (-51 : ℤ) * x ^ y by ring, abs_mul, abs_of_pos (two_zpow_pos _), abs_of_pos this]
  exact mul_le_mul_of_nonneg_right (zpow_le (by norm_num)) this.le

example := C150_error_partial (lg := exLog) leftNearest exPow_ok (alpha := 2) (a := 1) (b := 3) (by simpa using rep_int (k := 2) (by norm_num)) (by norm_num)
  (by norm_num) (by norm_num [Energy]) (by norm_num [Energy]) (by norm_num)
example := C150_practice (lg := exLog) leftNearest exPow_ok (alpha := -1) (a := 1) (b := 3) (by simpa using rep_int (k := -1) (by norm_num)) (by norm_num)
  (by norm_num) (by norm_num [Energy]) (by norm_num [Energy]) (by norm_num)
example := C150_one (pw := exPow) leftNearest exLog_ok (a := 1) (b := 3) (by simpa using rep_int (k := 1) (by norm_num)) (by simpa using rep_int (k := 3) (by norm_num))
  (by norm_num [Energy]) (by norm_num [Energy]) (by norm_num)
example := C150_nonneg (lg := exLog) leftNearest (alpha := 2) (a := 1) (b := 3) (by simpa using rep_int (k := 2) (by norm_num)) (by norm_num)
  (by norm_num) (by norm_num [Energy]) (by norm_num [Energy]) (by norm_num)
example := C150_refuted (lg := exLog) leftNearest (a := 1) (b := 1.05) (by norm_num) (by norm_num) (by norm_num)

end Elisa.Models.Fl
