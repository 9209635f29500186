import Verif.Infer.FloatFold
import Verif.Infer.FloatStatProps

/-!
# C147: expected counts in floating point, with dense and sparse responses
-/

namespace Elisa.Infer.Fl

open Elisa Elisa.Infer Elisa.Grouping.Fl

/-! ## Specification -/

/-- `p` adds up the products of `pairs`, possibly leaving out or adding products whose matrix entry is zero. -/
def Computes (p : Prog) (pairs : List (ℝ × ℝ)) : Prop :=
  ∃ out pad : List (ℝ × ℝ), (∀ z ∈ out, z.1 = 0) ∧ (∀ z ∈ pad, z.1 = 0 ∧ 0 ≤ z.2) ∧ (p.terms ++ out).Perm (pairs ++ pad)

/-- The column of the response for channel `j`, with the model values of the photon bins. -/
def column (d : FitData) (unfold : List ℝ) (j : ℕ) : List (ℝ × ℝ) :=
  (List.range d.matrix.length).map fun r : ℕ => (nth (d.matrix.getD r []) j, nth unfold r)

/-! ## Rounding, underflow included -/

/-- Half the smallest positive number of the format. -/
noncomputable def tiny : ℝ := 2 ^ (-1075 : ℤ)

theorem tiny_pos : 0 < tiny := two_zpow_pos _

theorem Nearest.err {rnd} (h : Nearest rnd) {x : ℝ} (h0 : 0 ≤ x) (h1 : x ≤ 2 ^ (1023 : ℤ)) : |rnd x - x| ≤ unit * x + tiny := by
  have hb : |x| ≤ 2 ^ 1023 := by rw [abs_of_nonneg h0, nat1023]; exact h1
  rcases le_or_gt (2 ^ (-1022 : ℤ)) x with hc | hc
  · obtain ⟨y, hy, he⟩ := near_rep hc (by rw [nat1023]; exact h1)
    exact (((h x hb).2 y hy).trans he).trans (by linarith [tiny_pos])
  · have hE := two_zpow_pos (-1074)
    have hq : x / 2 ^ (-1074 : ℤ) * 2 ^ (-1074 : ℤ) = x := div_mul_cancel₀ _ hE.ne'
    have hm := abs_sub_round (x / (2 : ℝ) ^ (-1074 : ℤ))
    have hq0 : 0 ≤ x / (2 : ℝ) ^ (-1074 : ℤ) := div_nonneg h0 hE.le
    have hq1 : x / (2 : ℝ) ^ (-1074 : ℤ) < 2 ^ 52 := by
      rw [div_lt_iff₀ hE]
      refine hc.trans_eq ?_
      rw [← zpow_natCast, ← zpow_add₀ (by norm_num)]
      norm_num
    generalize round (x / (2 : ℝ) ^ (-1074 : ℤ)) = m at hm
    have b1 := _root_.abs_le.1 hm
    generalize x / (2 : ℝ) ^ (-1074 : ℤ) = y at *
    have m1 : |(m : ℝ)| < 2 ^ 53 := by
      rw [abs_lt]
      constructor <;> linarith [b1.1, b1.2, (by norm_num : (2 : ℝ) ^ 53 = 2 * 2 ^ 52), (by norm_num : (1 : ℝ) < 2 ^ 52)]
    have hr : Rep ((m : ℝ) * 2 ^ (-1074 : ℤ)) := ⟨m, -1074, by exact_mod_cast m1, le_refl _, by norm_num, rfl⟩
    refine ((h x hb).2 _ hr).trans ?_
    have e1 : (m : ℝ) * 2 ^ (-1074 : ℤ) - x = -(y - m) * 2 ^ (-1074 : ℤ) := by rw [← hq]; ring
    have e2 : tiny = 1 / 2 * 2 ^ (-1074 : ℤ) := by
      have : (2 : ℝ) ^ (-1075 : ℤ) = 2 ^ (-1 + -1074 : ℤ) := by norm_num
      rw [tiny, this, zpow_add₀ (by norm_num)]; norm_num
    rw [e1, abs_mul, abs_neg, abs_of_pos hE, e2]
    have := mul_le_mul_of_nonneg_right hm hE.le
    have : 0 ≤ unit * x := mul_nonneg unit_pos.le h0
    linarith

/-- `a` is `b` up to a relative error `ε` and an absolute error `δ`. -/
def Within (ε δ a b : ℝ) : Prop := |a - b| ≤ ε * b + δ

theorem Within.le {ε δ a b : ℝ} (h : Within ε δ a b) : a ≤ (1 + ε) * b + δ := by
  have := (_root_.abs_le.1 h).2; linarith

/-- Rounding a value known up to an error. -/
theorem Within.rnd {rnd} (h : Nearest rnd) {ε δ a b : ℝ} (hw : Within ε δ a b) (h0 : 0 ≤ a) (h1 : a ≤ 2 ^ (1023 : ℤ)) :
    Within ((1 + ε) * (1 + unit) - 1) (δ * (1 + unit) + tiny) (rnd a) b := by
  have he := h.err h0 h1
  have hle := hw.le
  have hu := unit_pos
  unfold Within at hw ⊢
  have h2 : |rnd a - b| ≤ |rnd a - a| + |a - b| := abs_sub_le _ _ _
  have h3 : unit * a ≤ unit * ((1 + ε) * b + δ) := mul_le_mul_of_nonneg_left hle hu.le
  calc |rnd a - b| ≤ unit * ((1 + ε) * b + δ) + tiny + (ε * b + δ) := by linarith
    _ = _ := by ring

/-! ## Sums of products -/

/-- Number of roundings an operand goes through at most. -/
def Prog.depth : Prog → ℕ
  | .zero => 1
  | .prod _ _ _ => 1
  | .add l r => max l.depth r.depth + 1

theorem Prog.depth_le : ∀ p : Prog, p.depth ≤ p.size
  | .zero => le_refl _
  | .prod _ _ _ => le_refl _
  | .add l r => by
    have hl := Prog.depth_le l
    have hr := Prog.depth_le r
    have l1 : 1 ≤ l.size := le_trans (by cases l <;> simp [Prog.depth]) hl
    have r1 : 1 ≤ r.size := le_trans (by cases r <;> simp [Prog.depth]) hr
    simp only [Prog.depth, Prog.size]
    omega

/-- The exact sum of products. -/
def Prog.exact (p : Prog) : ℝ := (p.terms.map fun t => t.1 * t.2).sum

theorem prog_error {rnd} (h : Nearest rnd) : ∀ p : Prog, (∀ t ∈ p.terms, 0 ≤ t.1 ∧ 0 ≤ t.2) →
    p.exact * (1 + unit) ^ p.depth + (2 * p.size - 1) * tiny * (1 + unit) ^ p.depth ≤ 2 ^ (1023 : ℤ) →
    0 ≤ p.exact ∧ 0 ≤ p.value rnd ∧ Within ((1 + unit) ^ p.depth - 1) ((2 * p.size - 1) * tiny * (1 + unit) ^ p.depth) (p.value rnd) p.exact
  | .zero, _, _ => by
    have := tiny_pos
    have := unit_pos
    simp only [Prog.exact, Prog.terms, Prog.value, Prog.size, Prog.depth, List.map_nil, List.sum_nil]
    refine ⟨le_refl _, le_refl _, ?_⟩
    unfold Within
    simp only [sub_self, abs_zero, Nat.cast_one, pow_one]
    nlinarith [mul_pos tiny_pos unit_pos]
  | .prod fused m x, hp, hb => by
    have ht := hp (m, x) (by simp [Prog.terms])
    have hmx : 0 ≤ m * x := mul_nonneg ht.1 ht.2
    have hu := unit_pos
    have hti := tiny_pos
    simp only [Prog.exact, Prog.terms, Prog.value, Prog.size, Prog.depth, List.map_cons, List.map_nil, List.sum_cons, List.sum_nil, add_zero, pow_one,
      Nat.cast_one] at hb ⊢
    have h23 : (2 * 1 - 1 : ℝ) * tiny = tiny := by ring
    rw [h23] at hb ⊢
    have hmu : 0 ≤ m * x * unit := mul_nonneg hmx hu.le
    have htu : 0 ≤ tiny * unit := mul_nonneg hti.le hu.le
    have hle : m * x ≤ 2 ^ (1023 : ℤ) := le_trans (by nlinarith) hb
    refine ⟨hmx, ?_, ?_⟩
    · split
      · exact hmx
      · exact h.nonneg (by rw [abs_of_nonneg hmx]; exact hle) hmx
    · unfold Within
      split
      · rw [sub_self, abs_zero]; nlinarith
      · have := h.err hmx hle
        nlinarith
  | .add l r, hp, hb => by
    have hu := unit_pos
    have hti := tiny_pos
    have hone : (1 : ℝ) ≤ 1 + unit := by linarith
    simp only [Prog.terms, List.mem_append] at hp
    have hex : (Prog.add l r).exact = l.exact + r.exact := by simp [Prog.exact, Prog.terms]
    rw [hex] at hb ⊢
    simp only [Prog.size, Prog.depth, Nat.cast_add, Prog.value] at hb ⊢
    set d := max l.depth r.depth with hd
    have l1 : (1 : ℝ) ≤ l.size := by
      have : 1 ≤ l.size := le_trans (by cases l <;> simp [Prog.depth]) l.depth_le
      exact_mod_cast this
    have r1 : (1 : ℝ) ≤ r.size := by
      have : 1 ≤ r.size := le_trans (by cases r <;> simp [Prog.depth]) r.depth_le
      exact_mod_cast this
    have pl : (1 + unit) ^ l.depth ≤ (1 + unit) ^ d := pow_le_pow_right₀ hone (le_max_left _ _)
    have pr : (1 + unit) ^ r.depth ≤ (1 + unit) ^ d := pow_le_pow_right₀ hone (le_max_right _ _)
    have ps : (1 + unit) ^ (d + 1) = (1 + unit) ^ d * (1 + unit) := pow_succ _ _
    have pd : 1 ≤ (1 + unit) ^ d := one_le_pow₀ hone
    have pd0 : 0 < (1 + unit) ^ d := by linarith
    have el0 : 0 ≤ l.exact := List.sum_nonneg fun v hv => by
      obtain ⟨t, ht, rfl⟩ := List.mem_map.1 hv; exact mul_nonneg (hp t (Or.inl ht)).1 (hp t (Or.inl ht)).2
    have er0 : 0 ≤ r.exact := List.sum_nonneg fun v hv => by
      obtain ⟨t, ht, rfl⟩ := List.mem_map.1 hv; exact mul_nonneg (hp t (Or.inr ht)).1 (hp t (Or.inr ht)).2
    -- everything at the common depth
    have hbd : (l.exact + r.exact) * (1 + unit) ^ d + ((2 * l.size - 1) + (2 * r.size - 1)) * tiny * (1 + unit) ^ d ≤ 2 ^ (1023 : ℤ) := by
      refine le_trans ?_ hb
      have hX : 0 ≤ (l.exact + r.exact) * (1 + unit) ^ d := mul_nonneg (add_nonneg el0 er0) pd0.le
      have hY : 0 ≤ tiny * (1 + unit) ^ d := mul_nonneg hti.le pd0.le
      have hYs : 0 ≤ (2 * ((l.size : ℝ) + r.size) - 1) * (tiny * (1 + unit) ^ d) := mul_nonneg (by linarith) hY
      have hZ : (2 * ((l.size : ℝ) + r.size) - 1) * (tiny * (1 + unit) ^ d) ≤ (2 * ((l.size : ℝ) + r.size) - 1) * (tiny * (1 + unit) ^ d) * (1 + unit) :=
        le_mul_of_one_le_right hYs hone
      have hX' : (l.exact + r.exact) * (1 + unit) ^ d ≤ (l.exact + r.exact) * (1 + unit) ^ d * (1 + unit) := le_mul_of_one_le_right hX hone
      rw [ps]
      linarith
    have hl : 0 ≤ l.exact ∧ 0 ≤ l.value rnd ∧ Within ((1 + unit) ^ l.depth - 1) ((2 * l.size - 1) * tiny * (1 + unit) ^ l.depth) (l.value rnd) l.exact := by
      refine prog_error h l (fun t ht => hp t (Or.inl ht)) (le_trans ?_ hbd)
      have a1 := mul_le_mul_of_nonneg_left pl el0
      have a2 := mul_le_mul_of_nonneg_left pl (mul_nonneg (by linarith : 0 ≤ (2 * (l.size : ℝ) - 1)) hti.le)
      have a3 := mul_nonneg er0 pd0.le
      have a4 := mul_nonneg (mul_nonneg (by linarith : 0 ≤ (2 * (r.size : ℝ) - 1)) hti.le) pd0.le
      linarith
    have hr : 0 ≤ r.exact ∧ 0 ≤ r.value rnd ∧ Within ((1 + unit) ^ r.depth - 1) ((2 * r.size - 1) * tiny * (1 + unit) ^ r.depth) (r.value rnd) r.exact := by
      refine prog_error h r (fun t ht => hp t (Or.inr ht)) (le_trans ?_ hbd)
      have a1 := mul_le_mul_of_nonneg_left pr er0
      have a2 := mul_le_mul_of_nonneg_left pr (mul_nonneg (by linarith : 0 ≤ (2 * (r.size : ℝ) - 1)) hti.le)
      have a3 := mul_nonneg el0 pd0.le
      have a4 := mul_nonneg (mul_nonneg (by linarith : 0 ≤ (2 * (l.size : ℝ) - 1)) hti.le) pd0.le
      linarith
    have hsum : Within ((1 + unit) ^ d - 1) (((2 * l.size - 1) + (2 * r.size - 1)) * tiny * (1 + unit) ^ d) (l.value rnd + r.value rnd) (l.exact + r.exact) := by
      have w1 := hl.2.2
      have w2 := hr.2.2
      unfold Within at w1 w2 ⊢
      have t1 : |l.value rnd + r.value rnd - (l.exact + r.exact)| ≤ |l.value rnd - l.exact| + |r.value rnd - r.exact| := by
        rw [show l.value rnd + r.value rnd - (l.exact + r.exact) = (l.value rnd - l.exact) + (r.value rnd - r.exact) by ring]; exact abs_add_le _ _
      have a1 := mul_le_mul_of_nonneg_left pl el0
      have a2 := mul_le_mul_of_nonneg_left pl (mul_nonneg (by linarith : 0 ≤ (2 * (l.size : ℝ) - 1)) hti.le)
      have b1 := mul_le_mul_of_nonneg_left pr er0
      have b2 := mul_le_mul_of_nonneg_left pr (mul_nonneg (by linarith : 0 ≤ (2 * (r.size : ℝ) - 1)) hti.le)
      linarith
    have hv0 : 0 ≤ l.value rnd + r.value rnd := add_nonneg hl.2.1 hr.2.1
    have hv1 : l.value rnd + r.value rnd ≤ 2 ^ (1023 : ℤ) := by
      refine le_trans hsum.le (le_trans (le_of_eq ?_) hbd)
      ring
    refine ⟨add_nonneg el0 er0, h.nonneg (by rw [abs_of_nonneg hv0]; exact hv1) hv0, ?_⟩
    have hw := hsum.rnd h hv0 hv1
    unfold Within at hw ⊢
    refine hw.trans ?_
    have e1 : (1 + ((1 + unit) ^ d - 1)) * (1 + unit) - 1 = (1 + unit) ^ (d + 1) - 1 := by rw [ps]; ring
    rw [e1]
    have hY : tiny ≤ tiny * (1 + unit) ^ (d + 1) := le_mul_of_one_le_right hti.le (one_le_pow₀ hone)
    rw [ps] at hY ⊢
    linarith

/-! ## The expected counts -/

theorem Within.mul {ε δ a b c : ℝ} (h : Within ε δ a b) (hc : 0 ≤ c) : Within ε (δ * c) (a * c) (b * c) := by
  unfold Within at h ⊢
  rw [← sub_mul, abs_mul, abs_of_nonneg hc]
  calc |a - b| * c ≤ (ε * b + δ) * c := mul_le_mul_of_nonneg_right h hc
    _ = _ := by ring

/-- Cutting at an upper limit keeps a relative error. -/
theorem cut {ε a b H : ℝ} (h : |a - b| ≤ ε * b) (hH : 0 ≤ H) (h1 : ε ≤ 1) : |min a H - min b H| ≤ ε * min b H := by
  have hab := _root_.abs_le.1 h
  rcases le_total b H with hb | hb
  · rw [min_eq_left hb, _root_.abs_le]
    rcases le_total a H with ha | ha
    · rw [min_eq_left ha]; exact hab
    · rw [min_eq_right ha]; constructor <;> linarith [hab.1, hab.2]
  · rw [min_eq_right hb]
    rcases le_total a H with ha | ha
    · rw [min_eq_left ha, _root_.abs_le]
      have : (1 - ε) * H ≤ (1 - ε) * b := mul_le_mul_of_nonneg_left hb (by linarith)
      have : 0 ≤ ε * b := le_trans (abs_nonneg _) h
      have hε : 0 ≤ ε * H := by
        rcases eq_or_lt_of_le (hH.trans hb) with h0 | h0
        · have : H = 0 := le_antisymm (h0 ▸ hb) hH
          rw [this, mul_zero]
        · exact mul_nonneg (nonneg_of_mul_nonneg_left this h0) hH
      constructor <;> linarith [hab.1]
    · rw [min_eq_right ha, sub_self, abs_zero]
      have h0 : 0 ≤ ε * b := le_trans (abs_nonneg _) h
      rcases eq_or_lt_of_le (hH.trans hb) with h0' | h0'
      · have : H = 0 := le_antisymm (h0' ▸ hb) hH
        rw [this, mul_zero]
      · exact mul_nonneg (nonneg_of_mul_nonneg_left h0 h0') hH

theorem computes_sum {p : Prog} {pairs : List (ℝ × ℝ)} (h : Computes p pairs) : p.exact = (pairs.map fun t => t.1 * t.2).sum := by
  obtain ⟨out, pad, h1, h2, hp⟩ := h
  have hs := (hp.map fun t : ℝ × ℝ => t.1 * t.2).sum_eq
  simp only [List.map_append, List.sum_append] at hs
  have z1 : (out.map fun t : ℝ × ℝ => t.1 * t.2).sum = 0 := List.sum_eq_zero fun v hv => by
    obtain ⟨t, ht, rfl⟩ := List.mem_map.1 hv; rw [h1 t ht, zero_mul]
  have z2 : (pad.map fun t : ℝ × ℝ => t.1 * t.2).sum = 0 := List.sum_eq_zero fun v hv => by
    obtain ⟨t, ht, rfl⟩ := List.mem_map.1 hv; rw [(h2 t ht).1, zero_mul]
  rw [z1, z2, add_zero, add_zero] at hs
  exact hs

theorem computes_nonneg {p : Prog} {pairs : List (ℝ × ℝ)} (h : Computes p pairs) (hp : ∀ t ∈ pairs, 0 ≤ t.1 ∧ 0 ≤ t.2) : ∀ t ∈ p.terms, 0 ≤ t.1 ∧ 0 ≤ t.2 := by
  obtain ⟨out, pad, _, h2, hperm⟩ := h
  intro t ht
  have := hperm.subset (List.mem_append_left _ ht)
  rcases List.mem_append.1 this with hm | hm
  · exact hp t hm
  · exact ⟨(h2 t hm).1.ge, (h2 t hm).2⟩

theorem scale_error {rnd} (h : Nearest rnd) {p : Prog} (hp : ∀ t ∈ p.terms, 0 ≤ t.1 ∧ 0 ≤ t.2) {A T : ℝ} (hA0 : 0 ≤ A) (hA : A ≤ 2 ^ (60 : ℤ)) (hT0 : 0 ≤ T)
    (hT : T ≤ 2 ^ (60 : ℤ)) (hS : p.exact ≤ 2 ^ (900 : ℤ)) (hK : p.size ≤ 2 ^ 50) :
    Within (((p.size : ℝ) + 2) * 2 ^ (-52 : ℤ)) (2 ^ (-890 : ℤ)) (rnd (rnd (p.value rnd * A) * T)) (p.exact * A * T) := by
  have hu := unit_pos
  have hti := tiny_pos
  have hu1 : unit ≤ 1 := by linarith [one_sub_unit.1]
  have hKr : (p.size : ℝ) ≤ 2 ^ (50 : ℤ) := by
    rw [show (50 : ℤ) = ((50 : ℕ) : ℤ) by norm_num, zpow_natCast]; exact_mod_cast hK
  have hKp : (1 : ℝ) ≤ p.size := by
    have : 1 ≤ p.size := le_trans (by cases p <;> simp [Prog.depth]) p.depth_le
    exact_mod_cast this
  have hdep := p.depth_le
  have hpow : (1 + unit) ^ p.depth ≤ 2 := by
    have g := grow p.depth (hdep.trans (hK.trans (by norm_num)))
    have : (p.depth : ℝ) * unit ≤ 1 / 2 := by
      have h1 : (p.depth : ℝ) ≤ 2 ^ 50 := by exact_mod_cast hdep.trans hK
      have h2 : (2 : ℝ) ^ 50 * unit ≤ 1 / 2 := by unfold unit; norm_num
      have := mul_le_mul_of_nonneg_right h1 hu.le
      linarith
    linarith
  have hpow0 : 0 < (1 + unit) ^ p.depth := by positivity
  have he0 : 0 ≤ p.exact := List.sum_nonneg fun v hv => by
    obtain ⟨t, ht, rfl⟩ := List.mem_map.1 hv; exact mul_nonneg (hp t ht).1 (hp t ht).2
  -- absolute errors
  have hδ : (2 * (p.size : ℝ) - 1) * tiny * (1 + unit) ^ p.depth ≤ 2 ^ (-1023 : ℤ) := by
    have e : (2 : ℝ) ^ (-1023 : ℤ) = 2 * 2 ^ (50 : ℤ) * tiny * 2 := by
      have : (2 : ℝ) ^ (-1023 : ℤ) = 2 ^ (1 + 50 + -1075 + 1 : ℤ) := by norm_num
      rw [this, zpow_add₀ (by norm_num), zpow_add₀ (by norm_num), zpow_add₀ (by norm_num), zpow_one, tiny]
    rw [e]
    refine mul_le_mul (mul_le_mul_of_nonneg_right ?_ hti.le) hpow hpow0.le (mul_nonneg (by positivity) hti.le)
    linarith
  have hδ0 : 0 ≤ (2 * (p.size : ℝ) - 1) * tiny * (1 + unit) ^ p.depth := mul_nonneg (mul_nonneg (by linarith) hti.le) hpow0.le
  have hsm : (2 : ℝ) ^ (-1023 : ℤ) ≤ 2 ^ (900 : ℤ) := zpow_le (by norm_num)
  have hX : p.exact * (1 + unit) ^ p.depth ≤ 2 ^ (900 : ℤ) * 2 := mul_le_mul hS hpow hpow0.le (two_zpow_pos _).le
  have e902 : (2 : ℝ) ^ (902 : ℤ) = 4 * 2 ^ (900 : ℤ) := by
    rw [show (902 : ℤ) = 2 + 900 by norm_num, zpow_add₀ (by norm_num)]; norm_num
  have hbound : p.exact * (1 + unit) ^ p.depth + (2 * p.size - 1) * tiny * (1 + unit) ^ p.depth ≤ 2 ^ (902 : ℤ) := by
    rw [e902]
    have h9 := two_zpow_pos 900
    have h8 := hδ.trans hsm
    refine (add_le_add hX h8).trans ?_
    clear hδ hsm hX h8 hS e902
    generalize (2 : ℝ) ^ (900 : ℤ) = P at *
    linarith
  obtain ⟨-, v0, w0⟩ := prog_error h p hp (hbound.trans (zpow_le (by norm_num)))
  have hv : p.value rnd ≤ 2 ^ (902 : ℤ) := by
    refine w0.le.trans (le_trans (le_of_eq ?_) hbound)
    ring
  -- times the area scale
  have wA := w0.mul hA0
  have vA0 : 0 ≤ p.value rnd * A := mul_nonneg v0 hA0
  have vA1 : p.value rnd * A ≤ 2 ^ (962 : ℤ) := by
    rw [show (962 : ℤ) = 902 + 60 by norm_num, zpow_add₀ (by norm_num)]
    exact mul_le_mul hv hA hA0 (two_zpow_pos _).le
  obtain ⟨-, a0, a1⟩ := h.upto vA0 vA1 (by norm_num) (by norm_num)
  have wB := (wA.rnd h vA0 (vA1.trans (zpow_le (by norm_num)))).mul hT0
  have vT0 : 0 ≤ rnd (p.value rnd * A) * T := mul_nonneg a0 hT0
  have vT1 : rnd (p.value rnd * A) * T ≤ 2 ^ (1022 : ℤ) := by
    rw [show (1022 : ℤ) = 962 + 60 by norm_num, zpow_add₀ (by norm_num)]
    exact mul_le_mul a1 hT hT0 (two_zpow_pos _).le
  have wC := wB.rnd h vT0 (vT1.trans (zpow_le (by norm_num)))
  unfold Within at wC ⊢
  refine wC.trans (add_le_add (mul_le_mul_of_nonneg_right ?_ (mul_nonneg (mul_nonneg he0 hA0) hT0)) ?_)
  · have g := grow (p.depth + 2) (by have := hdep.trans hK; omega)
    have e1 : (1 + ((1 + ((1 + unit) ^ p.depth - 1)) * (1 + unit) - 1)) * (1 + unit) - 1 = (1 + unit) ^ (p.depth + 2) - 1 := by ring
    rw [e1]
    have e2 : (2 : ℝ) ^ (-52 : ℤ) = 2 * unit := by unfold unit; norm_num
    rw [e2]
    have hd : (p.depth : ℝ) ≤ p.size := by exact_mod_cast hdep
    have := mul_le_mul_of_nonneg_right hd hu.le
    push_cast at g
    linarith
  · generalize hδd : (2 * (p.size : ℝ) - 1) * tiny * (1 + unit) ^ p.depth = δ at hδ hδ0
    have d1 : δ * A ≤ 2 ^ (-963 : ℤ) := by
      rw [show (-963 : ℤ) = -1023 + 60 by norm_num, zpow_add₀ (by norm_num)]
      exact mul_le_mul hδ hA hA0 (two_zpow_pos _).le
    have t963 : tiny ≤ 2 ^ (-963 : ℤ) := zpow_le (by norm_num)
    have d2 : δ * A * (1 + unit) + tiny ≤ 2 ^ (-961 : ℤ) := by
      have e : (2 : ℝ) ^ (-961 : ℤ) = 4 * 2 ^ (-963 : ℤ) := by
        rw [show (-961 : ℤ) = 2 + -963 by norm_num, zpow_add₀ (by norm_num)]; norm_num
      rw [e]
      have : δ * A * (1 + unit) ≤ 2 ^ (-963 : ℤ) * 2 := mul_le_mul d1 (by linarith) (by linarith) (two_zpow_pos _).le
      have := two_zpow_pos (-963)
      generalize (2 : ℝ) ^ (-963 : ℤ) = P at *
      linarith
    have d3 : (δ * A * (1 + unit) + tiny) * T ≤ 2 ^ (-901 : ℤ) := by
      rw [show (-901 : ℤ) = -961 + 60 by norm_num, zpow_add₀ (by norm_num)]
      exact mul_le_mul d2 hT hT0 (two_zpow_pos _).le
    have t901 : tiny ≤ 2 ^ (-901 : ℤ) := zpow_le (by norm_num)
    have e : (2 : ℝ) ^ (-890 : ℤ) = 2048 * 2 ^ (-901 : ℤ) := by
      rw [show (-890 : ℤ) = 11 + -901 by norm_num, zpow_add₀ (by norm_num)]; norm_num
    rw [e]
    have : (δ * A * (1 + unit) + tiny) * T * (1 + unit) ≤ 2 ^ (-901 : ℤ) * 2 := mul_le_mul d3 (by linarith) (by linarith) (two_zpow_pos _).le
    have := two_zpow_pos (-901)
    generalize (2 : ℝ) ^ (-901 : ℤ) = P at *
    linarith

set_option exponentiation.threshold 400 in
theorem h300 : (0 : ℝ) ≤ 1e-300 := by norm_num

/-- **C147.** The expected source counts are computed in float64 with a relative error of at most `(K + 3) * 2 ^ -52`, where `K` is the number of operands of the sum over
photon bins: with a dense or a sparse response, in any order, with or without fused operations, underflow included (the limits on the rates rule out overflow). -/
theorem C147_counts {rnd} (h : Nearest rnd) (d : FitData) (unfold : List ℝ) (j : ℕ) (p : Prog) (hp : Computes p (column d unfold j)) (hK : p.size ≤ 2 ^ 50)
    (hm : ∀ r < d.matrix.length, 0 ≤ nth (d.matrix.getD r []) j) (hu : ∀ r < d.matrix.length, 1e-300 ≤ nth unfold r ∧ nth unfold r ≤ 1e300)
    (hA : 0 ≤ nth d.areaScale j ∧ nth d.areaScale j ≤ 2 ^ (60 : ℤ)) (hT : 0 ≤ d.exposure ∧ d.exposure ≤ 2 ^ (60 : ℤ))
    (hS : ((column d unfold j).map fun t => t.1 * t.2).sum ≤ 2 ^ (900 : ℤ)) :
    |counts rnd p (nth d.areaScale j) d.exposure - d.sourceCounts unfold j| ≤ ((p.size : ℝ) + 3) * 2 ^ (-52 : ℤ) * d.sourceCounts unfold j := by
  have hpos : ∀ t ∈ column d unfold j, 0 ≤ t.1 ∧ 0 ≤ t.2 := by
    intro t ht
    obtain ⟨r, hr, rfl⟩ := List.mem_map.1 ht
    exact ⟨hm r (List.mem_range.1 hr), le_trans h300 (hu r (List.mem_range.1 hr)).1⟩
  have hex := computes_sum hp
  have hw := scale_error h (computes_nonneg hp hpos) hA.1 hA.2 hT.1 hT.2 (by rw [hex]; exact hS) hK
  have hrate : p.exact * nth d.areaScale j * d.exposure = d.sourceRate unfold j * d.exposure := by
    congr 1
    rw [FitData.sourceRate, hex, column, List.map_map]
    congr 2
    refine List.map_congr_left fun r hr => ?_
    have := hu r (List.mem_range.1 hr)
    simp only [Function.comp, clip]
    rw [max_eq_left this.1, min_eq_left this.2]
  rw [hrate] at hw
  have hlo : |rnd 1e-30 - 1e-30| ≤ unit * 1e-30 + tiny := h.err (by norm_num) (le_trans (by norm_num : (1e-30 : ℝ) ≤ 2 ^ (0 : ℤ)) (zpow_le (by norm_num)))
  have hK0 : (0 : ℝ) ≤ p.size := Nat.cast_nonneg _
  have h100 : (2 : ℝ) ^ (-100 : ℤ) ≤ 1e-30 := by norm_num
  have hunit : (2 : ℝ) ^ (-52 : ℤ) = 2 * unit := by unfold Elisa.Grouping.Fl.unit; norm_num
  have hup := unit_pos
  have hδ : (2 : ℝ) ^ (-890 : ℤ) ≤ unit * 2 ^ (-100 : ℤ) := by
    unfold Elisa.Grouping.Fl.unit
    rw [← zpow_add₀ (by norm_num)]; exact zpow_le (by norm_num)
  have hδ' : tiny ≤ unit * 2 ^ (-100 : ℤ) := le_trans (zpow_le (by norm_num)) hδ
  have hδ1 : unit * 2 ^ (-100 : ℤ) ≤ unit * 1e-30 := mul_le_mul_of_nonneg_left h100 hup.le
  have hδ2 := hδ.trans hδ1
  have hδ3 := hδ'.trans hδ1
  clear hδ hδ' hδ1 h100 hS hu
  rw [counts, FitData.sourceCounts, clip]
  generalize rnd (rnd (p.value rnd * nth d.areaScale j) * d.exposure) = c at hw
  generalize d.sourceRate unfold j * d.exposure = s at hw
  generalize rnd 1e-30 = lo at hlo
  refine cut ?_ (by norm_num) ?_
  · have hM1 : s ≤ max s 1e-30 := le_max_left _ _
    have hM2 : (1e-30 : ℝ) ≤ max s 1e-30 := le_max_right _ _
    refine (abs_max_sub_max_le_max c lo s 1e-30).trans (max_le ?_ ?_)
    · unfold Within at hw
      have a1 : ((p.size : ℝ) + 2) * 2 ^ (-52 : ℤ) * s ≤ ((p.size : ℝ) + 2) * 2 ^ (-52 : ℤ) * max s 1e-30 := mul_le_mul_of_nonneg_left hM1 (by positivity)
      have a2 : unit * 1e-30 ≤ unit * max s 1e-30 := mul_le_mul_of_nonneg_left hM2 hup.le
      have a3 : 0 ≤ unit * max s 1e-30 := mul_nonneg hup.le (le_trans (by norm_num) hM2)
      rw [hunit] at a1 hw ⊢
      refine hw.trans ((add_le_add a1 (hδ2.trans a2)).trans ?_)
      clear hw a1 a2 hδ2 hδ3 hlo hM2
      generalize max s 1e-30 = M at *
      linarith
    · have a2 : unit * 1e-30 ≤ unit * max s 1e-30 := mul_le_mul_of_nonneg_left hM2 hup.le
      have a3 : 0 ≤ (p.size : ℝ) * (2 * unit) * max s 1e-30 := mul_nonneg (by positivity) (le_trans (by norm_num) hM2)
      rw [hunit]
      refine hlo.trans ((add_le_add a2 (hδ3.trans a2)).trans ?_)
      have a4 : 0 ≤ unit * max s 1e-30 := mul_nonneg hup.le (le_trans (by norm_num) hM2)
      clear hw a2 hδ2 hδ3 hlo hM2
      generalize max s 1e-30 = M at *
      linarith
  · have : (p.size : ℝ) ≤ 2 ^ 50 := by exact_mod_cast hK
    have h2 : ((p.size : ℝ) + 3) * 2 ^ (-52 : ℤ) ≤ (2 ^ 50 + 3) * 2 ^ (-52 : ℤ) := mul_le_mul_of_nonneg_right (by linarith) (two_zpow_pos _).le
    refine h2.trans (by norm_num)

/-- **C147 (sparse).** Storing the response as a sparse matrix is only a matter of speed: the expected counts of the two computations differ by rounding errors. -/
theorem C147_sparse {rnd} (h : Nearest rnd) (d : FitData) (unfold : List ℝ) (j : ℕ) (dense sparse : Prog) (hd : Computes dense (column d unfold j))
    (hs : Computes sparse (column d unfold j)) (hK : dense.size ≤ 2 ^ 50) (hK' : sparse.size ≤ 2 ^ 50)
    (hm : ∀ r < d.matrix.length, 0 ≤ nth (d.matrix.getD r []) j) (hu : ∀ r < d.matrix.length, 1e-300 ≤ nth unfold r ∧ nth unfold r ≤ 1e300)
    (hA : 0 ≤ nth d.areaScale j ∧ nth d.areaScale j ≤ 2 ^ (60 : ℤ)) (hT : 0 ≤ d.exposure ∧ d.exposure ≤ 2 ^ (60 : ℤ))
    (hS : ((column d unfold j).map fun t => t.1 * t.2).sum ≤ 2 ^ (900 : ℤ)) :
    |counts rnd dense (nth d.areaScale j) d.exposure - counts rnd sparse (nth d.areaScale j) d.exposure|
      ≤ ((dense.size : ℝ) + sparse.size + 6) * 2 ^ (-52 : ℤ) * d.sourceCounts unfold j := by
  have e1 := C147_counts h d unfold j dense hd hK hm hu hA hT hS
  have e2 := C147_counts h d unfold j sparse hs hK' hm hu hA hT hS
  rw [abs_sub_comm] at e2
  have := (abs_sub_le (counts rnd dense (nth d.areaScale j) d.exposure) (d.sourceCounts unfold j) (counts rnd sparse (nth d.areaScale j) d.exposure)).trans
    (add_le_add e1 e2)
  refine this.trans (le_of_eq ?_)
  ring

/-! ## Concrete cases -/

/-- Two photon bins, one channel, the second bin without response. -/
noncomputable def exFold : FitData where
  specCounts := [3]
  specErrors := [1]
  netCounts := [3]
  netErrors := [1]
  back := none
  matrix := [[1 / 2], [0]]
  areaScale := [1]
  exposure := 100
  specPoisson := true
  backPoisson := false

theorem exFold_dense : Computes (.add (.prod false (1 / 2) 4) (.prod true 0 5)) (column exFold [4, 5] 0) :=
  ⟨[], [], by simp, by simp, by simp [Prog.terms, column, exFold, nth, List.range_succ]⟩

theorem exFold_sparse : Computes (.prod false (1 / 2) 4) (column exFold [4, 5] 0) :=
  ⟨[(0, 5)], [], by simp, by simp, by simp [Prog.terms, column, exFold, nth, List.range_succ]⟩

set_option exponentiation.threshold 400 in
theorem exFold_ok : (∀ r < exFold.matrix.length, 0 ≤ nth (exFold.matrix.getD r []) 0) ∧
    (∀ r < exFold.matrix.length, (1e-300 : ℝ) ≤ nth [4, 5] r ∧ nth [4, 5] r ≤ 1e300) ∧
    (0 ≤ nth exFold.areaScale 0 ∧ nth exFold.areaScale 0 ≤ 2 ^ (60 : ℤ)) ∧ (0 ≤ exFold.exposure ∧ exFold.exposure ≤ 2 ^ (60 : ℤ)) ∧
    ((column exFold [4, 5] 0).map fun t => t.1 * t.2).sum ≤ 2 ^ (900 : ℤ) := by
  have hr : ∀ r < exFold.matrix.length, r = 0 ∨ r = 1 := by simp only [exFold, List.length_cons, List.length_nil]; omega
  have h300 : (5 : ℝ) ≤ 1e300 := by norm_num
  have h301 : (1e-300 : ℝ) ≤ 4 := by norm_num
  refine ⟨?_, ?_, by norm_num [exFold, nth], by norm_num [exFold], ?_⟩
  · intro r h
    rcases hr r h with rfl | rfl <;> norm_num [exFold, nth]
  · intro r h
    rcases hr r h with rfl | rfl
    · exact ⟨le_trans h301 (by norm_num [nth]), le_trans (by norm_num [nth]) h300⟩
    · exact ⟨le_trans h301 (by norm_num [nth]), le_trans (by norm_num [nth]) h300⟩
  · refine le_trans (?_ : _ ≤ (2 : ℝ) ^ (1 : ℤ)) (zpow_le (by norm_num))
    norm_num [column, exFold, nth, List.range_succ]

example := C147_counts leftNearest exFold [4, 5] 0 _ exFold_dense (by norm_num [Prog.size]) exFold_ok.1 exFold_ok.2.1 exFold_ok.2.2.1 exFold_ok.2.2.2.1 exFold_ok.2.2.2.2
example := C147_sparse leftNearest exFold [4, 5] 0 _ _ exFold_dense exFold_sparse (by norm_num [Prog.size]) (by norm_num [Prog.size]) exFold_ok.1 exFold_ok.2.1
  exFold_ok.2.2.1 exFold_ok.2.2.2.1 exFold_ok.2.2.2.2

end Elisa.Infer.Fl
