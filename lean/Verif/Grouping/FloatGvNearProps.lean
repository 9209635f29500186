import Verif.Grouping.FloatRatioProps

/-!
# The significance over a Gaussian background of nearby sums and ratios

`significance_gv` (grouping.py:541-570): how much the exact significance moves if the background, its variance and the ratio move, and that the code decides as the exact rule does.
-/

namespace Elisa.Grouping.Fl

open Elisa Elisa.Grouping Elisa.Infer.Fl

/-- The terms with the background held at its mean. -/
theorem gvTerms_mean {n b s : ℝ} (hn : 0 ≤ n) (hb : 0 < b) (hs : 0 < s) : gvTerms n b s ≤ (if 0 < n then n * Real.log (n / b) else 0) + (b - n) := by
  obtain ⟨-, e, m⟩ := C11_profile n b s hn hs
  rw [e]
  refine (m b hb.le fun _ => hb).trans (le_of_eq ?_)
  unfold backLoss
  rw [sub_self]
  simp

/-- Half the squared significance grows by at most `60 ε` of the counts if background and variance change by `ε` of either. -/
theorem gv_upper {n b b' s s' ε : ℝ} (hn : 0 ≤ n) (hn1 : n ≤ 2 ^ 20) (hb : 2 ^ (-31 : ℤ) ≤ b) (hs : 0 < s) (hs' : 0 < s') (hbb : |b' - b| ≤ ε * b) (hss : s ^ 2 ≤ (1 + ε) * s' ^ 2)
    (hw : b ≤ 2 ^ 42 * s ^ 2) (h0 : 0 ≤ ε) (h1 : ε ≤ 1 / 10 ^ 11) : gvTerms n b' s' ≤ gvTerms n b s + 60 * ε * (n + b) := by
  have b0 : 0 < b := (two_zpow_pos _).trans_le hb
  have top : gvTerms n b s ≤ 36 * (n + b) := by
    refine (gvTerms_mean hn b0 hs).trans ?_
    split
    · next hc =>
      have : Real.log (n / b) ≤ 36 := by
        have q : n / b ≤ 2 ^ 51 := by
          rw [div_le_iff₀ b0]
          refine hn1.trans ?_
          refine le_trans ?_ (mul_le_mul_of_nonneg_left hb (by norm_num))
          norm_num
        refine (Real.log_le_log (by positivity) q).trans ?_
        rw [Real.log_pow]
        have := Real.log_two_lt_d9
        push_cast
        linarith
      have := mul_le_mul_of_nonneg_left this hn
      linarith
    · linarith
  obtain ⟨m0, e, -⟩ := C11_profile n b s hn hs
  obtain ⟨-, mp, meq, mge⟩ := gvBackground_spec (b := b) hn hs
  obtain ⟨-, e', m'⟩ := C11_profile n b' s' hn hs'
  have step := m' (gvBackground n b s) m0 mp
  rw [← e'] at step
  refine step.trans ?_
  clear step m' e'
  generalize gvBackground n b s = μ at *
  have flat : gvTerms n b s = backLoss n b s μ := e
  have L0 : 0 ≤ (if 0 < n then n * Real.log (n / μ) else 0) + (μ - n) := by
    split
    · next hc =>
      have := mul_log_ge hc (mp hc)
      linarith
    · linarith
  unfold backLoss at *
  rw [flat] at top ⊢
  have p0 : 0 < s ^ 2 := by positivity
  have p0' : 0 < s' ^ 2 := by positivity
  have meq' : μ * (μ - b) = s ^ 2 * (n - μ) := by nlinarith
  have mge' : b - μ ≤ s ^ 2 := by nlinarith
  generalize s ^ 2 = p at *
  generalize s' ^ 2 = p' at *
  have lever : b * |b - μ| ≤ p * (n + b) := by
    rcases le_total b μ with hc | hc
    · rw [abs_of_nonpos (by linarith)]
      have : b * (μ - b) ≤ μ * (μ - b) := mul_le_mul_of_nonneg_right hc (by linarith)
      nlinarith
    · rw [abs_of_nonneg (by linarith)]
      have : b * (b - μ) ≤ b * p := mul_le_mul_of_nonneg_left mge' b0.le
      nlinarith
  have lever' : ε * b * |b - μ| / p ≤ ε * (n + b) := by
    rw [div_le_iff₀ p0]
    have := mul_le_mul_of_nonneg_left lever h0
    linarith
  have bend : (ε * b) ^ 2 / (2 * p) ≤ 22 * ε * b := by
    rw [div_le_iff₀ (by positivity)]
    have h2 : ε * b ≤ 1 / 10 ^ 11 * (2 ^ 42 * p) := mul_le_mul h1 hw b0.le (by norm_num)
    have h3 : (ε * b) ^ 2 ≤ (ε * b) * (1 / 10 ^ 11 * (2 ^ 42 * p)) := by
      rw [sq]; exact mul_le_mul_of_nonneg_left h2 (by positivity)
    have h4 : 0 ≤ ε * b * p := by positivity
    have h5 : (ε * b) * (1 / 10 ^ 11 * (2 ^ 42 * p)) = (2 ^ 42 / 10 ^ 11) * (ε * b * p) := by ring
    rw [h5] at h3
    norm_num at h3
    nlinarith
  have expand : (b' - μ) ^ 2 / (2 * p') ≤ (1 + ε) * ((b - μ) ^ 2 / (2 * p) + ε * b * |b - μ| / p + (ε * b) ^ 2 / (2 * p)) := by
    have g1 : (b' - μ) ^ 2 ≤ (b - μ) ^ 2 + 2 * (ε * b * |b - μ|) + (ε * b) ^ 2 := by
      have a1 : |b' - μ| ≤ ε * b + |b - μ| := by
        have := abs_add_le (b' - b) (b - μ)
        rw [show b' - b + (b - μ) = b' - μ by ring] at this
        linarith
      have a2 := pow_le_pow_left₀ (abs_nonneg _) a1 2
      rw [sq_abs] at a2
      refine a2.trans (le_of_eq ?_)
      rw [add_sq, sq_abs]
      ring
    have g2 : (b - μ) ^ 2 / (2 * p) + ε * b * |b - μ| / p + (ε * b) ^ 2 / (2 * p) = ((b - μ) ^ 2 + 2 * (ε * b * |b - μ|) + (ε * b) ^ 2) / (2 * p) := by
      field_simp
    rw [g2]
    have g3 : 0 ≤ ((b - μ) ^ 2 + 2 * (ε * b * |b - μ|) + (ε * b) ^ 2) := (sq_nonneg _).trans g1
    generalize (b - μ) ^ 2 + 2 * (ε * b * |b - μ|) + (ε * b) ^ 2 = Z at *
    rw [div_le_iff₀ (by positivity)]
    refine g1.trans ?_
    have : (1 + ε) * (Z / (2 * p)) * (2 * p') = Z * ((1 + ε) * p' / p) := by field_simp
    rw [this]
    refine le_mul_of_one_le_right g3 ?_
    rw [le_div_iff₀ p0]
    linarith
  have q0 : 0 ≤ (b - μ) ^ 2 / (2 * p) := by positivity
  have l0 : 0 ≤ ε * b * |b - μ| / p := by positivity
  have r0 : 0 ≤ (ε * b) ^ 2 / (2 * p) := by positivity
  generalize (b - μ) ^ 2 / (2 * p) = q at *
  generalize ε * b * |b - μ| / p = l at *
  generalize (ε * b) ^ 2 / (2 * p) = r at *
  generalize (if 0 < n then n * Real.log (n / μ) else 0) = L at *
  have hq : ε * q ≤ ε * (36 * (n + b)) := mul_le_mul_of_nonneg_left (by linarith) h0
  have hl : ε * (l + r) ≤ 1 / 10 ^ 11 * (l + r) := mul_le_mul_of_nonneg_right h1 (by linarith)
  have hnn : 0 ≤ ε * n := by positivity
  have hbb : 0 ≤ ε * b := by positivity
  norm_num at hl
  nlinarith


/-- Background and uncertainty of an interval, both multiplied with the ratio, and values close to them. -/
structure GvNear (n x y x' y' ε : ℝ) : Prop where
  n0 : 0 ≤ n
  counts : n + x ≤ 10 ^ 6
  low : 2 ^ (-30 : ℤ) ≤ x
  y0 : 0 < y
  y0' : 0 < y'
  wide : x ≤ 2 ^ 40 * y ^ 2
  back : |x' - x| ≤ ε * x
  up : y ^ 2 ≤ (1 + ε) * y' ^ 2
  down : y' ^ 2 ≤ (1 + ε) * y ^ 2
  e0 : 0 ≤ ε
  e1 : ε ≤ 1 / 10 ^ 12

theorem GvNear.pos {n x y x' y' ε : ℝ} (h : GvNear n x y x' y' ε) : 0 < x ∧ 1 / 2 * x ≤ x' ∧ x' ≤ 2 * x := by
  have x0 : 0 < x := (two_zpow_pos _).trans_le h.low
  obtain ⟨b1, b2⟩ := _root_.abs_le.1 h.back
  have := mul_le_mul_of_nonneg_right h.e1 x0.le
  exact ⟨x0, by linarith, by linarith⟩

theorem GvNear.terms {n x y x' y' ε : ℝ} (h : GvNear n x y x' y' ε) : |gvTerms n x' y' - gvTerms n x y| ≤ 125 * ε * (n + x) := by
  obtain ⟨x0, x1, x2⟩ := h.pos
  have hn1 : n ≤ 2 ^ 20 := by have := h.counts; norm_num at this ⊢; linarith
  have e0 := h.e0
  have n0 := h.n0
  have u := gv_upper n0 hn1 ((zpow_le (by norm_num)).trans h.low) h.y0 h.y0' h.back h.up (by
    have := h.wide
    have := sq_nonneg y
    norm_num at *
    linarith) e0 (h.e1.trans (by norm_num))
  have back' : |x - x'| ≤ 2 * ε * x' := by
    rw [abs_sub_comm]
    refine h.back.trans ?_
    have := mul_le_mul_of_nonneg_left x1 e0
    linarith
  have d := gv_upper (b' := x) (s' := y) (ε := 2 * ε) n0 hn1 (b := x') (s := y') (by
      refine le_trans ?_ x1
      have := h.low
      have e : (2 : ℝ) ^ (-31 : ℤ) = 1 / 2 * 2 ^ (-30 : ℤ) := by norm_num
      rw [e]
      exact mul_le_mul_of_nonneg_left this (by norm_num)) h.y0' h.y0 back' (by
      have := h.down
      have := mul_nonneg e0 (sq_nonneg y)
      linarith) (by
      have w := h.wide
      have up := h.up
      have := mul_le_mul_of_nonneg_right h.e1 (sq_nonneg y')
      have : y ^ 2 ≤ 2 * y' ^ 2 := by
        have := sq_nonneg y'
        linarith
      norm_num at *
      linarith) (by linarith) (by have := h.e1; norm_num at *; linarith)
  have hx : ε * (n + x') ≤ ε * (n + x) + ε * (1 / 10 ^ 12 * x) := by
    rw [← mul_add]
    refine mul_le_mul_of_nonneg_left ?_ e0
    have := (_root_.abs_le.1 h.back).2
    have := mul_le_mul_of_nonneg_right h.e1 x0.le
    linarith
  have hp : 0 ≤ ε * n := by positivity
  have hq : 0 ≤ ε * x := by positivity
  rw [_root_.abs_le]
  norm_num at hx
  constructor <;> linarith

section
variable {n b b' s s' a a' ε : ℝ}

/-- The significance has the same sign, or is small. -/
theorem GvNear.sign (ha : 0 < a) (ha' : 0 < a') (hs : 0 < s) (hs' : 0 < s') (h : GvNear n (b * a) (s * a) (b' * a') (s' * a') ε) :
    (1 ≤ significanceGv n b s a → 0 ≤ significanceGv n b' s' a') ∧ (1 ≤ significanceGv n b' s' a' → 0 ≤ significanceGv n b s a) := by
  obtain ⟨x0, x1, x2⟩ := h.pos
  obtain ⟨-, c2, -, c4, c5⟩ := C11_gv n b s a h.n0 hs ha
  obtain ⟨-, k2, -, k4, k5⟩ := C11_gv n b' s' a' h.n0 hs' ha'
  have t := gvTerms_le h.n0 x0 h.y0
  have t' := gvTerms_le h.n0 (show 0 < b' * a' by linarith) h.y0'
  have b1 := _root_.abs_le.1 h.back
  have m := mul_le_mul_of_nonneg_right h.e1 x0.le
  have top := h.counts
  have n0 := h.n0
  have e1 := h.e1
  generalize b * a = x at *
  generalize b' * a' = x' at *
  have x6 : x ≤ 10 ^ 6 := by linarith
  have bound : ∀ z, 1 / 2 * x ≤ z → |n - z| ≤ 1 / 10 ^ 12 * x → (n - z) ^ 2 / z < 1 / 2 := by
    intro z hz hd
    rw [div_lt_iff₀ (by linarith), ← sq_abs]
    have : |n - z| ^ 2 ≤ (1 / 10 ^ 12 * x) ^ 2 := pow_le_pow_left₀ (abs_nonneg _) hd 2
    have : (1 / 10 ^ 12 * x) ^ 2 ≤ 1 / 10 ^ 12 * x := by
      have : (1 / 10 ^ 12 * x) ^ 2 = (1 / 10 ^ 12 * x) * (1 / 10 ^ 12 * x) := sq _
      rw [this]
      refine mul_le_of_le_one_right (by positivity) ?_
      norm_num at *
      linarith
    norm_num at *
    linarith
  constructor
  · intro hS
    by_contra hc
    push Not at hc
    have g1 := c4.1 (by linarith)
    have g2 := k5.1 hc
    have := bound x (by linarith) (by rw [abs_of_nonneg (by linarith)]; linarith)
    nlinarith
  · intro hS
    by_contra hc
    push Not at hc
    have g1 := k4.1 (by linarith)
    have g2 := c5.1 hc
    have := bound x' x1 (by rw [abs_of_nonneg (by linarith)]; linarith)
    nlinarith

/-- The decision is the same for a significance that is not close to the threshold. -/
theorem GvNear.decides (ha : 0 < a) (ha' : 0 < a') (hs : 0 < s) (hs' : 0 < s') (h : GvNear n (b * a) (s * a) (b' * a') (s' * a') ε) {sig : ℝ} (hsig : 1001 / 1000 ≤ sig)
    (hS : 1 / 10 ^ 6 + 250 * 10 ^ 6 * ε < |significanceGv n b s a - sig|) :
    1 / 10 ^ 6 < |significanceGv n b' s' a' - sig| ∧ (sig ≤ significanceGv n b' s' a' ↔ sig ≤ significanceGv n b s a) := by
  obtain ⟨p1, p2⟩ := h.sign ha ha' hs hs'
  have sq : |significanceGv n b' s' a' ^ 2 - significanceGv n b s a ^ 2| ≤ 250 * 10 ^ 6 * ε := by
    rw [(C11_gv n b s a h.n0 hs ha).2.1, (C11_gv n b' s' a' h.n0 hs' ha').2.1, ← mul_sub, abs_mul, abs_of_pos (by norm_num : (0 : ℝ) < 2)]
    have := h.terms
    have := mul_le_mul_of_nonneg_left h.counts h.e0
    linarith
  have k : 250 * 10 ^ 6 * ε ≤ 1 / 4000 := by have := h.e1; norm_num at *; linarith
  have k0 : 0 ≤ 250 * 10 ^ 6 * ε := by have := h.e0; positivity
  generalize significanceGv n b s a = S at *
  generalize significanceGv n b' s' a' = S' at *
  generalize 250 * 10 ^ 6 * ε = κ at *
  rw [sq_sub_sq, abs_mul] at sq
  have close : 1 ≤ |S' + S| → |S' - S| ≤ κ := fun hc => by nlinarith [abs_nonneg (S' - S)]
  rcases le_total 0 (S - sig) with hc | hc
  · rw [abs_of_nonneg hc] at hS
    have := p1 (by linarith)
    obtain ⟨f1, f2⟩ := _root_.abs_le.1 (close (by rw [abs_of_nonneg (by linarith)]; linarith))
    refine ⟨?_, ?_⟩
    · rw [abs_of_nonneg (by norm_num at *; linarith)]; linarith
    · exact ⟨fun _ => by linarith, fun _ => by norm_num at *; linarith⟩
  · rw [abs_of_nonpos hc] at hS
    have : S' + 1 / 10 ^ 6 < sig := by
      by_contra hd
      push Not at hd
      have s1 : 1 ≤ S' := by norm_num at *; linarith
      have := p2 s1
      obtain ⟨f1, f2⟩ := _root_.abs_le.1 (close (by rw [abs_of_nonneg (by linarith)]; linarith))
      linarith
    refine ⟨?_, ?_⟩
    · rw [abs_of_nonpos (by norm_num at *; linarith)]; linarith
    · exact ⟨fun _ => by norm_num at *; linarith, fun _ => by linarith⟩

end

/-- An interval of channels where the significance over a Gaussian background can be trusted: not too many counts, a background that is not too small, the variance `v` of the scaled background at
most `49 %` of it and not `2 ^ 39` times smaller; `b`, `v` and the ratio `a` are exact. -/
structure GvClear (n b v a : ℝ) : Prop where
  counts : n + b * a ≤ 9 * 10 ^ 5
  low : 2 ^ (-29 : ℤ) ≤ b * a
  narrow : v * a ^ 2 ≤ 49 / 100 * (b * a)
  wide : b * a ≤ 2 ^ 39 * (v * a ^ 2)
  ratio : 0 < a

theorem GvClear.near {n : ℕ} {b v a b' v' a' δ : ℝ} (hz : GvClear n b v a) (ha' : In (-30) 30 a') (hδ : 0 ≤ δ) (hδ1 : δ ≤ 2 / 10 ^ 13)
    (hb : |b' - b| ≤ δ * b) (hv : |v' - v| ≤ δ * v) (ha : |a' - a| ≤ δ * a) :
    0 < a' ∧ 0 < Real.sqrt v ∧ 0 < Real.sqrt v' ∧ GvNear n (b * a) (Real.sqrt v * a) (b' * a') (Real.sqrt v' * a') (5 * δ) ∧ GvInterval n b' v' a' := by
  have a0 := hz.ratio
  have a0' := ha'.pos
  have x0 : 0 < b * a := (two_zpow_pos _).trans_le hz.low
  have b0 : 0 < b := pos_of_mul_pos_left x0 a0.le
  have p0 : 0 < v * a ^ 2 := by
    have := x0.trans_le hz.wide
    exact pos_of_mul_pos_right this (by norm_num)
  have v0 : 0 < v := pos_of_mul_pos_left p0 (by positivity)
  obtain ⟨b1, b2⟩ := _root_.abs_le.1 hb
  obtain ⟨v1, v2⟩ := _root_.abs_le.1 hv
  obtain ⟨a1, a2⟩ := _root_.abs_le.1 ha
  have d1 : δ ≤ 1 / 100 := hδ1.trans (by norm_num)
  have v0' : 0 < v' := by
    have := mul_le_mul_of_nonneg_right d1 v0.le
    linarith
  have b0' : 0 < b' := by
    have := mul_le_mul_of_nonneg_right d1 b0.le
    linarith
  have bl : (1 - δ) * b ≤ b' := by linarith
  have bu : b' ≤ (1 + δ) * b := by linarith
  have vl : (1 - δ) * v ≤ v' := by linarith
  have vu : v' ≤ (1 + δ) * v := by linarith
  have al : (1 - δ) * a ≤ a' := by linarith
  have au : a' ≤ (1 + δ) * a := by linarith
  have e0 : 0 ≤ 1 - δ := by linarith
  have e1 : 0 ≤ 1 + δ := by linarith
  have xl : (1 - δ) * b * ((1 - δ) * a) ≤ b' * a' := mul_le_mul bl al (by positivity) b0'.le
  have xu : b' * a' ≤ (1 + δ) * b * ((1 + δ) * a) := mul_le_mul bu au a0'.le (by positivity)
  have pl : (1 - δ) * v * ((1 - δ) * a) ^ 2 ≤ v' * a' ^ 2 := mul_le_mul vl (pow_le_pow_left₀ (by positivity) al 2) (by positivity) v0'.le
  have pu : v' * a' ^ 2 ≤ (1 + δ) * v * ((1 + δ) * a) ^ 2 := mul_le_mul vu (pow_le_pow_left₀ a0'.le au 2) (by positivity) (by positivity)
  have xl' : (1 - δ) ^ 2 * (b * a) ≤ b' * a' := xl.trans' (le_of_eq (by ring))
  have xu' : b' * a' ≤ (1 + δ) ^ 2 * (b * a) := xu.trans (le_of_eq (by ring))
  have pl' : (1 - δ) ^ 3 * (v * a ^ 2) ≤ v' * a' ^ 2 := pl.trans' (le_of_eq (by ring))
  have pu' : v' * a' ^ 2 ≤ (1 + δ) ^ 3 * (v * a ^ 2) := pu.trans (le_of_eq (by ring))
  have q1 : 1 - 3 * δ ≤ (1 - δ) ^ 2 := by nlinarith
  have q2 : (1 + δ) ^ 2 ≤ 1 + 3 * δ := by nlinarith
  have q3 : 1 - 4 * δ ≤ (1 - δ) ^ 3 := by nlinarith [mul_nonneg hδ hδ]
  have q4 : (1 + δ) ^ 3 ≤ 1 + 4 * δ := by nlinarith [mul_nonneg hδ hδ, mul_nonneg hδ (mul_nonneg hδ hδ)]
  have x1 := (mul_le_mul_of_nonneg_right q1 x0.le).trans xl'
  have x2 := xu'.trans (mul_le_mul_of_nonneg_right q2 x0.le)
  have p1 := (mul_le_mul_of_nonneg_right q3 p0.le).trans pl'
  have p2 := pu'.trans (mul_le_mul_of_nonneg_right q4 p0.le)
  have s1 : (Real.sqrt v * a) ^ 2 = v * a ^ 2 := by rw [mul_pow, Real.sq_sqrt v0.le]
  have s2 : (Real.sqrt v' * a') ^ 2 = v' * a' ^ 2 := by rw [mul_pow, Real.sq_sqrt v0'.le]
  have hs : 0 < Real.sqrt v := Real.sqrt_pos.2 v0
  have hs' : 0 < Real.sqrt v' := Real.sqrt_pos.2 v0'
  have dx := mul_le_mul_of_nonneg_right hδ1 x0.le
  have dp := mul_le_mul_of_nonneg_right hδ1 p0.le
  have dx0 := mul_nonneg hδ x0.le
  have dp0 := mul_nonneg hδ p0.le
  have low := hz.low
  have wide := hz.wide
  have narrow := hz.narrow
  have counts := hz.counts
  have n0 : (0 : ℝ) ≤ n := Nat.cast_nonneg n
  have near : GvNear n (b * a) (Real.sqrt v * a) (b' * a') (Real.sqrt v' * a') (5 * δ) := by
    refine ⟨n0, by linarith, (zpow_le (by norm_num)).trans low, by positivity, by positivity, ?_, ?_, ?_, ?_, by linarith, by norm_num at hδ1 ⊢; linarith⟩
    · rw [s1]
      refine wide.trans (mul_le_mul_of_nonneg_right (by norm_num) p0.le)
    · rw [_root_.abs_le]
      constructor <;> linarith
    · rw [s1, s2]
      have : (1 + 5 * δ) * ((1 - 4 * δ) * (v * a ^ 2)) ≤ (1 + 5 * δ) * (v' * a' ^ 2) := mul_le_mul_of_nonneg_left p1 (by linarith)
      have : 0 ≤ δ * (v * a ^ 2) * (1 - 20 * δ) := mul_nonneg dp0 (by have : δ ≤ 1 / 20 := hδ1.trans (by norm_num); linarith)
      linarith
    · rw [s1, s2]
      linarith
  have int : GvInterval n b' v' a' := by
    have t1 : (2 : ℝ) ^ (-30 : ℤ) = 1 / 2 * 2 ^ (-29 : ℤ) := by norm_num
    norm_num at dx dp
    refine ⟨by linarith, ?_, by linarith, ?_, ha'⟩
    · rw [t1]
      refine (mul_le_mul_of_nonneg_left low (by norm_num)).trans ?_
      linarith
    · norm_num at wide ⊢
      linarith
  exact ⟨a0', hs, hs', near, int⟩

/-- The decision with the sums and the ratio as computed. -/
theorem gv_reaches_near {rnd lg} (h : Nearest rnd) (hl : Accurate lg) {n : ℕ} {b v a b' v' a' δ sig : ℝ} (hz : GvClear n b v a) (ha' : In (-30) 30 a') (hδ : 0 ≤ δ) (hδ1 : δ ≤ 2 / 10 ^ 13)
    (hb : |b' - b| ≤ δ * b) (hv : |v' - v| ≤ δ * v) (ha : |a' - a| ≤ δ * a) (hsig : 1001 / 1000 ≤ sig)
    (hS : 1 / 10 ^ 6 + 125 * 10 ^ 7 * δ < |significanceGv n b (Real.sqrt v) a - sig|) :
    reachesE sig (gvF rnd lg n b' (rnd (Real.sqrt v')) a') = decide (sig ≤ significanceGv n b (Real.sqrt v) a) := by
  obtain ⟨a0', hs, hs', near, int⟩ := hz.near ha' hδ hδ1 hb hv ha
  obtain ⟨f1, f2⟩ := near.decides hz.ratio a0' hs hs' hsig (by
    refine lt_of_le_of_lt (le_of_eq ?_) hS
    ring)
  rw [gv_reaches h hl int hsig f1]
  simp only [f2]

theorem gv_falls_near {rnd lg} (h : Nearest rnd) (hl : Accurate lg) {n : ℕ} {b v a b' v' a' δ sig : ℝ} (hz : GvClear n b v a) (ha' : In (-30) 30 a') (hδ : 0 ≤ δ) (hδ1 : δ ≤ 2 / 10 ^ 13)
    (hb : |b' - b| ≤ δ * b) (hv : |v' - v| ≤ δ * v) (ha : |a' - a| ≤ δ * a) (hsig : 1001 / 1000 ≤ sig)
    (hS : 1 / 10 ^ 6 + 125 * 10 ^ 7 * δ < |significanceGv n b (Real.sqrt v) a - sig|) (hE : 3 / 10 ^ 2 ≤ |significanceGv n b (Real.sqrt v) a|) :
    fallsE sig (gvF rnd lg n b' (rnd (Real.sqrt v')) a') = !decide (sig ≤ significanceGv n b (Real.sqrt v) a) := by
  have hR := gv_reaches_near h hl hz ha' hδ hδ1 hb hv ha hsig hS
  obtain ⟨a0', hs, hs', near, int⟩ := hz.near ha' hδ hδ1 hb hv ha
  have n0 : (0 : ℝ) ≤ n := Nat.cast_nonneg n
  have sq : |significanceGv n b' (Real.sqrt v') a' ^ 2 - significanceGv n b (Real.sqrt v) a ^ 2| ≤ 250 * 10 ^ 6 * (5 * δ) := by
    rw [(C11_gv n b _ a n0 hs hz.ratio).2.1, (C11_gv n b' _ a' n0 hs' a0').2.1, ← mul_sub, abs_mul, abs_of_pos (by norm_num : (0 : ℝ) < 2)]
    have := near.terms
    have := mul_le_mul_of_nonneg_left near.counts near.e0
    linarith
  have hq : (3 / 10 ^ 2) ^ 2 ≤ significanceGv n b (Real.sqrt v) a ^ 2 := by rw [← sq_abs (significanceGv _ _ _ _)]; exact pow_le_pow_left₀ (by norm_num) hE 2
  obtain ⟨k1, k2, k3⟩ := sigma_near h n0 int
  have big : (2 : ℝ) ^ (-40 : ℤ) * ((n : ℝ) + b' * a') ≤ significanceGv n b' (Real.sqrt v') a' ^ 2 := by
    refine (mul_le_mul_of_nonneg_left int.counts (two_zpow_pos _).le).trans ?_
    have := (_root_.abs_le.1 sq).1
    refine le_trans ?_ (show (3 / 10 ^ 2) ^ 2 - 250 * 10 ^ 6 * (5 * (2 / 10 ^ 13)) ≤ significanceGv n b' (Real.sqrt v') a' ^ 2 by norm_num at hq hδ1 ⊢; linarith)
    norm_num
  have x0 := (two_zpow_pos _).trans_le int.low
  have hn : n ≤ 2 ^ 50 := by
    have : (n : ℝ) ≤ 10 ^ 6 := by linarith [int.counts]
    have : n ≤ 10 ^ 6 := by exact_mod_cast this
    exact this.trans (by norm_num)
  have h2 : b' * a' ≤ 2 ^ (50 : ℤ) := le_trans (b := 10 ^ 6) (by linarith [int.counts]) (by norm_num)
  obtain ⟨x, e, -⟩ := C154_error_partial h hl hn k1 k2 int.ratio.pos int.low h2 (by rw [k3]; exact int.narrow) (by rw [k3]; exact int.wide) big
  rw [e] at hR ⊢
  simp only [fallsE, reachesE] at hR ⊢
  rw [← hR]
  simp only [← not_le, decide_not]

end Elisa.Grouping.Fl
