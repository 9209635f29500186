import Verif.Infer.FloatChi
import Verif.Infer.FloatPoissonProps

/-!
# The chi-square statistic and the P-statistic in floating point (C152)
-/

namespace Elisa.Infer.Fl

open Elisa Elisa.Infer Elisa.Grouping.Fl

/-! ## Adding up the channels -/

/-- Numbers `c j`, computed for `e j` with an error relative to `B j`, added up in any order and multiplied by minus two. -/
theorem statistic_error {F : Impl} (h : F.Legal) {N : ℕ} {c e B K : ℕ → ℝ} (hN : N ≤ 2 ^ 48) (hK : ∀ j < N, 0 ≤ K j ∧ K j ≤ 2 ^ 49)
    (h1 : ∀ j < N, |c j - e j| ≤ (K j + 35) * 2 ^ (-51 : ℤ) * B j) (h2 : ∀ j < N, c j ≤ 0) (h3 : ∀ j < N, 2 ^ (-900 : ℤ) ≤ B j ∧ B j ≤ 2 ^ (400 : ℤ))
    (h4 : ∀ j < N, |e j| ≤ B j) :
    |F.rnd (-2 * F.sum 0 ((List.range N).map c)) - -2 * ((List.range N).map e).sum| ≤ ((List.range N).map fun j : ℕ => (K j + N + 39) * 2 ^ (-50 : ℤ) * B j).sum := by
  have hNe : Nearest F.rnd := h.nearest
  have hneg : ∀ x ∈ (List.range N).map c, x ≤ 0 := by
    intro x hx
    obtain ⟨j, hj, rfl⟩ := List.mem_map.1 hx
    exact h2 j (List.mem_range.1 hj)
  have hlen : ((List.range N).map c).length = N := by simp
  have hsum := sum_near (l := List.range N) (fun j hj => h1 j (List.mem_range.1 hj))
  have hchan : (N : ℝ) ≤ 2 ^ 48 := by exact_mod_cast hN
  have hC : -((List.range N).map c).sum ≤ 2 * ((List.range N).map B).sum := by
    rw [← sum_scale, ← sum_neg_list, List.map_map]
    refine sum_mono fun j hj => ?_
    have hj' := List.mem_range.1 hj
    have hB : 0 ≤ B j := (two_zpow_pos _).le.trans (h3 j hj').1
    have : (K j + 35) * 2 ^ (-51 : ℤ) ≤ 1 := (mul_le_mul_of_nonneg_right (add_le_add (hK j hj').2 (le_refl _)) (two_zpow_pos _).le).trans (by norm_num)
    have := mul_le_mul_of_nonneg_right this hB
    have b1 := (_root_.abs_le.1 (h1 j hj')).1
    have b2 := (_root_.abs_le.1 (h4 j hj')).1
    simp only [Function.comp_apply]
    clear h3 hN hchan
    linarith
  have hBlow : (N : ℝ) * tiny ≤ 2 ^ (-52 : ℤ) * ((List.range N).map B).sum := by
    have := sum_mono (l := List.range N) (f := fun _ => tiny) (g := fun j => 2 ^ (-52 : ℤ) * B j)
      fun j hj => tiny_le ((zpow_le (by norm_num)).trans (h3 j (List.mem_range.1 hj)).1)
    rw [sum_scale] at this
    simpa using this
  have hBhigh : ((List.range N).map B).sum ≤ 2 ^ (450 : ℤ) := by
    have := sum_mono (l := List.range N) (g := fun _ => (2 : ℝ) ^ (400 : ℤ)) fun j hj => (h3 j (List.mem_range.1 hj)).2
    refine this.trans ?_
    simp only [List.map_const', List.length_range, List.sum_replicate, nsmul_eq_mul]
    refine (mul_le_mul_of_nonneg_right hchan (two_zpow_pos _).le).trans ?_
    rw [show (2 : ℝ) ^ 48 = 2 ^ (48 : ℤ) by norm_num, ← zpow_add₀ (by norm_num)]
    exact zpow_le (by norm_num)
  have hB0 : 0 ≤ ((List.range N).map B).sum :=
    List.sum_nonneg fun x hx => by
      obtain ⟨j, hj, rfl⟩ := List.mem_map.1 hx
      exact (two_zpow_pos _).le.trans (h3 j (List.mem_range.1 hj)).1
  have hsplit : ((List.range N).map fun j : ℕ => (K j + N + 39) * 2 ^ (-50 : ℤ) * B j).sum =
      2 * ((List.range N).map fun j : ℕ => (K j + 35) * 2 ^ (-51 : ℤ) * B j).sum + (N + 4) * 2 ^ (-50 : ℤ) * ((List.range N).map B).sum := by
    rw [← sum_scale, ← sum_scale, ← sum_plus]
    congr 1
    apply List.map_congr_left
    intro j _
    rw [show (2 : ℝ) ^ (-51 : ℤ) = 1 / 2 * 2 ^ (-50 : ℤ) by norm_num]
    ring
  rw [hsplit]
  clear h1 h2 h3 h4 hK
  generalize ((List.range N).map B).sum = B' at *
  generalize ((List.range N).map fun j : ℕ => (K j + 35) * 2 ^ (-51 : ℤ) * B j).sum = E at *
  generalize ((List.range N).map e).sum = X at *
  have hS500 : -((List.range N).map c).sum ≤ 2 ^ (500 : ℤ) := by
    refine hC.trans ((mul_le_mul_of_nonneg_left hBhigh (by norm_num)).trans ?_)
    have : (2 : ℝ) * 2 ^ (450 : ℤ) = 2 ^ (1 + 450 : ℤ) := by rw [zpow_add₀ (by norm_num), zpow_one]
    rw [this]
    exact zpow_le (by norm_num)
  have htot := total_error h 0 _ hneg hS500 (by rw [hlen]; exact hN.trans (by norm_num))
  rw [hlen] at htot
  clear hS500 hsplit
  by_cases hz : N = 0
  · subst hz
    simp only [List.range_zero, List.map_nil, List.sum_nil, zero_sub, abs_neg] at hsum
    simp only [List.range_zero, List.map_nil, Impl.sum, mul_zero]
    rw [hNe.fix rep_zero (by rw [abs_zero]; exact (two_zpow_pos _).le), zero_sub, abs_neg, abs_mul, abs_neg, abs_two]
    have : (0 : ℝ) ≤ (((0 : ℕ) : ℝ) + 4) * 2 ^ (-50 : ℤ) * B' := mul_nonneg (mul_nonneg (by positivity) (two_zpow_pos _).le) hB0
    clear hBhigh
    linarith
  have h1 : (1 : ℝ) ≤ N := by exact_mod_cast Nat.pos_of_ne_zero hz
  have ht0 := tiny_pos
  have hC0 : ((List.range N).map c).sum ≤ 0 := by
    have := List.sum_nonneg (l := ((List.range N).map c).map fun x => 1 * -x) (by
      intro z hz
      obtain ⟨y, hy, rfl⟩ := List.mem_map.1 hz
      simpa using hneg y hy)
    rw [sum_neg_list] at this
    linarith
  generalize ((List.range N).map c).sum = C at *
  generalize F.sum 0 ((List.range N).map c) = V at *
  have hz50 : (2 : ℝ) ^ (-50 : ℤ) = 4 * 2 ^ (-52 : ℤ) := by norm_num
  have hu : unit = 1 / 2 * 2 ^ (-52 : ℤ) := by unfold unit; norm_num
  have hzs : (N : ℝ) * 2 ^ (-52 : ℤ) ≤ 1 := (mul_le_mul_of_nonneg_right hchan (two_zpow_pos _).le).trans (by norm_num)
  have hzp : (0 : ℝ) ≤ 2 ^ (-52 : ℤ) := (two_zpow_pos _).le
  have hz1 : (2 : ℝ) ^ (-52 : ℤ) ≤ 1 / 100 := by norm_num
  have hBbig : 2 * (5 * B') ≤ (2 : ℝ) ^ (1023 : ℤ) := by
    have : 2 * (5 * B') ≤ 2 ^ (4 : ℤ) * 2 ^ (450 : ℤ) := by
      rw [← mul_assoc]
      exact mul_le_mul (by norm_num) hBhigh hB0 (two_zpow_pos _).le
    refine this.trans ?_
    rw [← zpow_add₀ (by norm_num)]
    exact zpow_le (by norm_num)
  have hE : ∀ x : ℝ, |x| ≤ 2 ^ (1023 : ℤ) → |F.rnd x - x| ≤ unit * |x| + tiny := fun x hx => hNe.err' hx
  generalize (2 : ℝ) ^ (1023 : ℤ) = Big at *
  have hcase : |V - C| ≤ N * 2 ^ (-52 : ℤ) * (2 * B') + 4 * (2 ^ (-52 : ℤ) * B') := by
    refine htot.trans (add_le_add (mul_le_mul_of_nonneg_left hC (mul_nonneg (by linarith) hzp)) ?_)
    clear hBhigh hBbig
    linarith
  rw [hz50]
  clear hBhigh hchan hz50 hN
  generalize (2 : ℝ) ^ (-52 : ℤ) = z at *
  have hV : |V| ≤ 5 * B' := by
    have a1 := abs_add_le (V - C) C
    rw [sub_add_cancel, abs_of_nonpos hC0] at a1
    have a2 := mul_le_mul_of_nonneg_right hzs (by linarith : 0 ≤ 2 * B')
    have a3 := mul_le_mul_of_nonneg_right hz1 hB0
    linarith
  have hV2 : |-2 * V| ≤ 10 * B' := by rw [abs_mul, abs_neg, abs_two]; linarith
  have hr := hE (-2 * V) (hV2.trans (by linarith))
  have hr2 := hr.trans (add_le_add (mul_le_mul_of_nonneg_left hV2 unit_pos.le) (le_refl _))
  have ht1 : tiny ≤ z * B' := le_trans (by nlinarith) hBlow
  have k1 := abs_sub_le (F.rnd (-2 * V)) (-2 * V) (-2 * X)
  have k2 : |-2 * V - -2 * X| ≤ 2 * (|V - C| + |C - X|) := by
    rw [← mul_sub, abs_mul, abs_neg, abs_two]
    exact mul_le_mul_of_nonneg_left (abs_sub_le _ _ _) (by norm_num)
  rw [hu] at hr2
  have zB : 0 ≤ z * B' := mul_nonneg hzp hB0
  nlinarith

/-! ## The chi-square statistic -/

/-- The size of the squared deviation of a channel with net counts `v` and uncertainty `σ` from `μ` expected counts. -/
noncomputable def spread (v μ σ : ℝ) : ℝ := ((|v| + μ) / σ) ^ 2

theorem normalF_nonpos {rnd} (h : Nearest rnd) {v m σ : ℝ} (hz : |rnd (rnd (v - m) / σ)| ≤ 2 ^ (400 : ℤ)) : normalF rnd v m σ ≤ 0 := by
  unfold normalF
  generalize rnd (rnd (v - m) / σ) = z at *
  have hw : |-1 / 2 * z| ≤ 2 ^ (400 : ℤ) := by
    rw [abs_mul, show |(-1 / 2 : ℝ)| = 1 / 2 by norm_num [abs_of_neg]]
    exact le_trans (by linarith [abs_nonneg z]) hz
  obtain ⟨-, hw2⟩ := h.abs_le hw (by norm_num) (by norm_num)
  have hp : |rnd (-1 / 2 * z) * z| ≤ 2 ^ (1023 : ℤ) := (mul_abs hw2 hz).trans (zpow_le (by norm_num))
  have hb : |-1 / 2 * z| ≤ 2 ^ (1023 : ℤ) := hw.trans (zpow_le (by norm_num))
  refine h.le hp rep_zero ?_
  rcases le_total 0 z with h0 | h0
  · exact mul_nonpos_of_nonpos_of_nonneg (h.le hb rep_zero (by linarith)) h0
  · exact mul_nonpos_of_nonneg_of_nonpos (h.ge hb rep_zero (by linarith)) h0

theorem normal_error {rnd} (h : Nearest rnd) {v m σ : ℝ} (hv : |v| ≤ 2 ^ (60 : ℤ)) (hm : 2 ^ (-200 : ℤ) ≤ m) (hm2 : m ≤ 2 ^ (60 : ℤ)) (hσ : 2 ^ (-60 : ℤ) ≤ σ)
    (hσ2 : σ ≤ 2 ^ (60 : ℤ)) :
    |normalF rnd v m σ - normalLogProb v m σ| ≤ 10 * 2 ^ (-51 : ℤ) * spread v m σ ∧ normalF rnd v m σ ≤ 0 := by
  have hσ0 : 0 < σ := (two_zpow_pos _).trans_le hσ
  have hm0 : 0 < m := (two_zpow_pos _).trans_le hm
  have hv0 := abs_nonneg v
  have hD1 : 2 ^ (-200 : ℤ) ≤ |v| + m := hm.trans (by linarith)
  have hD2 : |v| + m ≤ 2 ^ (61 : ℤ) := by
    refine (add_le_add hv hm2).trans (le_of_eq ?_)
    norm_num
  have hS1 : 2 ^ (-260 : ℤ) ≤ (|v| + m) / σ := by
    have := (div_in ⟨hD1, hD2⟩ ⟨hσ, hσ2⟩).1
    simpa using this
  have hS2 : (|v| + m) / σ ≤ 2 ^ (121 : ℤ) := by
    have := (div_in ⟨hD1, hD2⟩ ⟨hσ, hσ2⟩).2
    simpa using this
  have hx : |v - m| ≤ |v| + m := (abs_sub _ _).trans (by rw [abs_of_pos hm0])
  have e1 := step h (a := v - m) (x := v - m) (k := 0) (S := |v| + m) ((zpow_le (by norm_num)).trans hD1) (hD2.trans (zpow_le (by norm_num))) (by norm_num) hx
    (by rw [sub_self, abs_zero, zero_mul, zero_mul])
  have hdiv : |rnd (v - m) / σ - (v - m) / σ| ≤ 1 * 2 ^ (-50 : ℤ) * ((|v| + m) / σ) := by
    rw [← sub_div, abs_div, abs_of_pos hσ0, ← mul_div_assoc]
    refine div_le_div_of_nonneg_right (e1.trans (le_of_eq ?_)) hσ0.le
    ring
  have ht : |(v - m) / σ| ≤ (|v| + m) / σ := by
    rw [abs_div, abs_of_pos hσ0]
    exact div_le_div_of_nonneg_right hx hσ0.le
  unfold spread normalLogProb
  have hN : ∀ hz, normalF rnd v m σ ≤ 0 := normalF_nonpos h
  unfold normalF at hN ⊢
  generalize (|v| + m) / σ = S at *
  generalize (v - m) / σ = t at *
  have hS0 : 0 < S := (two_zpow_pos _).trans_le hS1
  have hb1 : 2 ^ (-1000 : ℤ) ≤ S := (zpow_le (by norm_num)).trans hS1
  have hb2 : S ≤ 2 ^ (1000 : ℤ) := hS2.trans (zpow_le (by norm_num))
  have e2 := step h hb1 hb2 (by norm_num) ht hdiv
  have hzS : |rnd (rnd (v - m) / σ)| ≤ (1 + 2 ^ (-49 : ℤ)) * S := by
    have := abs_add_le (rnd (rnd (v - m) / σ) - t) t
    rw [sub_add_cancel] at this
    refine this.trans ((add_le_add e2 ht).trans (le_of_eq ?_))
    rw [show (2 : ℝ) ^ (-49 : ℤ) = 2 * 2 ^ (-50 : ℤ) by norm_num]
    ring
  have hz400 : |rnd (rnd (v - m) / σ)| ≤ 2 ^ (400 : ℤ) := by
    refine hzS.trans ((mul_le_mul (by norm_num : (1 + 2 ^ (-49 : ℤ) : ℝ) ≤ 2 ^ (1 : ℤ)) hS2 hS0.le (two_zpow_pos _).le).trans ?_)
    rw [← zpow_add₀ (by norm_num)]
    exact zpow_le (by norm_num)
  refine ⟨?_, hN hz400⟩
  generalize rnd (rnd (v - m) / σ) = z at *
  have hth : |-1 / 2 * t| ≤ 1 / 2 * S := by
    rw [abs_mul, show |(-1 / 2 : ℝ)| = 1 / 2 by norm_num [abs_of_neg]]
    linarith
  have e3 := step h (a := -1 / 2 * z) (x := -1 / 2 * t) (k := 1) (S := S) hb1 hb2 (by norm_num) (hth.trans (by linarith)) (by
    rw [← mul_sub, abs_mul, show |(-1 / 2 : ℝ)| = 1 / 2 by norm_num [abs_of_neg]]
    refine (mul_le_mul_of_nonneg_left e2 (by norm_num)).trans (le_of_eq ?_)
    ring)
  generalize rnd (-1 / 2 * z) = w at *
  have hSS1 : 2 ^ (-1000 : ℤ) ≤ S ^ 2 := by
    have := mul_le_mul hS1 hS1 (two_zpow_pos _).le hS0.le
    rw [← zpow_add₀ (by norm_num), ← pow_two] at this
    exact (zpow_le (by norm_num)).trans this
  have hSS2 : S ^ 2 ≤ 2 ^ (1000 : ℤ) := by
    have := mul_le_mul hS2 hS2 hS0.le (two_zpow_pos _).le
    rw [← zpow_add₀ (by norm_num), ← pow_two] at this
    exact this.trans (zpow_le (by norm_num))
  have hprod : |w * z - -1 / 2 * t * t| ≤ 4 * 2 ^ (-50 : ℤ) * S ^ 2 := by
    rw [show w * z - -1 / 2 * t * t = (w - -1 / 2 * t) * z + -1 / 2 * t * (z - t) by ring]
    refine (abs_add_le _ _).trans ?_
    rw [abs_mul, abs_mul]
    have p1 := mul_le_mul e3 hzS (abs_nonneg _) ((abs_nonneg _).trans e3)
    have p2 := mul_le_mul hth e2 (abs_nonneg _) (by linarith)
    refine (add_le_add p1 p2).trans ?_
    have : (2 : ℝ) ^ (-49 : ℤ) ≤ 1 / 4 := by norm_num
    have hq := two_zpow_pos (-50)
    have hQ : 0 ≤ (2 : ℝ) ^ (-50 : ℤ) * S ^ 2 := by positivity
    have := mul_le_mul_of_nonneg_right this hQ
    clear hb1 hb2 hS1 hS2 hSS1 hSS2 hz400 e1 hD1 hD2
    nlinarith
  have e4 := step h (a := w * z) (x := -1 / 2 * t * t) (k := 4) (S := S ^ 2) hSS1 hSS2 (by norm_num) (by
    rw [abs_mul]
    have := mul_le_mul hth ht (abs_nonneg _) (by linarith)
    refine this.trans ?_
    nlinarith) hprod
  refine e4.trans (le_of_eq ?_)
  rw [show (2 : ℝ) ^ (-50 : ℤ) = 2 * 2 ^ (-51 : ℤ) by norm_num]
  ring

theorem normal_near {v m μ σ ε : ℝ} (hσ : 0 < σ) (hμ : 0 < μ) (he0 : 0 ≤ ε) (he : ε ≤ 1 / 2) (h : |m - μ| ≤ ε * μ) :
    spread v m σ ≤ 9 / 4 * spread v μ σ ∧ |normalLogProb v m σ - normalLogProb v μ σ| ≤ 5 / 4 * ε * spread v μ σ := by
  have hv := abs_nonneg v
  have hm := _root_.abs_le.1 h
  have hS : 0 ≤ (|v| + μ) / σ := div_nonneg (by linarith) hσ.le
  constructor
  · unfold spread
    have h1 : (|v| + m) / σ ≤ 3 / 2 * ((|v| + μ) / σ) := by
      rw [← mul_div_assoc]
      refine div_le_div_of_nonneg_right ?_ hσ.le
      nlinarith
    have h0 : 0 ≤ (|v| + m) / σ := div_nonneg (by nlinarith) hσ.le
    refine (pow_le_pow_left₀ h0 h1 2).trans (le_of_eq ?_)
    ring
  · unfold normalLogProb spread
    have d1 : |(v - m) / σ - (v - μ) / σ| ≤ ε * ((|v| + μ) / σ) := by
      rw [← sub_div, abs_div, abs_of_pos hσ, ← mul_div_assoc]
      refine div_le_div_of_nonneg_right ?_ hσ.le
      rw [show v - m - (v - μ) = -(m - μ) by ring, abs_neg]
      nlinarith
    have d2 : |(v - μ) / σ| ≤ (|v| + μ) / σ := by
      rw [abs_div, abs_of_pos hσ]
      refine div_le_div_of_nonneg_right ((abs_sub _ _).trans ?_) hσ.le
      rw [abs_of_pos hμ]
    have d3 : |(v - m) / σ + (v - μ) / σ| ≤ (5 / 2) * ((|v| + μ) / σ) := by
      rw [show (v - m) / σ + (v - μ) / σ = ((v - m) / σ - (v - μ) / σ) + (2 * ((v - μ) / σ)) by ring]
      refine (abs_add_le _ _).trans ?_
      rw [abs_mul, abs_two]
      have := mul_le_mul_of_nonneg_right he hS
      linarith
    generalize (v - m) / σ = t' at *
    generalize (v - μ) / σ = t at *
    generalize (|v| + μ) / σ = S at *
    show |-1 / 2 * t' * t' - -1 / 2 * t * t| ≤ 5 / 4 * ε * S ^ 2
    rw [show -1 / 2 * t' * t' - -1 / 2 * t * t = (-1 / 2) * ((t' - t) * (t' + t)) by ring, abs_mul, abs_mul, show |(-1 / 2 : ℝ)| = 1 / 2 by norm_num [abs_of_neg]]
    have := mul_le_mul d1 d3 (abs_nonneg _) (mul_nonneg he0 hS)
    nlinarith

theorem normal_le {v μ σ : ℝ} (hσ : 0 < σ) (hμ : 0 < μ) : |normalLogProb v μ σ| ≤ spread v μ σ := by
  have d2 : |(v - μ) / σ| ≤ (|v| + μ) / σ := by
    rw [abs_div, abs_of_pos hσ]
    refine div_le_div_of_nonneg_right ((abs_sub _ _).trans ?_) hσ.le
    rw [abs_of_pos hμ]
  unfold normalLogProb spread
  show |-1 / 2 * ((v - μ) / σ) * ((v - μ) / σ)| ≤ _
  rw [mul_assoc, abs_mul, abs_mul, show |(-1 / 2 : ℝ)| = 1 / 2 by norm_num [abs_of_neg]]
  have h0 := abs_nonneg ((v - μ) / σ)
  generalize |(v - μ) / σ| = t at *
  have ht : t * t ≤ ((|v| + μ) / σ) ^ 2 := by
    rw [pow_two]
    exact mul_le_mul d2 d2 h0 (h0.trans d2)
  nlinarith [mul_self_nonneg t]

/-- What the theorems below ask of a data set and of the model values, apart from the counts: non-negative response, model values within the limits they are clipped to, area
scales and exposure that are not astronomical. -/
structure Folded (d : FitData) (unfold : List ℝ) (progs : ℕ → Prog) : Prop where
  way : ∀ j < d.size, Computes (progs j) (column d unfold j) ∧ (progs j).size ≤ 2 ^ 48
  response : ∀ j < d.size, ∀ r < d.matrix.length, 0 ≤ nth (d.matrix.getD r []) j
  model : ∀ r < d.matrix.length, 1e-300 ≤ nth unfold r ∧ nth unfold r ≤ 1e300
  area : ∀ j < d.size, 0 ≤ nth d.areaScale j ∧ nth d.areaScale j ≤ 2 ^ (60 : ℤ)
  exposure : 0 ≤ d.exposure ∧ d.exposure ≤ 2 ^ (60 : ℤ)
  rate : ∀ j < d.size, ((column d unfold j).map fun t => t.1 * t.2).sum ≤ 2 ^ (880 : ℤ)
  channels : d.size ≤ 2 ^ 48

theorem spread_bounds {v μ σ : ℝ} (hv : |v| ≤ 2 ^ (60 : ℤ)) (hm : 2 ^ (-200 : ℤ) ≤ μ) (hm2 : μ ≤ 2 ^ (60 : ℤ)) (hσ : 2 ^ (-60 : ℤ) ≤ σ) (hσ2 : σ ≤ 2 ^ (60 : ℤ)) :
    2 ^ (-900 : ℤ) ≤ spread v μ σ ∧ spread v μ σ ≤ 2 ^ (400 : ℤ) := by
  have hv0 := abs_nonneg v
  have hD1 : 2 ^ (-200 : ℤ) ≤ |v| + μ := hm.trans (by linarith)
  have hD2 : |v| + μ ≤ 2 ^ (61 : ℤ) := by
    refine (add_le_add hv hm2).trans (le_of_eq ?_)
    norm_num
  have hd := div_in ⟨hD1, hD2⟩ ⟨hσ, hσ2⟩
  have hm' := mul_in hd hd
  unfold spread
  rw [pow_two]
  exact ⟨(zpow_le (by norm_num)).trans hm'.1, hm'.2.trans (zpow_le (by norm_num))⟩

theorem chi_channel {rnd} (h : Nearest rnd) {d : FitData} {unfold : List ℝ} {progs : ℕ → Prog} (hs : Folded d unfold progs) {j : ℕ} (hj : j < d.size)
    (hv : |nth d.netCounts j| ≤ 2 ^ (60 : ℤ)) (hσ : 2 ^ (-60 : ℤ) ≤ nth d.netErrors j ∧ nth d.netErrors j ≤ 2 ^ (60 : ℤ)) :
    |normalF rnd (nth d.netCounts j) (counts rnd (progs j) (nth d.areaScale j) d.exposure) (nth d.netErrors j) -
        normalLogProb (nth d.netCounts j) (d.sourceCounts unfold j) (nth d.netErrors j)|
      ≤ ((progs j).size + 35) * 2 ^ (-51 : ℤ) * spread (nth d.netCounts j) (d.sourceCounts unfold j) (nth d.netErrors j) ∧
    normalF rnd (nth d.netCounts j) (counts rnd (progs j) (nth d.areaScale j) d.exposure) (nth d.netErrors j) ≤ 0 := by
  have hK := (hs.way j hj).2
  have hKr : ((progs j).size : ℝ) ≤ 2 ^ 48 := by exact_mod_cast hK
  have hc := C147_counts h d unfold j (progs j) (hs.way j hj).1 (hK.trans (by norm_num)) (hs.response j hj) hs.model (hs.area j hj) hs.exposure ((hs.rate j hj).trans (zpow_le (by norm_num)))
  obtain ⟨c1, c2⟩ := counts_bounds h (progs j) (nth d.areaScale j) d.exposure
  have hμ : 0 < d.sourceCounts unfold j := lt_of_lt_of_le (by norm_num) (exact_counts_bounds d unfold j).1
  have hε : (((progs j).size : ℝ) + 3) * 2 ^ (-52 : ℤ) ≤ 1 / 2 :=
    (mul_le_mul_of_nonneg_right (add_le_add hKr (le_refl _)) (two_zpow_pos _).le).trans (by norm_num)
  have hε0 : 0 ≤ (((progs j).size : ℝ) + 3) * 2 ^ (-52 : ℤ) := by positivity
  have hσ0 : 0 < nth d.netErrors j := (two_zpow_pos _).trans_le hσ.1
  obtain ⟨a1, a2⟩ := normal_error h hv c1 c2 hσ.1 hσ.2
  obtain ⟨b1, b2⟩ := normal_near (v := nth d.netCounts j) hσ0 hμ hε0 hε hc
  refine ⟨?_, a2⟩
  have hB : 0 ≤ spread (nth d.netCounts j) (d.sourceCounts unfold j) (nth d.netErrors j) := by unfold spread; positivity
  refine (abs_sub_le _ (normalLogProb (nth d.netCounts j) (counts rnd (progs j) (nth d.areaScale j) d.exposure) (nth d.netErrors j)) _).trans ((add_le_add a1 b2).trans ?_)
  refine (add_le_add (mul_le_mul_of_nonneg_left b1 (by positivity)) (le_refl _)).trans ?_
  rw [show (2 : ℝ) ^ (-52 : ℤ) = 1 / 2 * 2 ^ (-51 : ℤ) by norm_num]
  have hq : 0 ≤ (2 : ℝ) ^ (-51 : ℤ) * spread (nth d.netCounts j) (d.sourceCounts unfold j) (nth d.netErrors j) := mul_nonneg (two_zpow_pos _).le hB
  have hk0 : (0 : ℝ) ≤ (progs j).size := Nat.cast_nonneg _
  have hkq := mul_nonneg hk0 hq
  clear hv c1 c2 hσ hε hε0 hc a1 b2
  nlinarith

/-- **C152 (chi-square).** The chi-square statistic of a data set as computed in float64, from the product with the response to the sum over the channels, differs from the
exact one by at most `2 ^ -50` times the sum over the channels of `((|net counts| + expected counts) / uncertainty) ^ 2`, times the number of operations a channel goes through
(photon bins, channels, and 39 more), in whatever order the sums are taken. -/
theorem C152_chi2 {F : Impl} (h : F.Legal) {d : FitData} {unfold : List ℝ} {progs : ℕ → Prog} (hs : Folded d unfold progs)
    (hv : ∀ j < d.size, |nth d.netCounts j| ≤ 2 ^ (60 : ℤ)) (hσ : ∀ j < d.size, 2 ^ (-60 : ℤ) ≤ nth d.netErrors j ∧ nth d.netErrors j ≤ 2 ^ (60 : ℤ))
    {sites : Sites} (hsites : likelihood .chi2 d unfold = .ok sites) :
    |chiDevianceF F d progs - (deviance (getLoglike [sites])).total| ≤
      ((List.range d.size).map fun j : ℕ => ((progs j).size + d.size + 39) * 2 ^ (-50 : ℤ) * spread (nth d.netCounts j) (d.sourceCounts unfold j) (nth d.netErrors j)).sum := by
  have hex : (deviance (getLoglike [sites])).total = -2 * ((List.range d.size).map fun j : ℕ =>
      normalLogProb (nth d.netCounts j) (d.sourceCounts unfold j) (nth d.netErrors j)).sum := by
    simp only [likelihood, Except.ok.injEq] at hsites
    subst hsites
    simp only [deviance, getLoglike, List.map_cons, List.map_nil, List.flatten_cons, List.flatten_nil, List.append_nil]
    congr 2
    apply List.map_congr_left
    intro j hj
    have hj' := List.mem_range.1 hj
    simp [nth, hj']
  rw [hex]
  have hN : Nearest F.rnd := h.nearest
  have hm : ∀ j, 2 ^ (-200 : ℤ) ≤ d.sourceCounts unfold j ∧ d.sourceCounts unfold j ≤ 2 ^ (60 : ℤ) := fun j =>
    ⟨le_trans (by norm_num) (exact_counts_bounds d unfold j).1, (exact_counts_bounds d unfold j).2.trans (by norm_num)⟩
  refine statistic_error h (K := fun j => ((progs j).size : ℝ)) hs.channels (fun j hj => ⟨Nat.cast_nonneg _, ?_⟩) (fun j hj => (chi_channel hN hs hj (hv j hj) (hσ j hj)).1)
    (fun j hj => (chi_channel hN hs hj (hv j hj) (hσ j hj)).2) (fun j hj => spread_bounds (hv j hj) (hm j).1 (hm j).2 (hσ j hj).1 (hσ j hj).2)
    (fun j hj => normal_le ((two_zpow_pos _).trans_le (hσ j hj).1) ((two_zpow_pos _).trans_le (hm j).1))
  have : ((progs j).size : ℝ) ≤ 2 ^ 48 := by exact_mod_cast (hs.way j hj).2
  exact this.trans (by norm_num)

/-! ## The P-statistic -/

/-- The expected counts with a known background are computed with a relative error of at most `(K + 4) * 2 ^ -52`, `K` the number of operands of the sum over photon bins. -/
theorem C152_known {rnd} (h : Nearest rnd) (d : FitData) (unfold : List ℝ) (j : ℕ) (p : Prog) (hp : Computes p (column d unfold j)) (hK : p.size ≤ 2 ^ 50)
    (hm : ∀ r < d.matrix.length, 0 ≤ nth (d.matrix.getD r []) j) (hu : ∀ r < d.matrix.length, 1e-300 ≤ nth unfold r ∧ nth unfold r ≤ 1e300)
    (hA : 0 ≤ nth d.areaScale j ∧ nth d.areaScale j ≤ 2 ^ (60 : ℤ)) (hT : 0 ≤ d.exposure ∧ d.exposure ≤ 2 ^ (60 : ℤ))
    (hS : ((column d unfold j).map fun t => t.1 * t.2).sum ≤ 2 ^ (880 : ℤ)) {ratio back : ℝ} (hb0 : 0 ≤ ratio * back) (hb : ratio * back ≤ 2 ^ (120 : ℤ)) :
    |knownCounts rnd p (nth d.areaScale j) d.exposure ratio back - clip 1e-30 1e15 (d.sourceRate unfold j * d.exposure + ratio * back)| ≤
      ((p.size : ℝ) + 4) * 2 ^ (-52 : ℤ) * clip 1e-30 1e15 (d.sourceRate unfold j * d.exposure + ratio * back) := by
  have hpos : ∀ t ∈ column d unfold j, 0 ≤ t.1 ∧ 0 ≤ t.2 := by
    intro t ht
    obtain ⟨r, hr, rfl⟩ := List.mem_map.1 ht
    exact ⟨hm r (List.mem_range.1 hr), le_trans h300 (hu r (List.mem_range.1 hr)).1⟩
  have hex := computes_sum hp
  have hw := scale_error h (computes_nonneg hp hpos) hA.1 hA.2 hT.1 hT.2 (by rw [hex]; exact hS.trans (zpow_le (by norm_num))) hK
  have hup := unit_pos
  have he0 : 0 ≤ p.exact := List.sum_nonneg fun v hv => by
    obtain ⟨t, ht, rfl⟩ := List.mem_map.1 hv; exact mul_nonneg (computes_nonneg hp hpos t ht).1 (computes_nonneg hp hpos t ht).2
  have hs0 : 0 ≤ p.exact * nth d.areaScale j * d.exposure := mul_nonneg (mul_nonneg he0 hA.1) hT.1
  have hs1 : p.exact * nth d.areaScale j * d.exposure ≤ 2 ^ (1000 : ℤ) := by
    rw [show (1000 : ℤ) = 880 + 60 + 60 by norm_num, zpow_add₀ (by norm_num), zpow_add₀ (by norm_num)]
    exact mul_le_mul (mul_le_mul (by rw [hex]; exact hS) hA.2 hA.1 (two_zpow_pos _).le) hT.2 hT.1 (mul_nonneg (two_zpow_pos _).le (two_zpow_pos _).le)
  have hrate : p.exact * nth d.areaScale j * d.exposure = d.sourceRate unfold j * d.exposure := by
    congr 1
    rw [FitData.sourceRate, hex, column, List.map_map]
    congr 2
    refine List.map_congr_left fun r hr => ?_
    have := hu r (List.mem_range.1 hr)
    simp only [Function.comp, clip]
    rw [max_eq_left this.1, min_eq_left this.2]
  rw [hrate] at hw hs0 hs1
  have hgb : |rnd (ratio * back) - ratio * back| ≤ unit * (ratio * back) + tiny := h.err hb0 (hb.trans (zpow_le (by norm_num)))
  obtain ⟨-, gb0, gb1⟩ := h.upto hb0 hb (by norm_num) (by norm_num)
  have hK0 : (0 : ℝ) ≤ p.size := Nat.cast_nonneg _
  have hKr : (p.size : ℝ) ≤ 2 ^ 50 := by exact_mod_cast hK
  have hunit : (2 : ℝ) ^ (-52 : ℤ) = 2 * unit := by unfold Elisa.Grouping.Fl.unit; norm_num
  have hku : ((p.size : ℝ) + 4) * unit ≤ 1 / 6 := by
    refine (mul_le_mul_of_nonneg_right (add_le_add hKr (le_refl _)) hup.le).trans ?_
    unfold Elisa.Grouping.Fl.unit
    norm_num
  have hlo : |rnd 1e-30 - 1e-30| ≤ unit * 1e-30 + tiny := h.err (by norm_num) (le_trans (by norm_num : (1e-30 : ℝ) ≤ 2 ^ (0 : ℤ)) (zpow_le (by norm_num)))
  have h100 : (2 : ℝ) ^ (-100 : ℤ) ≤ 1e-30 := by norm_num
  have hδ : (2 : ℝ) ^ (-890 : ℤ) ≤ unit / 16 * 2 ^ (-100 : ℤ) := by
    unfold Elisa.Grouping.Fl.unit
    rw [show (2 : ℝ) ^ (-53 : ℤ) / 16 = 2 ^ (-57 : ℤ) by norm_num, ← zpow_add₀ (by norm_num)]; exact zpow_le (by norm_num)
  have hδ' : tiny ≤ unit / 16 * 2 ^ (-100 : ℤ) := le_trans (zpow_le (by norm_num)) hδ
  have hδ1 : unit / 16 * 2 ^ (-100 : ℤ) ≤ unit / 16 * 1e-30 := mul_le_mul_of_nonneg_left h100 (by linarith)
  have hδ2 := hδ.trans hδ1
  have hδ3 := hδ'.trans hδ1
  rw [knownCounts, clip]
  generalize rnd (rnd (p.value rnd * nth d.areaScale j) * d.exposure) = c at *
  generalize d.sourceRate unfold j * d.exposure = s at *
  generalize ratio * back = b at *
  generalize rnd b = g at *
  unfold Within at hw
  -- the sum of the two before it is rounded
  have hsum : |c + g - (s + b)| ≤ ((p.size : ℝ) + 2) * 2 ^ (-52 : ℤ) * (s + b) + (2 ^ (-890 : ℤ) + tiny) := by
    rw [add_sub_add_comm]
    refine (abs_add_le _ _).trans ((add_le_add hw hgb).trans ?_)
    rw [hunit]
    have : unit * b ≤ ((p.size : ℝ) + 2) * (2 * unit) * b := mul_le_mul_of_nonneg_right (by nlinarith) hb0
    clear hδ hδ' hδ1 hδ2 hδ3 h100 hlo hgb hw hs1 hb gb1
    generalize (2 : ℝ) ^ (-890 : ℤ) = P at *
    linarith
  have hbig : |c + g| ≤ 2 ^ (1023 : ℤ) := by
    have h1 : |c + g| ≤ 2 * (s + b) + (2 ^ (-890 : ℤ) + tiny) := by
      have hab := abs_add_le (c + g - (s + b)) (s + b)
      rw [sub_add_cancel, abs_of_nonneg (add_nonneg hs0 hb0)] at hab
      have := hab.trans (add_le_add hsum (le_refl _))
      have hk : ((p.size : ℝ) + 2) * 2 ^ (-52 : ℤ) ≤ 1 := by
        rw [hunit]
        clear hδ hδ' hδ1 hδ2 hδ3 h100 hlo hgb hw hs1 hb gb1 hsum this
        nlinarith
      have := mul_le_mul_of_nonneg_right hk (add_nonneg hs0 hb0)
      clear hδ hδ' hδ1 hδ2 hδ3 h100 hlo hgb hw hs1 hb gb1 hsum
      generalize (2 : ℝ) ^ (-890 : ℤ) = P at *
      linarith
    have h2 : (2 : ℝ) ^ (-890 : ℤ) + tiny ≤ 2 ^ (1000 : ℤ) + 2 ^ (1000 : ℤ) := add_le_add (zpow_le (by norm_num)) (zpow_le (by norm_num))
    have h3 : b ≤ 2 ^ (1000 : ℤ) := hb.trans (zpow_le (by norm_num))
    have h4 : (2 : ℝ) ^ (1023 : ℤ) = 2 ^ (23 : ℤ) * 2 ^ (1000 : ℤ) := by rw [← zpow_add₀ (by norm_num)]; norm_num
    refine h1.trans ((add_le_add (mul_le_mul_of_nonneg_left (add_le_add hs1 h3) (by norm_num)) h2).trans ?_)
    rw [h4]
    have := two_zpow_pos 1000
    clear hδ hδ' hδ1 hδ2 hδ3 h100 hlo hgb hw hs1 hb gb1 hsum h1 h2 h3 h4
    generalize (2 : ℝ) ^ (1000 : ℤ) = P at *
    norm_num
    linarith
  have hr := h.err' hbig
  generalize rnd (c + g) = q at *
  generalize rnd 1e-30 = lo at *
  clear hb hs1 gb1 hbig h100 hδ hδ' hδ1 hS hu
  have hP0 : (0 : ℝ) ≤ 2 ^ (-890 : ℤ) := (two_zpow_pos _).le
  generalize (2 : ℝ) ^ (-890 : ℤ) = P at *
  have hx0 : 0 ≤ s + b := add_nonneg hs0 hb0
  have hq : |q - (s + b)| ≤ ((p.size : ℝ) + 3) * 2 ^ (-52 : ℤ) * (s + b) + unit * 1e-30 := by
    have hcg : |c + g| ≤ 2 * (s + b) + (P + tiny) := by
      have hab := abs_add_le (c + g - (s + b)) (s + b)
      rw [sub_add_cancel, abs_of_nonneg hx0] at hab
      have := hab.trans (add_le_add hsum (le_refl _))
      have hk : ((p.size : ℝ) + 2) * 2 ^ (-52 : ℤ) ≤ 1 := by rw [hunit]; nlinarith
      have := mul_le_mul_of_nonneg_right hk hx0
      linarith
    have h1 := abs_sub_le q (c + g) (s + b)
    have h2 : unit * |c + g| ≤ 2 * unit * (s + b) + (P + tiny) := by
      have : unit * |c + g| ≤ unit * (2 * (s + b) + (P + tiny)) := mul_le_mul_of_nonneg_left hcg hup.le
      have hP : 0 ≤ P + tiny := add_nonneg hP0 tiny_pos.le
      have : unit * (P + tiny) ≤ 1 * (P + tiny) := mul_le_mul_of_nonneg_right (by nlinarith) hP
      linarith
    rw [hunit] at hsum ⊢
    linarith
  generalize s + b = x at *
  refine cut ?_ (by norm_num) ?_
  · have hM1 : x ≤ max x 1e-30 := le_max_left _ _
    have hM2 : (1e-30 : ℝ) ≤ max x 1e-30 := le_max_right _ _
    refine (abs_max_sub_max_le_max q lo x 1e-30).trans (max_le ?_ ?_)
    · have a1 : ((p.size : ℝ) + 3) * 2 ^ (-52 : ℤ) * x ≤ ((p.size : ℝ) + 3) * 2 ^ (-52 : ℤ) * max x 1e-30 := mul_le_mul_of_nonneg_left hM1 (by positivity)
      have a2 : unit * 1e-30 ≤ unit * max x 1e-30 := mul_le_mul_of_nonneg_left hM2 hup.le
      have a3 : 0 ≤ unit * max x 1e-30 := mul_nonneg hup.le (le_trans (by norm_num) hM2)
      rw [hunit] at a1 hq ⊢
      refine hq.trans ((add_le_add a1 a2).trans ?_)
      clear hq a1 a2 hδ2 hδ3 hlo hM2
      generalize max x 1e-30 = M at *
      linarith
    · have a2 : unit * 1e-30 ≤ unit * max x 1e-30 := mul_le_mul_of_nonneg_left hM2 hup.le
      have a3 : 0 ≤ (p.size : ℝ) * (2 * unit) * max x 1e-30 := mul_nonneg (by positivity) (le_trans (by norm_num) hM2)
      have a4 : 0 ≤ unit * max x 1e-30 := mul_nonneg hup.le (le_trans (by norm_num) hM2)
      rw [hunit]
      refine hlo.trans ((add_le_add a2 (hδ3.trans (by linarith : _ ≤ unit * max x 1e-30))).trans ?_)
      clear hq a2 hδ2 hδ3 hlo hM2
      generalize max x 1e-30 = M at *
      linarith
  · rw [hunit]
    linarith

/-- The expected counts of channel `j` with the known background `b`. -/
noncomputable def withKnown (d : FitData) (b : FitBack) (unfold : List ℝ) (j : ℕ) : ℝ :=
  min (max (d.sourceRate unfold j * d.exposure + nth b.ratio j * nth b.counts j) 1e-30) 1e15

theorem p_channel {rnd lg} (h : Nearest rnd) (hl : Accurate lg) (sparse : Bool) {d : FitData} {b : FitBack} {unfold : List ℝ} {progs : ℕ → Prog} (hs : Folded d unfold progs)
    {j : ℕ} (hj : j < d.size) (hb : 0 ≤ nth b.ratio j * nth b.counts j ∧ nth b.ratio j * nth b.counts j ≤ 2 ^ (120 : ℤ)) {v : ℝ} (hv : ∃ n : ℕ, v = n ∧ n ≤ 2 ^ 53) :
    |poissonF rnd lg sparse v (knownCounts rnd (progs j) (nth d.areaScale j) d.exposure (nth b.ratio j) (nth b.counts j)) - poissonLogProb v (withKnown d b unfold j)|
      ≤ ((progs j).size + 1 + 35) * 2 ^ (-51 : ℤ) * bulk v (withKnown d b unfold j) ∧
    poissonF rnd lg sparse v (knownCounts rnd (progs j) (nth d.areaScale j) d.exposure (nth b.ratio j) (nth b.counts j)) ≤ 0 ∧
    2 ^ (-200 : ℤ) ≤ bulk v (withKnown d b unfold j) ∧ bulk v (withKnown d b unfold j) ≤ 2 ^ (100 : ℤ) ∧
    |poissonLogProb v (withKnown d b unfold j)| ≤ bulk v (withKnown d b unfold j) := by
  obtain ⟨n, rfl, hn2⟩ := hv
  have hK := (hs.way j hj).2
  have hKr : ((progs j).size : ℝ) ≤ 2 ^ 48 := by exact_mod_cast hK
  have hc := C152_known h d unfold j (progs j) (hs.way j hj).1 (hK.trans (by norm_num)) (hs.response j hj) hs.model (hs.area j hj) hs.exposure (hs.rate j hj) hb.1 hb.2
  have hlo : (2 : ℝ) ^ (-200 : ℤ) ≤ rnd 1e-30 :=
    (h.mem (x := 1e-30) (p := -200) (q := 0) (by norm_num) (by norm_num) (by norm_num) (by norm_num)).2.1
  have c1 : (2 : ℝ) ^ (-200 : ℤ) ≤ knownCounts rnd (progs j) (nth d.areaScale j) d.exposure (nth b.ratio j) (nth b.counts j) :=
    le_min (hlo.trans (le_max_right _ _)) (by norm_num)
  have c2 : knownCounts rnd (progs j) (nth d.areaScale j) d.exposure (nth b.ratio j) (nth b.counts j) ≤ (2 : ℝ) ^ (60 : ℤ) := (min_le_right _ _).trans (by norm_num)
  have m1 : 1e-30 ≤ withKnown d b unfold j := le_min (le_max_right _ _) (by norm_num)
  have m2 : withKnown d b unfold j ≤ 1e15 := min_le_right _ _
  rw [show clip 1e-30 1e15 (d.sourceRate unfold j * d.exposure + nth b.ratio j * nth b.counts j) = withKnown d b unfold j from rfl] at hc
  have hμ : 0 < withKnown d b unfold j := lt_of_lt_of_le (by norm_num) m1
  have g1 : (2 : ℝ) ^ (-200 : ℤ) ≤ withKnown d b unfold j := le_trans (by norm_num) m1
  have g2 : withKnown d b unfold j ≤ (2 : ℝ) ^ (60 : ℤ) := m2.trans (by norm_num)
  have hε : (((progs j).size : ℝ) + 4) * 2 ^ (-52 : ℤ) ≤ 1 / 2 :=
    (mul_le_mul_of_nonneg_right (add_le_add hKr (le_refl _)) (two_zpow_pos _).le).trans (by norm_num)
  have hch := C149_channel h hl sparse n hn2 c1 c2
  have hbn := bulk_near (n := n) hμ hε hc
  have he := exact_near (n := n) hμ hε hc
  have hbb := bulk_bounds hn2 g1 g2
  refine ⟨?_, hch.2, hbb.1, hbb.2, exact_le hμ⟩
  refine (abs_sub_le _ (poissonLogProb n (knownCounts rnd (progs j) (nth d.areaScale j) d.exposure (nth b.ratio j) (nth b.counts j))) _).trans ((add_le_add hch.1 he).trans ?_)
  refine (add_le_add (mul_le_mul_of_nonneg_left hbn (two_zpow_pos _).le) (le_refl _)).trans (le_of_eq ?_)
  rw [show (2 : ℝ) ^ (-47 : ℤ) = 16 * 2 ^ (-51 : ℤ) by norm_num, show (2 : ℝ) ^ (-52 : ℤ) = 1 / 2 * 2 ^ (-51 : ℤ) by norm_num]
  ring

/-- **C152 (P-statistic).** The P-statistic of a data set with a known background as computed in float64, from the product with the response to the sum over the channels,
differs from the exact one by at most `2 ^ -50` times the sum over the channels of the size of their terms, times the number of operations a channel goes through
(photon bins, channels, and 40 more), in whatever order the sums are taken. -/
theorem C152_pstat {F : Impl} (h : F.Legal) {lg : ℝ → ℝ} (hl : Accurate lg) (sparse : Bool) {d : FitData} {b : FitBack} {unfold : List ℝ} {progs : ℕ → Prog}
    (hs : Folded d unfold progs) (hback : d.back = some b) (hb : ∀ j < d.size, 0 ≤ nth b.ratio j * nth b.counts j ∧ nth b.ratio j * nth b.counts j ≤ 2 ^ (120 : ℤ))
    (hn : ∀ j < d.size, ∃ n : ℕ, nth d.specCounts j = n ∧ n ≤ 2 ^ 53) {sites : Sites} (hsites : likelihood .pstat d unfold = .ok sites) :
    |pDevianceF F lg sparse d b progs - (deviance (getLoglike [sites])).total| ≤
      ((List.range d.size).map fun j : ℕ => ((progs j).size + 1 + d.size + 39) * 2 ^ (-50 : ℤ) * bulk (nth d.specCounts j) (withKnown d b unfold j)).sum := by
  have hex : (deviance (getLoglike [sites])).total = -2 * ((List.range d.size).map fun j : ℕ => poissonLogProb (nth d.specCounts j) (withKnown d b unfold j)).sum := by
    simp only [likelihood, hback, Except.ok.injEq] at hsites
    subst hsites
    simp only [deviance, getLoglike, List.map_cons, List.map_nil, List.flatten_cons, List.flatten_nil, List.append_nil]
    congr 2
    apply List.map_congr_left
    intro j hj
    have hj' := List.mem_range.1 hj
    simp [nth, hj', withKnown, clip]
  rw [hex]
  have hN : Nearest F.rnd := h.nearest
  have hmain := fun j (hj : j < d.size) => p_channel hN hl sparse hs hj (hb j hj) (hn j hj)
  refine statistic_error h (K := fun j => ((progs j).size : ℝ) + 1) hs.channels (fun j hj => ⟨by positivity, ?_⟩) (fun j hj => (hmain j hj).1)
    (fun j hj => (hmain j hj).2.1) (fun j hj => ⟨(zpow_le (by norm_num)).trans (hmain j hj).2.2.1, (hmain j hj).2.2.2.1.trans (zpow_le (by norm_num))⟩)
    (fun j hj => (hmain j hj).2.2.2.2)
  have : ((progs j).size : ℝ) ≤ 2 ^ 48 := by exact_mod_cast (hs.way j hj).2
  exact (add_le_add this (le_refl _)).trans (by norm_num)

/-! ## Concrete cases -/

theorem exFolded : Folded exFold [4, 5] fun _ => .add (.prod false (1 / 2) 4) (.prod true 0 5) := by
  have hj : ∀ j < exFold.size, j = 0 := by simp only [exFold, FitData.size, List.length_cons, List.length_nil]; omega
  refine ⟨?_, ?_, exFold_ok.2.1, ?_, exFold_ok.2.2.2.1, ?_, by simp [exFold, FitData.size]⟩
  · intro j h; obtain rfl := hj j h; exact ⟨exFold_dense, by norm_num [Prog.size]⟩
  · intro j h; obtain rfl := hj j h; exact exFold_ok.1
  · intro j h; obtain rfl := hj j h; exact exFold_ok.2.2.1
  · intro j h; obtain rfl := hj j h
    refine le_trans (?_ : _ ≤ (2 : ℝ) ^ (1 : ℤ)) (zpow_le (by norm_num))
    norm_num [column, exFold, nth, List.range_succ]

/-- A background of eight counts, scaled by one quarter. -/
noncomputable def exBack : FitBack := ⟨[8], [3], [1 / 4]⟩

theorem exFolded' : Folded { exFold with back := some exBack } [4, 5] fun _ => .add (.prod false (1 / 2) 4) (.prod true 0 5) :=
  ⟨exFolded.way, exFolded.response, exFolded.model, exFolded.area, exFolded.exposure, exFolded.rate, exFolded.channels⟩

theorem exOne : ∀ j < exFold.size, j = 0 := by simp only [exFold, FitData.size, List.length_cons, List.length_nil]; omega

example := C152_chi2 leftImpl_legal exFolded (fun j hj => by obtain rfl := exOne j hj; norm_num [exFold, nth]) (fun j hj => by obtain rfl := exOne j hj; norm_num [exFold, nth]) rfl
example := C152_known leftNearest exFold [4, 5] 0 _ exFold_dense (by norm_num [Prog.size]) exFold_ok.1 exFold_ok.2.1 exFold_ok.2.2.1 exFold_ok.2.2.2.1
  (exFolded.rate 0 (by simp [exFold, FitData.size])) (ratio := 1 / 4) (back := 8) (by norm_num) (by norm_num)
example := C152_pstat (b := exBack) leftImpl_legal exLog_ok true exFolded' rfl (fun j hj => by obtain rfl := exOne j hj; norm_num [exBack, nth])
  (fun j hj => by obtain rfl := exOne j hj; exact ⟨3, by simp [exFold, nth], by norm_num⟩) rfl

end Elisa.Infer.Fl
