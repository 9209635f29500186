import Verif.Grouping.FloatOptSignifProps
import Verif.Grouping.FloatScaleProps
import Verif.Grouping.FloatGvErrorProps

/-!
# Grouping by Li-Ma significance with the ratios as the code computes them

`group_sig_lima` and `group_optsig_lima` in float64, with the ratio of every interval of channels from `_interval_back_ratio` in float64.  C151 and C159 take the exact ratio, which has to be a
double; here it does not.
-/

namespace Elisa.Grouping.Fl

open Elisa Elisa.Grouping Elisa.Infer.Fl

theorem terms_one {n m a : ℝ} (hn : 0 ≤ n) (hm : 0 ≤ m) (ha : 0 < a) (h0 : 0 < n + m) :
    limaTerms n m a = n * (Real.log (1 + a) - Real.log a) + m * Real.log (1 + a) + limaTerms n m 1 - (n + m) * Real.log 2 := by
  have e1 : ∀ a : ℝ, 0 < a → (if 0 < n then xlogy n ((1 + a) / a * n / (n + m)) else 0) = n * (Real.log (1 + a) - Real.log a) + n * (Real.log n - Real.log (n + m)) := by
    intro a ha
    split
    · next hc =>
      rw [xlogy, if_neg hc.ne', Real.log_div (by positivity) h0.ne', Real.log_mul (by positivity) hc.ne', Real.log_div (by positivity) ha.ne']
      ring
    · next hc =>
      have : n = 0 := by linarith
      simp [this]
  have e2 : ∀ a : ℝ, 0 < a → (if 0 < m then xlogy m ((1 + a) * m / (n + m)) else 0) = m * Real.log (1 + a) + m * (Real.log m - Real.log (n + m)) := by
    intro a ha
    split
    · next hc =>
      rw [xlogy, if_neg hc.ne', Real.log_div (by positivity) h0.ne', Real.log_mul (by positivity) hc.ne']
      ring
    · next hc =>
      have : m = 0 := by linarith
      simp [this]
  unfold limaTerms
  rw [e1 a ha, e2 a ha, e1 1 one_pos, e2 1 one_pos, Real.log_one, show (1 : ℝ) + 1 = 2 by norm_num]
  ring

/-- Half the squared significance changes by at most the number of counts times the relative change of the ratio. -/
theorem terms_ratio {n m a a' η : ℝ} (hn : 0 ≤ n) (hm : 0 ≤ m) (ha : 0 < a) (h1 : a ≤ a') (h2 : a' ≤ (1 + η) * a) :
    |limaTerms n m a' - limaTerms n m a| ≤ (n + m) * η := by
  have ha' : 0 < a' := ha.trans_le h1
  have hη : 0 ≤ η := by nlinarith
  rcases eq_or_lt_of_le (add_nonneg hn hm) with h0 | h0
  · obtain ⟨rfl, rfl⟩ : n = 0 ∧ m = 0 := ⟨by linarith, by linarith⟩
    simp [limaTerms]
  rw [terms_one hn hm ha' h0, terms_one hn hm ha h0]
  have d0 : Real.log (1 + a) ≤ Real.log (1 + a') := Real.log_le_log (by positivity) (by linarith)
  have d1 : Real.log (1 + a') - Real.log (1 + a) ≤ Real.log a' - Real.log a := by
    rw [← Real.log_div (by positivity) (by positivity), ← Real.log_div ha'.ne' ha.ne']
    refine Real.log_le_log (by positivity) ?_
    rw [div_le_div_iff₀ (by positivity) ha]
    nlinarith
  have d2 : Real.log a' - Real.log a ≤ η := by
    rw [← Real.log_div ha'.ne' ha.ne']
    refine (Real.log_le_sub_one_of_pos (by positivity)).trans ?_
    rw [sub_le_iff_le_add, div_le_iff₀ ha]
    linarith
  generalize Real.log (1 + a) = A at *
  generalize Real.log (1 + a') = A' at *
  generalize Real.log a = B at *
  generalize Real.log a' = B' at *
  rw [_root_.abs_le]
  constructor <;> nlinarith [mul_nonneg hn (sub_nonneg.2 d0), mul_nonneg hm (sub_nonneg.2 d0), mul_nonneg hn (sub_nonneg.2 d1), mul_nonneg hm (sub_nonneg.2 d1), mul_nonneg hn (sub_nonneg.2 d2), mul_nonneg hm (sub_nonneg.2 d2)]

/-- Two ratios that differ by at most `η` of either. -/
theorem square_ratio {n m a a' η : ℝ} (hn : 0 ≤ n) (hm : 0 ≤ m) (ha : 0 < a) (ha' : 0 < a') (h1 : a ≤ (1 + η) * a') (h2 : a' ≤ (1 + η) * a) :
    |significanceLima n m a' ^ 2 - significanceLima n m a ^ 2| ≤ 2 * ((n + m) * η) := by
  rw [(C10_lima n m a hn hm ha).2.1, (C10_lima n m a' hn hm ha').2.1, ← mul_sub, abs_mul, abs_of_pos (by norm_num : (0 : ℝ) < 2)]
  refine mul_le_mul_of_nonneg_left ?_ (by norm_num)
  rcases le_total a a' with hc | hc
  · exact terms_ratio hn hm ha hc h2
  · rw [abs_sub_comm]; exact terms_ratio hn hm ha' hc h1

/-- A significance of at least one changes by at most a millionth. -/
theorem lima_ratio {n m a a' : ℝ} (hn : 0 ≤ n) (hm : 0 ≤ m) (ha : 0 < a) (ha' : 0 < a') (h1 : a ≤ (1 + 1 / 10 ^ 13) * a') (h2 : a' ≤ (1 + 1 / 10 ^ 13) * a)
    (hnm : n + m ≤ 10 ^ 6) (hS : 1 ≤ significanceLima n m a) : |significanceLima n m a' - significanceLima n m a| ≤ 1 / 10 ^ 6 := by
  have sq := square_ratio hn hm ha ha' h1 h2
  have hz : 2 * ((n + m) * (1 / 10 ^ 13)) ≤ 1 / 10 ^ 6 := by linarith
  obtain ⟨c1, c2, c3, c4, c5⟩ := C10_lima n m a hn hm ha
  obtain ⟨k1, k2, k3, k4, k5⟩ := C10_lima n m a' hn hm ha'
  have hex := c4.1 (by linarith)
  have h0 : 0 < n + m := by
    have := mul_nonneg ha.le hm
    linarith
  have pos : 0 ≤ significanceLima n m a' := by
    by_contra hc
    push Not at hc
    have hlt := k5.1 hc
    have le := limaTerms_le hn hm ha h0
    have g0 : n - a * m ≤ 1 / 10 ^ 13 * (a * m) := by
      have := mul_le_mul_of_nonneg_right h2 hm
      linarith
    have g1 : (n - a * m) ^ 2 ≤ (1 / 10 ^ 13 * (a * m)) ^ 2 := pow_le_pow_left₀ (by linarith) g0 2
    have g2 : (n - a * m) ^ 2 / (a * (n + m)) ≤ 1 / 10 ^ 13 := by
      rw [div_le_iff₀ (by positivity)]
      refine g1.trans ?_
      have am : a * m ≤ 10 ^ 6 := by linarith
      have am0 : 0 ≤ a * m := by positivity
      have : (1 / 10 ^ 13 * (a * m)) ^ 2 = 1 / 10 ^ 13 * (1 / 10 ^ 13 * (a * m)) * (a * m) := by ring
      rw [this, mul_assoc, mul_assoc]
      refine mul_le_mul_of_nonneg_left ?_ (by norm_num)
      have : 1 / 10 ^ 13 * ((a * m) * (a * m)) ≤ 1 * (a * m) := by
        rw [← mul_assoc]
        exact mul_le_mul_of_nonneg_right (by linarith) am0
      have : a * m ≤ a * (n + m) := mul_le_mul_of_nonneg_left (by linarith) ha.le
      linarith
    have : (1 : ℝ) ≤ significanceLima n m a ^ 2 := by nlinarith
    rw [c2] at this
    have := le.trans g2
    norm_num at this
    linarith
  rw [sq_sub_sq, abs_mul] at sq
  have : 1 ≤ |significanceLima n m a' + significanceLima n m a| := by rw [abs_of_nonneg (by linarith)]; linarith
  nlinarith [abs_nonneg (significanceLima n m a' - significanceLima n m a)]

/-- So the decision is the same for a significance that is not within two millionths of the threshold. -/
theorem lima_decides {n m a a' sig : ℝ} (hn : 0 ≤ n) (hm : 0 ≤ m) (ha : 0 < a) (ha' : 0 < a') (h1 : a ≤ (1 + 1 / 10 ^ 13) * a') (h2 : a' ≤ (1 + 1 / 10 ^ 13) * a)
    (hnm : n + m ≤ 10 ^ 6) (hsig : 1001 / 1000 ≤ sig) (hS : 2 / 10 ^ 6 < |significanceLima n m a - sig|) :
    1 / 10 ^ 6 < |significanceLima n m a' - sig| ∧ (sig ≤ significanceLima n m a' ↔ sig ≤ significanceLima n m a) := by
  have f := lima_ratio hn hm ha ha' h1 h2 hnm
  have g := lima_ratio hn hm ha' ha h2 h1 hnm
  generalize significanceLima n m a = S at *
  generalize significanceLima n m a' = S' at *
  rcases le_total 0 (S - sig) with hc | hc
  · rw [abs_of_nonneg hc] at hS
    obtain ⟨f1, f2⟩ := _root_.abs_le.1 (f (by linarith))
    refine ⟨?_, ?_⟩
    · rw [abs_of_nonneg (by linarith)]; linarith
    · exact ⟨fun _ => by linarith, fun _ => by linarith⟩
  · rw [abs_of_nonpos hc] at hS
    have : S' + 1 / 10 ^ 6 < sig := by
      by_contra hd
      push Not at hd
      obtain ⟨g1, g2⟩ := _root_.abs_le.1 (g (by norm_num at hd ⊢; linarith))
      linarith
    refine ⟨?_, ?_⟩
    · rw [abs_of_nonpos (by norm_num at this ⊢; linarith)]; linarith
    · exact ⟨fun _ => by norm_num at this ⊢; linarith, fun _ => by linarith⟩


/-! ## The groupings -/

/-- The optimal grouping follows from its decisions. -/
theorem optsig_lima_of {rnd lg : ℝ → ℝ} (bint on off : List ℕ) (d : RatioData) (r' : ℕ → ℕ → ℝ) (sig : ℝ) (hb : ∀ x ∈ bint, 1 ≤ x) (hsig : 1001 / 1000 ≤ sig)
    (keyR : ∀ a b, a < b → b ≤ on.length → reaches sig (limaF rnd lg (total on a b : ℕ) (total off a b : ℕ) (r' a b)) =
      decide (sig ≤ significanceLima (total on a b : ℕ) (total off a b : ℕ) (d.ratio a b))) :
    groupOptsigLimaF rnd lg bint (on.map fun k : ℕ => (k : ℝ)) (off.map fun k : ℕ => (k : ℝ)) r' sig =
      groupOptsigLima bint (on.map fun k : ℕ => (k : ℝ)) (off.map fun k : ℕ => (k : ℝ)) d sig := by
  unfold groupOptsigLimaF groupOptsigLima
  by_cases hlen : bint.length = (on.map fun k : ℕ => (k : ℝ)).length ∧ (on.map fun k : ℕ => (k : ℝ)).length = (off.map fun k : ℕ => (k : ℝ)).length
  swap
  · rw [if_pos hlen, if_pos hlen]
  rw [if_neg (not_not.2 hlen), if_neg (not_not.2 hlen)]
  have hsig0 : ¬ sig ≤ 0 := by linarith
  rw [if_neg hsig0, if_neg hsig0]
  dsimp only
  have hl1 : bint.length = on.length := by simpa using hlen.1
  have hl2 : on.length = off.length := by simpa using hlen.2
  rcases Nat.eq_zero_or_pos bint.length with h0 | hpos
  · have e1 : on = [] := List.length_eq_zero_iff.1 (by omega)
    have e2 : off = [] := List.length_eq_zero_iff.1 (by omega)
    subst e1 e2
    rw [h0]
    rfl
  have hloop := optSig_same (ok := fun a b : ℕ => reaches sig (limaF rnd lg (intervalSum (prefixSum (on.map fun k : ℕ => (k : ℝ))) a b)
      (intervalSum (prefixSum (off.map fun k : ℕ => (k : ℝ))) a b) (r' a b)))
      (ok' := limaOk (on.map fun k : ℕ => (k : ℝ)) (off.map fun k : ℕ => (k : ℝ)) d sig) hb hpos (fun a b hab hb => by
    rw [limaOk, intervalSum_prefix _ hab.le (by rw [List.length_map]; omega), intervalSum_prefix _ hab.le (by rw [List.length_map]; omega), total_cast, total_cast]
    exact keyR a b hab (by omega))
  rw [hloop]
  have hdesc := optSig_desc (ok := limaOk (on.map fun k : ℕ => (k : ℝ)) (off.map fun k : ℕ => (k : ℝ)) d sig) hb hpos
  generalize optLoop (fun i j => sigExtend (limaOk (on.map fun k : ℕ => (k : ℝ)) (off.map fun k : ℕ => (k : ℝ)) d sig) (bint.length - j) i j) bint bint.length bint.length 0 [] = r at *
  rw [hl1] at hdesc ⊢
  have hp : r.reverse.Pairwise (· < ·) := by rw [List.pairwise_reverse]; exact hdesc.pw
  congr 2
  rw [Bool.eq_iff_iff, limaSuccess_iff (by simpa using hl2) (by simpa using hdesc), List.length_map]
  rw [reduceat_eq _ _ hp, reduceat_eq _ _ hp, List.length_map, List.length_map, ← hl2, List.zip_map', List.zip_map', List.all_map, List.all_eq_true]
  simp only [mem_edges_reverse, Function.comp, total_cast]
  refine forall_congr' fun e => forall_congr' fun he => ?_
  obtain ⟨h1, h2⟩ := mem_revEdges_lt hdesc.pw hdesc.lt he
  rw [keyR _ _ h1 h2, decide_eq_true_eq]


/-- The greedy grouping follows from its decisions. -/
theorem sig_lima_of {rnd lg : ℝ → ℝ} (on off : List ℕ) (d : RatioData) (r' : ℕ → ℕ → ℝ) (sig : ℝ) (hsig : 1001 / 1000 ≤ sig)
    (keyR : ∀ a b, a < b → b ≤ on.length → reaches sig (limaF rnd lg (total on a b : ℕ) (total off a b : ℕ) (r' a b)) =
      decide (sig ≤ significanceLima (total on a b : ℕ) (total off a b : ℕ) (d.ratio a b)))
    (keyF : ∀ a < on.length, falls sig (limaF rnd lg (total on a on.length : ℕ) (total off a on.length : ℕ) (r' a on.length)) =
      !decide (sig ≤ significanceLima (total on a on.length : ℕ) (total off a on.length : ℕ) (d.ratio a on.length))) :
    groupSigLimaF rnd lg (on.map fun k : ℕ => (k : ℝ)) (off.map fun k : ℕ => (k : ℝ)) r' sig =
      groupSigLima (on.map fun k : ℕ => (k : ℝ)) (off.map fun k : ℕ => (k : ℝ)) d sig := by
  unfold groupSigLimaF groupSigLima
  by_cases hlen : on.length = off.length
  swap
  · have hx : (on.map fun k : ℕ => (k : ℝ)).length ≠ (off.map fun k : ℕ => (k : ℝ)).length := by simpa using hlen
    rw [if_pos hx, if_pos hx]
  have hx : ¬ (on.map fun k : ℕ => (k : ℝ)).length ≠ (off.map fun k : ℕ => (k : ℝ)).length := by simpa using hlen
  have hsig0 : ¬ sig ≤ 0 := by linarith
  rw [if_neg hx, if_neg hx, if_neg hsig0, if_neg hsig0]
  by_cases hne : on = []
  · subst hne; rfl
  have hy : ¬ (on.map fun k : ℕ => (k : ℝ)) = [] := by simpa using hne
  rw [if_neg hy, if_neg hy]
  dsimp only
  rw [List.length_map]
  have hpos : 0 < on.length := List.length_pos_of_ne_nil hne
  have hloop : greedyLoopF (fun a b : ℕ => limaF rnd lg (intervalSum (prefixSum (on.map fun k : ℕ => (k : ℝ))) a b)
      (intervalSum (prefixSum (off.map fun k : ℕ => (k : ℝ))) a b) (r' a b)) sig on.length 0 0 [0] =
      greedyLoop (limaOk (on.map fun k : ℕ => (k : ℝ)) (off.map fun k : ℕ => (k : ℝ)) d sig) on.length 0 0 [0] := by
    refine greedy_same (nd := on.length) (fun a b hab hb => ?_) (fun a hab => ?_) _ _ _ _ (le_refl _) (by omega)
    · rw [limaOk, intervalSum_prefix _ hab.le (by rwa [List.length_map]), intervalSum_prefix _ hab.le (by rw [List.length_map]; omega), total_cast, total_cast]
      exact keyR a b hab hb
    · rw [limaOk, intervalSum_prefix _ hab.le (by rw [List.length_map]), intervalSum_prefix _ hab.le (by rw [List.length_map]; omega), total_cast, total_cast]
      exact keyF a hab
  rw [hloop]
  have hdesc := (greedy_out (limaOk (on.map fun k : ℕ => (k : ℝ)) (off.map fun k : ℕ => (k : ℝ)) d sig) hpos).desc
  generalize greedyLoop (limaOk (on.map fun k : ℕ => (k : ℝ)) (off.map fun k : ℕ => (k : ℝ)) d sig) on.length 0 0 [0] = r at *
  have hp : r.reverse.Pairwise (· < ·) := by rw [List.pairwise_reverse]; exact hdesc.pw
  congr 2
  rw [Bool.eq_iff_iff, limaSuccess_iff (by simpa using hlen) (by simpa using hdesc), List.length_map]
  rw [reduceat_eq _ _ hp, reduceat_eq _ _ hp, List.length_map, List.length_map, ← hlen, List.zip_map', List.zip_map', List.all_map, List.all_eq_true]
  simp only [mem_edges_reverse, Function.comp, total_cast]
  refine forall_congr' fun e => forall_congr' fun he => ?_
  obtain ⟨h1, h2⟩ := mem_revEdges_lt hdesc.pw hdesc.lt he
  rw [keyR _ _ h1 h2, decide_eq_true_eq]



/-- The decision with the computed ratio. -/
theorem lima_reaches_near {rnd lg} (h : Nearest rnd) (hl : Accurate lg) {n m : ℕ} {a a' sig : ℝ} (hnm : n + m ≤ 10 ^ 6) (ha : 0 < a) (ha' : In (-30) 30 a')
    (hd : |a' - a| ≤ 1 / (2 * 10 ^ 13) * a) (hsig : 1001 / 1000 ≤ sig) (hS : 2 / 10 ^ 6 < |significanceLima n m a - sig|) :
    reaches sig (limaF rnd lg n m a') = decide (sig ≤ significanceLima n m a) := by
  obtain ⟨e1, e2⟩ := _root_.abs_le.1 hd
  obtain ⟨f1, f2⟩ := lima_decides (n := n) (m := m) (a := a) (a' := a') (Nat.cast_nonneg n) (Nat.cast_nonneg m) ha ha'.pos (by linarith) (by linarith) (by exact_mod_cast hnm) hsig hS
  rw [lima_reaches h hl hnm ha' hsig f1]
  simp only [f2]

theorem lima_falls_near {rnd lg} (h : Nearest rnd) (hl : Accurate lg) {n m : ℕ} {a a' sig : ℝ} (hnm : n + m ≤ 10 ^ 6) (ha : 0 < a) (ha' : In (-30) 30 a')
    (hd : |a' - a| ≤ 1 / (2 * 10 ^ 13) * a) (hsig : 1001 / 1000 ≤ sig) (hS : 2 / 10 ^ 6 < |significanceLima n m a - sig|) (hE : 2 / 10 ^ 3 ≤ |significanceLima n m a|) :
    falls sig (limaF rnd lg n m a') = !decide (sig ≤ significanceLima n m a) := by
  have hR := lima_reaches_near h hl hnm ha ha' hd hsig hS
  obtain ⟨e1, e2⟩ := _root_.abs_le.1 hd
  have hN : (n : ℝ) + m ≤ 10 ^ 6 := by exact_mod_cast hnm
  have sq := square_ratio (n := n) (m := m) (η := 1 / 10 ^ 13) (Nat.cast_nonneg n) (Nat.cast_nonneg m) ha ha'.pos (by linarith) (by linarith)
  have hz : 2 * (((n : ℝ) + m) * (1 / 10 ^ 13)) ≤ 1 / 10 ^ 6 := by linarith
  have hq : (2 / 10 ^ 3) ^ 2 ≤ significanceLima n m a ^ 2 := by rw [← sq_abs (significanceLima _ _ _)]; exact pow_le_pow_left₀ (by norm_num) hE 2
  have h0 : 0 < n + m := by
    rcases Nat.eq_zero_or_pos (n + m) with hz | hz
    · obtain ⟨rfl, rfl⟩ : n = 0 ∧ m = 0 := by omega
      simp [significanceLima, limaTerms] at hE
      exact absurd hE (by norm_num)
    · exact hz
  have big : (2 : ℝ) ^ (-40 : ℤ) * ((n : ℝ) + m) ≤ significanceLima n m a' ^ 2 := by
    refine (mul_le_mul_of_nonneg_left hN (two_zpow_pos _).le).trans ?_
    have := (_root_.abs_le.1 (sq.trans hz)).1
    refine le_trans ?_ (show (2 / 10 ^ 3) ^ 2 - 1 / 10 ^ 6 ≤ significanceLima n m a' ^ 2 by linarith)
    norm_num
  obtain ⟨s, e, -⟩ := C151_error_partial h hl h0 (hnm.trans (by norm_num)) ha' big
  rw [e] at hR ⊢
  simp only [falls, reaches] at hR ⊢
  rw [← hR]
  simp only [← not_le, decide_not]

/-- **C159 (Li-Ma, computed ratio), partial.** The same with the ratio of every interval as the code computes it, if that has a relative error of at most `5e-14` (C157 says when):
if the wanted significance is above one and no interval of channels has a significance within two millionths of it, the optimal grouping is the exact one.
What is missing: intervals within two millionths of the threshold. -/
theorem C159_lima_computed_partial {rnd lg} (h : Nearest rnd) (hl : Accurate lg) (bint on off : List ℕ) (d : RatioData) (r' : ℕ → ℕ → ℝ) (sig : ℝ) (hb : ∀ x ∈ bint, 1 ≤ x)
    (hsum : on.sum + off.sum ≤ 10 ^ 6) (hr : ∀ a b, a < b → b ≤ on.length → 0 < d.ratio a b ∧ In (-30) 30 (r' a b) ∧ |r' a b - d.ratio a b| ≤ 1 / (2 * 10 ^ 13) * d.ratio a b)
    (hsig : 1001 / 1000 ≤ sig)
    (hS : ∀ a b, a < b → b ≤ on.length → 2 / 10 ^ 6 < |significanceLima (total on a b : ℕ) (total off a b : ℕ) (d.ratio a b) - sig|) :
    groupOptsigLimaF rnd lg bint (on.map fun k : ℕ => (k : ℝ)) (off.map fun k : ℕ => (k : ℝ)) r' sig =
      groupOptsigLima bint (on.map fun k : ℕ => (k : ℝ)) (off.map fun k : ℕ => (k : ℝ)) d sig := by
  by_cases hlen : on.length = off.length
  · refine optsig_lima_of bint on off d r' sig hb hsig fun a b hab hb => ?_
    obtain ⟨g1, g2, g3⟩ := hr a b hab hb
    have t1 := total_le_sum on (a := a) hb
    have t2 := total_le_sum off (a := a) (hlen ▸ hb)
    exact lima_reaches_near h hl (by omega) g1 g2 g3 hsig (hS a b hab hb)
  · unfold groupOptsigLimaF groupOptsigLima
    have : ¬ (bint.length = (on.map fun k : ℕ => (k : ℝ)).length ∧ (on.map fun k : ℕ => (k : ℝ)).length = (off.map fun k : ℕ => (k : ℝ)).length) := by
      rintro ⟨-, hc⟩
      simp at hc
      exact hlen hc
    rw [if_pos this, if_pos this]

/-- **C151 (grouping, computed ratio).** The same for the grouping of C151: no interval within two millionths of the threshold, and none that ends at the last channel with a
significance below two thousandths in size. -/
theorem C151_grouping_computed {rnd lg} (h : Nearest rnd) (hl : Accurate lg) (on off : List ℕ) (d : RatioData) (r' : ℕ → ℕ → ℝ) (sig : ℝ) (hsum : on.sum + off.sum ≤ 10 ^ 6)
    (hr : ∀ a b, a < b → b ≤ on.length → 0 < d.ratio a b ∧ In (-30) 30 (r' a b) ∧ |r' a b - d.ratio a b| ≤ 1 / (2 * 10 ^ 13) * d.ratio a b)
    (hsig : 1001 / 1000 ≤ sig)
    (hS : ∀ a b, a < b → b ≤ on.length → 2 / 10 ^ 6 < |significanceLima (total on a b : ℕ) (total off a b : ℕ) (d.ratio a b) - sig|)
    (hE : ∀ a < on.length, 2 / 10 ^ 3 ≤ |significanceLima (total on a on.length : ℕ) (total off a on.length : ℕ) (d.ratio a on.length)|) :
    groupSigLimaF rnd lg (on.map fun k : ℕ => (k : ℝ)) (off.map fun k : ℕ => (k : ℝ)) r' sig =
      groupSigLima (on.map fun k : ℕ => (k : ℝ)) (off.map fun k : ℕ => (k : ℝ)) d sig := by
  by_cases hlen : on.length = off.length
  · have cnt : ∀ a b, b ≤ on.length → total on a b + total off a b ≤ 10 ^ 6 := by
      intro a b hb
      have t1 := total_le_sum on (a := a) hb
      have t2 := total_le_sum off (a := a) (hlen ▸ hb)
      omega
    refine sig_lima_of on off d r' sig hsig (fun a b hab hb => ?_) (fun a hab => ?_)
    · obtain ⟨g1, g2, g3⟩ := hr a b hab hb
      exact lima_reaches_near h hl (cnt a b hb) g1 g2 g3 hsig (hS a b hab hb)
    · obtain ⟨g1, g2, g3⟩ := hr a _ hab (le_refl _)
      exact lima_falls_near h hl (cnt a _ (le_refl _)) g1 g2 g3 hsig (hS a _ hab (le_refl _)) (hE a hab)
  · unfold groupSigLimaF groupSigLima
    have hx : (on.map fun k : ℕ => (k : ℝ)).length ≠ (off.map fun k : ℕ => (k : ℝ)).length := by simpa using hlen
    rw [if_pos hx, if_pos hx]

/-! ## The computed ratio -/

/-- With scale factors of one the computed ratio is accurate. -/
theorem unit_near {F : Impl} (h : F.Legal) (d : RatioData) {n : ℕ} (h1 : UnitScale d.specArea n) (h2 : UnitScale d.specBack n) (h3 : UnitScale d.backArea n) (h4 : UnitScale d.backBack n)
    (hr : 2 ^ (-30 : ℤ) ≤ d.specExp / d.backExp ∧ d.specExp / d.backExp ≤ 2 ^ (30 : ℤ)) {a b : ℕ} (hab : a ≤ b) (hb : b ≤ n) :
    d.ratio a b = d.specExp / d.backExp ∧ 0 < d.ratio a b ∧ In (-30) 30 (F.ratio d a b) ∧ |F.ratio d a b - d.ratio a b| ≤ 1 / (2 * 10 ^ 13) * d.ratio a b := by
  have hp : 0 < d.specExp / d.backExp := (two_zpow_pos _).trans_le hr.1
  obtain ⟨e1, e2⟩ := C157_unit_ratio h d h1 h2 h3 h4 (by rw [abs_of_pos hp]; exact hr.2.trans (zpow_le (by norm_num))) hab hb
  have hn : Nearest F.rnd := h.nearest
  rw [e1, e2]
  refine ⟨rfl, hp, hn.mem hr.1 hr.2 (by norm_num) (by norm_num), ?_⟩
  refine (hn.rel hr (by norm_num) (by norm_num)).trans (mul_le_mul_of_nonneg_right ?_ hp.le)
  unfold unit
  norm_num

/-- One more factor. -/
theorem ratio_times {rnd} (h : Nearest rnd) {x x' s s' j k : ℝ} (hj : 0 ≤ j) (hj1 : j ≤ 80) (hk : 0 ≤ k) (hk1 : k ≤ 16) (x0 : 0 < x) (s0 : 0 < s) (hx : |x' - x| ≤ j * unit * x)
    (hs : |s' - s| ≤ k * unit * s) (h1 : 2 ^ (-200 : ℤ) ≤ x * s) (h2 : x * s ≤ 2 ^ (200 : ℤ)) : |rnd (x' * s') - x * s| ≤ (j + k + 3) * unit * (x * s) := by
  have p := prod_near unit_pos.le hj (abs_of_pos x0).le hx (abs_of_pos s0).le hs (by
    have : j * k ≤ 80 * 16 := mul_le_mul hj1 hk1 hk (by norm_num)
    refine (mul_le_mul_of_nonneg_right this unit_pos.le).trans ?_
    unfold unit; norm_num)
  have := relstep h h1 h2 (by linarith) p
  convert this using 3
  ring

/-- One more divisor. -/
theorem ratio_over {rnd} (h : Nearest rnd) {x x' s s' j k : ℝ} (hj : 0 ≤ j) (hj1 : j ≤ 80) (hk : 0 ≤ k) (hk1 : k ≤ 16) (x0 : 0 < x) (s0 : 0 < s) (hx : |x' - x| ≤ j * unit * x)
    (hs : |s' - s| ≤ k * unit * s) (h1 : 2 ^ (-200 : ℤ) ≤ x / s) (h2 : x / s ≤ 2 ^ (200 : ℤ)) : |rnd (x' / s') - x / s| ≤ (j + k + 3) * unit * (x / s) := by
  have p := (ratio_near unit_pos.le hj hk s0 (abs_of_pos x0).le hx hs (by
    have : (j + k + 1) * k ≤ 97 * 16 := mul_le_mul (by linarith) hk1 hk (by norm_num)
    refine (mul_le_mul_of_nonneg_right this unit_pos.le).trans ?_
    unfold unit; norm_num) (by
    refine (mul_le_mul_of_nonneg_right hk1 unit_pos.le).trans_lt ?_
    unfold unit; norm_num)).1
  have := relstep h h1 h2 (by linarith) p
  convert this using 3
  ring

theorem span_mul {x y : ℝ} {p q : ℤ} (hx : 2 ^ (-p) ≤ x ∧ x ≤ 2 ^ p) (hy : 2 ^ (-q) ≤ y ∧ y ≤ 2 ^ q) : 2 ^ (-(p + q)) ≤ x * y ∧ x * y ≤ (2 : ℝ) ^ (p + q) := by
  have x0 : 0 < x := (two_zpow_pos _).trans_le hx.1
  have y0 : 0 < y := (two_zpow_pos _).trans_le hy.1
  constructor
  · rw [neg_add, zpow_add₀ (by norm_num)]
    exact mul_le_mul hx.1 hy.1 (two_zpow_pos _).le x0.le
  · rw [zpow_add₀ (by norm_num)]
    exact mul_le_mul hx.2 hy.2 y0.le (two_zpow_pos _).le

theorem span_div {x y : ℝ} {p q : ℤ} (hx : 2 ^ (-p) ≤ x ∧ x ≤ 2 ^ p) (hy : 2 ^ (-q) ≤ y ∧ y ≤ 2 ^ q) : 2 ^ (-(p + q)) ≤ x / y ∧ x / y ≤ (2 : ℝ) ^ (p + q) := by
  have y0 : 0 < y := (two_zpow_pos _).trans_le hy.1
  rw [div_eq_mul_inv]
  refine span_mul hx ⟨?_, ?_⟩
  · rw [zpow_neg]
    exact inv_anti₀ y0 hy.2
  · rw [← inv_inv ((2 : ℝ) ^ q), ← zpow_neg]
    exact inv_anti₀ (two_zpow_pos _) hy.1

/-- **C157 (ratio).** If the ratio of the exposures and the four scale factors of an interval are between `2 ^ -30` and `2 ^ 30`, and every scale factor is computed with a relative error of at most
`k` times `2 ^ -53` (C157_scale_partial says when), then the ratio is computed with a relative error of at most `4 k + 14` times `2 ^ -53`. -/
theorem C157_ratio {F : Impl} (h : F.Legal) (d : RatioData) {a b : ℕ} {k : ℝ} (hk : 0 ≤ k) (hk1 : k ≤ 16)
    (he : 2 ^ (-30 : ℤ) ≤ d.specExp / d.backExp ∧ d.specExp / d.backExp ≤ 2 ^ (30 : ℤ))
    (hs : ∀ x ∈ [d.specArea, d.specBack, d.backArea, d.backBack],
      (2 ^ (-30 : ℤ) ≤ scaleFromInterval (buildScalePrefix x false) a b ∧ scaleFromInterval (buildScalePrefix x false) a b ≤ 2 ^ (30 : ℤ)) ∧
        |F.scaleOf x a b - scaleFromInterval (buildScalePrefix x false) a b| ≤ k * 2 ^ (-53 : ℤ) * scaleFromInterval (buildScalePrefix x false) a b) :
    |F.ratio d a b - d.ratio a b| ≤ (4 * k + 14) * 2 ^ (-53 : ℤ) * d.ratio a b := by
  have hn : Nearest F.rnd := h.nearest
  obtain ⟨b1, e1⟩ := hs d.specArea (by simp)
  obtain ⟨b2, e2⟩ := hs d.specBack (by simp)
  obtain ⟨b3, e3⟩ := hs d.backArea (by simp)
  obtain ⟨b4, e4⟩ := hs d.backBack (by simp)
  have hu : (2 : ℝ) ^ (-53 : ℤ) = unit := by unfold unit; norm_num
  rw [hu] at e1 e2 e3 e4 ⊢
  unfold Impl.ratio RatioData.ratio intervalBackRatio
  generalize d.specExp / d.backExp = x at *
  generalize scaleFromInterval (buildScalePrefix d.specArea false) a b = s1 at *
  generalize scaleFromInterval (buildScalePrefix d.specBack false) a b = s2 at *
  generalize scaleFromInterval (buildScalePrefix d.backArea false) a b = s3 at *
  generalize scaleFromInterval (buildScalePrefix d.backBack false) a b = s4 at *
  have pos : ∀ {y : ℝ} {p : ℤ}, 2 ^ p ≤ y → 0 < y := fun hy => (two_zpow_pos _).trans_le hy
  have wide : ∀ {y : ℝ} {p : ℤ}, 2 ^ (-p) ≤ y ∧ y ≤ 2 ^ p → p ≤ 200 → 2 ^ (-200 : ℤ) ≤ y ∧ y ≤ 2 ^ (200 : ℤ) :=
    fun hy hp => ⟨(zpow_le (by omega)).trans hy.1, hy.2.trans (zpow_le hp)⟩
  have r1 := span_mul (p := 30) (q := 30) he b1
  have r2 := span_mul (p := 30 + 30) (q := 30) r1 b2
  have r3 := span_div (p := 30 + 30 + 30) (q := 30) r2 b3
  have r4 := span_div (p := 30 + 30 + 30 + 30) (q := 30) r3 b4
  have w0 := wide (p := 30) he (by norm_num)
  have w1 := wide r1 (by norm_num)
  have w2 := wide r2 (by norm_num)
  have w3 := wide r3 (by norm_num)
  have w4 := wide r4 (by norm_num)
  have q0 : |F.rnd x - x| ≤ 2 * unit * x := by
    have := relstep hn (k := 0) w0.1 w0.2 (by norm_num) (y := x) (by simp)
    rwa [zero_add] at this
  have q1 := ratio_times hn (by norm_num) (by norm_num) hk hk1 (pos he.1) (pos b1.1) q0 e1 w1.1 w1.2
  have q2 := ratio_times hn (by linarith) (by linarith) hk hk1 (pos r1.1) (pos b2.1) q1 e2 w2.1 w2.2
  have q3 := ratio_over hn (by linarith) (by linarith) hk hk1 (pos r2.1) (pos b3.1) q2 e3 w3.1 w3.2
  have q4 := ratio_over hn (by linarith) (by linarith) hk hk1 (pos r3.1) (pos b4.1) q3 e4 w4.1 w4.2
  refine q4.trans (le_of_eq ?_)
  ring

/-- **C159 (Li-Ma, scale factors of one), partial.** Without area and background scale factors, and with exposures whose ratio is between `2 ^ -30` and `2 ^ 30`, the ratio needs no
further condition: at most a million counts, a wanted significance above one, and no interval of channels within two millionths of it, and the optimal grouping with the ratios
as the code computes them is the exact one.  What is missing: intervals within two millionths of the threshold. -/
theorem C159_lima_unit_partial {F : Impl} {lg} (h : F.Legal) (hl : Accurate lg) (bint on off : List ℕ) (d : RatioData) (sig : ℝ) (hb : ∀ x ∈ bint, 1 ≤ x) (hsum : on.sum + off.sum ≤ 10 ^ 6)
    (h1 : UnitScale d.specArea on.length) (h2 : UnitScale d.specBack on.length) (h3 : UnitScale d.backArea on.length) (h4 : UnitScale d.backBack on.length)
    (hr : 2 ^ (-30 : ℤ) ≤ d.specExp / d.backExp ∧ d.specExp / d.backExp ≤ 2 ^ (30 : ℤ)) (hsig : 1001 / 1000 ≤ sig)
    (hS : ∀ a b, a < b → b ≤ on.length → 2 / 10 ^ 6 < |significanceLima (total on a b : ℕ) (total off a b : ℕ) (d.specExp / d.backExp) - sig|) :
    groupOptsigLimaF F.rnd lg bint (on.map fun k : ℕ => (k : ℝ)) (off.map fun k : ℕ => (k : ℝ)) (F.ratio d) sig =
      groupOptsigLima bint (on.map fun k : ℕ => (k : ℝ)) (off.map fun k : ℕ => (k : ℝ)) d sig := by
  refine C159_lima_computed_partial h.nearest hl bint on off d _ sig hb hsum (fun a b hab hb => (unit_near h d h1 h2 h3 h4 hr hab.le hb).2) hsig fun a b hab hb => ?_
  rw [(unit_near h d h1 h2 h3 h4 hr hab.le hb).1]
  exact hS a b hab hb

/-- **C151 (grouping, scale factors of one).** The same for the grouping of C151. -/
theorem C151_grouping_unit {F : Impl} {lg} (h : F.Legal) (hl : Accurate lg) (on off : List ℕ) (d : RatioData) (sig : ℝ) (hsum : on.sum + off.sum ≤ 10 ^ 6)
    (h1 : UnitScale d.specArea on.length) (h2 : UnitScale d.specBack on.length) (h3 : UnitScale d.backArea on.length) (h4 : UnitScale d.backBack on.length)
    (hr : 2 ^ (-30 : ℤ) ≤ d.specExp / d.backExp ∧ d.specExp / d.backExp ≤ 2 ^ (30 : ℤ)) (hsig : 1001 / 1000 ≤ sig)
    (hS : ∀ a b, a < b → b ≤ on.length → 2 / 10 ^ 6 < |significanceLima (total on a b : ℕ) (total off a b : ℕ) (d.specExp / d.backExp) - sig|)
    (hE : ∀ a < on.length, 2 / 10 ^ 3 ≤ |significanceLima (total on a on.length : ℕ) (total off a on.length : ℕ) (d.specExp / d.backExp)|) :
    groupSigLimaF F.rnd lg (on.map fun k : ℕ => (k : ℝ)) (off.map fun k : ℕ => (k : ℝ)) (F.ratio d) sig =
      groupSigLima (on.map fun k : ℕ => (k : ℝ)) (off.map fun k : ℕ => (k : ℝ)) d sig := by
  refine C151_grouping_computed h.nearest hl on off d _ sig hsum (fun a b hab hb => (unit_near h d h1 h2 h3 h4 hr hab.le hb).2) hsig (fun a b hab hb => ?_) fun a hab => ?_
  · rw [(unit_near h d h1 h2 h3 h4 hr hab.le hb).1]
    exact hS a b hab hb
  · rw [(unit_near h d h1 h2 h3 h4 hr hab.le (le_refl _)).1]
    exact hE a hab

/-! ## The hypotheses can be met -/

/-- Exposures with the ratio 1/3, which is not a double, and no scale factors. -/
noncomputable def exThird : RatioData := ⟨1, 3, exUnit, exUnit, exUnit, exUnit⟩

theorem exThird_size : 2 ^ (-30 : ℤ) ≤ exThird.specExp / exThird.backExp ∧ exThird.specExp / exThird.backExp ≤ 2 ^ (30 : ℤ) := by
  norm_num [exThird]

theorem exThird_large {a b : ℕ} (hab : a < b) (hb : b ≤ 2) : 3 ≤ significanceLima (total [20, 20] a b : ℕ) (total [5, 5] a b : ℕ) (exThird.specExp / exThird.backExp) := by
  have l2 := Real.log_two_gt_d9
  have : (a = 0 ∧ b = 1) ∨ (a = 0 ∧ b = 2) ∨ (a = 1 ∧ b = 2) := by omega
  have g1 : 3 ≤ significanceLima 20 5 (1 / 3) := by
    refine signif_ge (p := 1) (q := -2) (by norm_num) (by norm_num) (by norm_num) (by norm_num) (by norm_num) (by norm_num) ?_
    norm_num; linarith
  have g2 : 3 ≤ significanceLima 40 10 (1 / 3) := by
    refine signif_ge (p := 1) (q := -2) (by norm_num) (by norm_num) (by norm_num) (by norm_num) (by norm_num) (by norm_num) ?_
    norm_num; linarith
  rw [show exThird.specExp / exThird.backExp = 1 / 3 from rfl]
  rcases this with ⟨rfl, rfl⟩ | ⟨rfl, rfl⟩ | ⟨rfl, rfl⟩
  · exact g1
  · rw [show total [20, 20] 0 2 = 40 from rfl, show total [5, 5] 0 2 = 10 from rfl]; exact_mod_cast g2
  · exact g1

theorem exThird_clear {a b : ℕ} (hab : a < b) (hb : b ≤ 2) : 2 / 10 ^ 6 < |significanceLima (total [20, 20] a b : ℕ) (total [5, 5] a b : ℕ) (exThird.specExp / exThird.backExp) - 2| := by
  have := exThird_large hab hb
  rw [abs_of_pos (by linarith)]
  refine lt_of_lt_of_le ?_ (sub_le_sub_right this 2)
  norm_num

example := C159_lima_unit_partial leftImpl_legal exLog_ok [1, 2] [20, 20] [5, 5] exThird 2 (by simp) (by norm_num) exUnit_ok exUnit_ok exUnit_ok exUnit_ok exThird_size (by norm_num)
  (fun _ _ hab hb => exThird_clear hab hb)
example := C151_grouping_unit leftImpl_legal exLog_ok [20, 20] [5, 5] exThird 2 (by norm_num) exUnit_ok exUnit_ok exUnit_ok exUnit_ok exThird_size (by norm_num)
  (fun _ _ hab hb => exThird_clear hab hb) (fun _ ha => le_trans (by norm_num) ((exThird_large ha (le_refl _)).trans (le_abs_self _)))
example := C159_lima_computed_partial leftImpl_legal.nearest exLog_ok [1, 2] [20, 20] [5, 5] exThird (leftImpl.ratio exThird) 2 (by simp) (by norm_num)
  (fun _ _ hab hb => (unit_near leftImpl_legal exThird exUnit_ok exUnit_ok exUnit_ok exUnit_ok exThird_size hab.le hb).2) (by norm_num)
  (fun _ _ hab hb => by rw [(unit_near leftImpl_legal exThird exUnit_ok exUnit_ok exUnit_ok exUnit_ok exThird_size hab.le hb).1]; exact exThird_clear hab hb)
example := C151_grouping_computed leftImpl_legal.nearest exLog_ok [20, 20] [5, 5] exThird (leftImpl.ratio exThird) 2 (by norm_num)
  (fun _ _ hab hb => (unit_near leftImpl_legal exThird exUnit_ok exUnit_ok exUnit_ok exUnit_ok exThird_size hab.le hb).2) (by norm_num)
  (fun _ _ hab hb => by rw [(unit_near leftImpl_legal exThird exUnit_ok exUnit_ok exUnit_ok exUnit_ok exThird_size hab.le hb).1]; exact exThird_clear hab hb)
  (fun _ ha => by
    rw [(unit_near leftImpl_legal exThird exUnit_ok exUnit_ok exUnit_ok exUnit_ok exThird_size ha.le (le_refl _)).1]
    exact le_trans (by norm_num) ((exThird_large ha (le_refl _)).trans (le_abs_self _)))
example := C157_ratio leftImpl_legal exThird (a := 0) (b := 2) (k := 0) (le_refl _) (by norm_num) exThird_size (by
  have u := scaleOf_unit leftImpl_legal exUnit_ok (a := 0) (b := 2) (by norm_num) (le_refl _)
  have : ∀ x ∈ [exThird.specArea, exThird.specBack, exThird.backArea, exThird.backBack], x = exUnit := by simp [exThird]
  intro x hx
  rw [this x hx, u.1, u.2]
  norm_num)

end Elisa.Grouping.Fl
