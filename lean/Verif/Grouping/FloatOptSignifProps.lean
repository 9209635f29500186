import Verif.Grouping.FloatOptSignif
import Verif.Grouping.FloatOptsigProps
import Verif.Grouping.FloatGvErrorProps
import Verif.Grouping.FloatLimaProps

namespace Elisa.Grouping.Fl

open Elisa Elisa.Grouping Elisa.Infer.Fl

/-! ## The loop -/

theorem sigExtend_same {ok ok' : ℕ → ℕ → Bool} {n : ℕ} (h : ∀ a b, a < b → b ≤ n → ok a b = ok' a b) :
    ∀ (left i j : ℕ), i ≤ j → left + j = n → sigExtend ok left i j = sigExtend ok' left i j
  | 0, _, _, _, _ => rfl
  | left + 1, i, j, hij, hl => by
    rw [sigExtend, sigExtend, h i (j + 1) (by omega) (by omega), sigExtend_same h left i (j + 1) (by omega) (by omega)]

theorem optSig_same {ok ok' : ℕ → ℕ → Bool} {bint : List ℕ} (hb : ∀ x ∈ bint, 1 ≤ x) (hpos : 0 < bint.length) (h : ∀ a b, a < b → b ≤ bint.length → ok a b = ok' a b) :
    optLoop (fun i j => sigExtend ok (bint.length - j) i j) bint bint.length bint.length 0 [] =
      optLoop (fun i j => sigExtend ok' (bint.length - j) i j) bint bint.length bint.length 0 [] := by
  have hb' : ∀ k, k ≤ bint.length - 1 → 1 ≤ bint.getD k 0 := fun k hk => getD_one_le hb hk hpos
  refine optLoop_same (fun i hi => ?_) _ _ _
  have w1 := le_optWidth (bint := bint) (imax := bint.length - 1) (i := i) (by omega) hb'
  have w2 := optWidth_le (bint := bint) (imax := bint.length - 1) (i := i)
  exact sigExtend_same h _ _ _ w1 (by omega)

theorem optSig_desc {ok : ℕ → ℕ → Bool} {bint : List ℕ} (hb : ∀ x ∈ bint, 1 ≤ x) (hpos : 0 < bint.length) :
    Desc (optLoop (fun i j => sigExtend ok (bint.length - j) i j) bint bint.length bint.length 0 []) bint.length := by
  have hb' : ∀ k, k ≤ bint.length - 1 → 1 ≤ bint.getD k 0 := fun k hk => getD_one_le hb hk hpos
  refine (opt_out _ bint hpos ?_).desc
  intro i j hi hj
  have h' := sigExtend_some hj
  have h1 := le_optWidth (bint := bint) (imax := bint.length - 1) (i := i) (by omega) hb'
  have h2 := optWidth_le (bint := bint) (imax := bint.length - 1) (i := i)
  omega

/-! ## One interval -/

theorem lima_reaches {rnd lg} (h : Nearest rnd) (hl : Accurate lg) {n m : ℕ} {a sig : ℝ} (hnm : n + m ≤ 10 ^ 6) (ha : In (-30) 30 a) (hsig : 1001 / 1000 ≤ sig)
    (hS : 1 / 10 ^ 6 < |significanceLima n m a - sig|) : reaches sig (limaF rnd lg n m a) = decide (sig ≤ significanceLima n m a) := by
  cases hc : limaF rnd lg n m a with
  | some s =>
    have : sig ≤ s ↔ sig ≤ significanceLima n m a := by
      rcases lt_or_ge |significanceLima n m a| 1 with hc' | hc'
      · have := small_significance h hl hnm ha hc' hc
        have := (_root_.abs_lt.1 hc').2
        constructor <;> intro <;> linarith
      obtain ⟨s', e, he⟩ := C151_practice h hl hnm ha hc'
      obtain rfl : s' = s := by rw [e] at hc; exact Option.some.inj hc
      obtain ⟨e1, e2⟩ := _root_.abs_le.1 he
      generalize significanceLima n m a = S at *
      rcases le_total 0 (S - sig) with g | g
      · rw [abs_of_nonneg g] at hS
        exact ⟨fun _ => by linarith, fun _ => by linarith⟩
      · rw [abs_of_nonpos g] at hS
        exact ⟨fun _ => by linarith, fun _ => by linarith⟩
    simp only [reaches, this]
  | none =>
    have : ¬ sig ≤ significanceLima n m a := by
      intro hge
      obtain ⟨s', e, -⟩ := C151_practice h hl hnm ha (le_trans (by linarith) (le_abs_self _))
      rw [hc] at e
      exact absurd e (by simp)
    simp only [reaches, this, decide_false]

theorem gv_reaches {rnd lg} (h : Nearest rnd) (hl : Accurate lg) {n : ℕ} {b v a sig : ℝ} (hw : GvInterval n b v a) (hsig : 1001 / 1000 ≤ sig)
    (hS : 1 / 10 ^ 6 < |significanceGv n b (Real.sqrt v) a - sig|) :
    reachesE sig (gvF rnd lg n b (rnd (Real.sqrt v)) a) = decide (sig ≤ significanceGv n b (Real.sqrt v) a) := by
  obtain ⟨k1, k2, k3⟩ := sigma_near h (Nat.cast_nonneg _) hw
  cases hc : gvF rnd lg n b (rnd (Real.sqrt v)) a with
  | some y =>
    have : (sig : EReal) ≤ y ↔ sig ≤ significanceGv n b (Real.sqrt v) a := by
      rcases lt_or_ge |significanceGv n b (Real.sqrt v) a| 1 with hc' | hc'
      · have h3 := small_gv h hl hw.counts k1 k2 hw.ratio.pos hw.low (by rw [k3]; exact hw.narrow) (by rw [k3]; exact hw.wide) hc' hc
        have h4 := (_root_.abs_lt.1 hc').2
        constructor
        · intro hle
          exact absurd (EReal.coe_lt_coe_iff.1 (hle.trans_lt h3)) (not_lt.2 hsig)
        · intro hle; exact absurd hle (by linarith)
      obtain ⟨x, e, he⟩ := C154_practice h hl hw.counts k1 k2 hw.ratio.pos hw.low (by rw [k3]; exact hw.narrow) (by rw [k3]; exact hw.wide) hc'
      obtain rfl : (x : EReal) = y := by rw [e] at hc; exact Option.some.inj hc
      rw [EReal.coe_le_coe_iff]
      obtain ⟨e1, e2⟩ := _root_.abs_le.1 he
      clear hw k1 k2 k3 e hc
      generalize significanceGv n b (Real.sqrt v) a = S at *
      rcases le_total 0 (S - sig) with g | g
      · rw [abs_of_nonneg g] at hS
        exact ⟨fun _ => by linarith, fun _ => by linarith⟩
      · rw [abs_of_nonpos g] at hS
        exact ⟨fun _ => by linarith, fun _ => by linarith⟩
    simp only [reachesE, this]
  | none =>
    have : ¬ sig ≤ significanceGv n b (Real.sqrt v) a := by
      intro hge
      obtain ⟨x, e, -⟩ := C154_practice h hl hw.counts k1 k2 hw.ratio.pos hw.low (by rw [k3]; exact hw.narrow) (by rw [k3]; exact hw.wide) (le_trans (by linarith) (le_abs_self _))
      rw [hc] at e
      exact absurd e (by simp)
    simp only [reachesE, this, decide_false]

/-! ## The groupings -/

/-- **C159 (Li-Ma).** If the wanted significance is above one and no interval of channels has a significance within one millionth of it, then the optimal grouping by
Li-Ma significance in double precision, for at most a million counts, is the exact one, and so is the reported success (C06 says what they are).  Unlike in C151, channels with
a significance of zero do not matter: this loop treats a NaN as too low.  What is missing: intervals within one millionth of the threshold. -/
theorem C159_lima_partial {rnd lg} (h : Nearest rnd) (hl : Accurate lg) (bint on off : List ℕ) (d : RatioData) (sig : ℝ) (hb : ∀ x ∈ bint, 1 ≤ x) (hsum : on.sum + off.sum ≤ 10 ^ 6)
    (hr : ∀ a b, a < b → b ≤ on.length → In (-30) 30 (d.ratio a b)) (hsig : 1001 / 1000 ≤ sig)
    (hS : ∀ a b, a < b → b ≤ on.length → 1 / 10 ^ 6 < |significanceLima (total on a b : ℕ) (total off a b : ℕ) (d.ratio a b) - sig|) :
    groupOptsigLimaF rnd lg bint (on.map fun k : ℕ => (k : ℝ)) (off.map fun k : ℕ => (k : ℝ)) d.ratio sig =
      groupOptsigLima bint (on.map fun k : ℕ => (k : ℝ)) (off.map fun k : ℕ => (k : ℝ)) d sig := by
  unfold groupOptsigLimaF groupOptsigLima
  by_cases hlen : bint.length = (on.map fun k : ℕ => (k : ℝ)).length ∧ (on.map fun k : ℕ => (k : ℝ)).length = (off.map fun k : ℕ => (k : ℝ)).length
  swap
  · rw [if_pos hlen, if_pos hlen]
  rw [if_neg (not_not.2 hlen), if_neg (not_not.2 hlen)]
  have hsig0 : ¬ sig ≤ 0 := by linarith
  rw [if_neg hsig0, if_neg hsig0]
  dsimp only
  have hl1 : bint.length = on.length := by simpa using hlen.1
  have hl2 : on.length = off.length := by simpa using hlen.2
  rcases Nat.eq_zero_or_pos bint.length with h0 | hpos
  · have e1 : on = [] := List.length_eq_zero_iff.1 (by omega)
    have e2 : off = [] := List.length_eq_zero_iff.1 (by omega)
    subst e1 e2
    rw [h0]
    rfl
  have keyR : ∀ a b, a < b → b ≤ on.length → reaches sig (limaF rnd lg (total on a b : ℕ) (total off a b : ℕ) (d.ratio a b)) =
      decide (sig ≤ significanceLima (total on a b : ℕ) (total off a b : ℕ) (d.ratio a b)) := by
    intro a b hab hb
    refine lima_reaches h hl ?_ (hr a b hab hb) hsig (hS a b hab hb)
    have t1 := total_le_sum on (a := a) hb
    have t2 := total_le_sum off (a := a) (hl2 ▸ hb)
    omega
  have hloop := optSig_same (ok := fun a b : ℕ => reaches sig (limaF rnd lg (intervalSum (prefixSum (on.map fun k : ℕ => (k : ℝ))) a b)
      (intervalSum (prefixSum (off.map fun k : ℕ => (k : ℝ))) a b) (d.ratio a b)))
      (ok' := limaOk (on.map fun k : ℕ => (k : ℝ)) (off.map fun k : ℕ => (k : ℝ)) d sig) hb hpos (fun a b hab hb => by
    rw [limaOk, intervalSum_prefix _ hab.le (by rw [List.length_map]; omega), intervalSum_prefix _ hab.le (by rw [List.length_map]; omega), total_cast, total_cast]
    exact keyR a b hab (by omega))
  rw [hloop]
  have hdesc := optSig_desc (ok := limaOk (on.map fun k : ℕ => (k : ℝ)) (off.map fun k : ℕ => (k : ℝ)) d sig) hb hpos
  generalize optLoop (fun i j => sigExtend (limaOk (on.map fun k : ℕ => (k : ℝ)) (off.map fun k : ℕ => (k : ℝ)) d sig) (bint.length - j) i j) bint bint.length bint.length 0 [] = r at *
  rw [hl1] at hdesc ⊢
  have hp : r.reverse.Pairwise (· < ·) := by rw [List.pairwise_reverse]; exact hdesc.pw
  congr 2
  rw [Bool.eq_iff_iff, limaSuccess_iff (by simpa using hl2) (by simpa using hdesc), List.length_map]
  rw [reduceat_eq _ _ hp, reduceat_eq _ _ hp, List.length_map, List.length_map, ← hl2, List.zip_map', List.zip_map', List.all_map, List.all_eq_true]
  simp only [mem_edges_reverse, Function.comp, total_cast]
  refine forall_congr' fun e => forall_congr' fun he => ?_
  obtain ⟨h1, h2⟩ := mem_revEdges_lt hdesc.pw hdesc.lt he
  rw [keyR _ _ h1 h2, decide_eq_true_eq]

/-- **C159 (Gaussian background).** If the wanted significance is above one, no interval of channels has a significance within one millionth of it, and the variance of the scaled
background of every interval is at most half of it, then the optimal grouping by significance over a Gaussian background in double precision is the exact one, and so is
the reported success.  What is missing: intervals within one millionth of the threshold, and wider backgrounds, see the counterexample below. -/
theorem C159_gv_partial {rnd lg} (h : Nearest rnd) (hl : Accurate lg) (bint n : List ℕ) (b s : List ℝ) (d : RatioData) (sig : ℝ) (hb : ∀ x ∈ bint, 1 ≤ x) (hsig : 1001 / 1000 ≤ sig)
    (hz : ∀ i j, i < j → j ≤ n.length → GvInterval (total n i j : ℕ) (total b i j) (total (s.map fun x => x * x) i j) (d.ratio i j))
    (hS : ∀ i j, i < j → j ≤ n.length →
      1 / 10 ^ 6 < |significanceGv (total n i j : ℕ) (total b i j) (Real.sqrt (total (s.map fun x => x * x) i j)) (d.ratio i j) - sig|) :
    groupOptsigGvF rnd lg bint (n.map fun k : ℕ => (k : ℝ)) b s d.ratio sig = groupOptsigGv bint (n.map fun k : ℕ => (k : ℝ)) b s d sig := by
  unfold groupOptsigGvF groupOptsigGv
  by_cases hlen : bint.length = (n.map fun k : ℕ => (k : ℝ)).length ∧ (n.map fun k : ℕ => (k : ℝ)).length = b.length ∧ b.length = s.length
  swap
  · rw [if_pos hlen, if_pos hlen]
  rw [if_neg (not_not.2 hlen), if_neg (not_not.2 hlen)]
  have hsig0 : ¬ sig ≤ 0 := by linarith
  rw [if_neg hsig0, if_neg hsig0]
  dsimp only
  have hl1 : bint.length = n.length := by simpa using hlen.1
  have hl2 : n.length = b.length := by simpa using hlen.2.1
  have hl3 := hlen.2.2
  rcases Nat.eq_zero_or_pos bint.length with h0 | hpos
  · have e1 : n = [] := List.length_eq_zero_iff.1 (by omega)
    have e2 : b = [] := List.length_eq_zero_iff.1 (by omega)
    have e3 : s = [] := List.length_eq_zero_iff.1 (by omega)
    subst e1 e2 e3
    rw [h0]
    rfl
  generalize hv : (s.map fun x => x * x) = v at *
  have hvl : v.length = s.length := by rw [← hv, List.length_map]
  have keyR : ∀ i j, i < j → j ≤ n.length → reachesE sig (gvF rnd lg (total n i j : ℕ) (total b i j) (rnd (Real.sqrt (total v i j))) (d.ratio i j)) =
      decide (sig ≤ significanceGv (total n i j : ℕ) (total b i j) (Real.sqrt (total v i j)) (d.ratio i j)) := fun i j hij hj =>
    gv_reaches h hl (hz i j hij hj) hsig (hS i j hij hj)
  have hloop := optSig_same (ok := fun i j : ℕ => reachesE sig (gvF rnd lg (intervalSum (prefixSum (n.map fun k : ℕ => (k : ℝ))) i j) (intervalSum (prefixSum b) i j)
      (rnd (Real.sqrt (intervalSum (prefixSum v) i j))) (d.ratio i j)))
      (ok' := gvOk (n.map fun k : ℕ => (k : ℝ)) b s d sig) hb hpos (fun i j hij hj => by
    rw [gvOk, hv, intervalSum_prefix _ hij.le (by rw [List.length_map]; omega), intervalSum_prefix _ hij.le (by omega), intervalSum_prefix _ hij.le (by omega), total_cast]
    exact keyR i j hij (by omega))
  rw [hloop]
  have hdesc := optSig_desc (ok := gvOk (n.map fun k : ℕ => (k : ℝ)) b s d sig) hb hpos
  generalize optLoop (fun i j => sigExtend (gvOk (n.map fun k : ℕ => (k : ℝ)) b s d sig) (bint.length - j) i j) bint bint.length bint.length 0 [] = r at *
  rw [hl1] at hdesc ⊢
  have hp : r.reverse.Pairwise (· < ·) := by rw [List.pairwise_reverse]; exact hdesc.pw
  congr 2
  rw [Bool.eq_iff_iff, gvSuccess_iff (by simpa using hl2) hl3 (by simpa using hdesc), List.length_map]
  rw [reduceat_eq _ _ hp, reduceat_eq _ _ hp, reduceat_eq _ _ hp, List.length_map, hvl, ← hl3, ← hl2, List.zip_map', List.zip_map', List.zip_map', List.all_map, List.all_eq_true]
  simp only [mem_edges_reverse, Function.comp, total_cast, hv]
  refine forall_congr' fun e => forall_congr' fun he => ?_
  obtain ⟨h1, h2⟩ := mem_revEdges_lt hdesc.pw hdesc.lt he
  rw [keyR _ _ h1 h2, decide_eq_true_eq]

/-- Two channels with optimal widths of two and one. -/
example := C159_lima_partial leftNearest exLog_ok [2, 1] [20, 20] [5, 5] exRatio 2 (by decide) (by norm_num) (fun a b hab hb => by rw [exRatio_half hab hb]; exact exIn) (by norm_num)
  (fun a b hab hb => by
    have := exTotals hab hb
    rw [abs_of_pos (by linarith)]
    refine lt_of_lt_of_le ?_ (sub_le_sub_right this 2)
    norm_num)

example := C159_gv_partial leftNearest exLog_ok [1, 1] [30, 30] [20, 20] [4, 4] exRatio (3 / 2) (by decide) (by norm_num) (fun _ _ hij hj => (exGvTotals hij hj).2)
  (fun i j hij hj => by
    have := (exGvTotals hij hj).1
    rw [abs_of_pos (by linarith)]
    refine lt_of_lt_of_le ?_ (sub_le_sub_right this _)
    norm_num)

theorem loop_two {ok : ℕ → ℕ → Bool} (h1 : ok 0 1 = true) (h2 : ok 1 2 = true) :
    optLoop (fun i j => sigExtend ok (([1, 1] : List ℕ).length - j) i j) [1, 1] ([1, 1] : List ℕ).length ([1, 1] : List ℕ).length 0 [] = [1, 0] := by
  have w0 : optWidth [1, 1] 1 0 = 0 := by decide
  have w1 : optWidth [1, 1] 1 1 = 1 := by decide
  simp [optLoop, sigExtend, w0, w1, h1, h2]

theorem loop_one {ok : ℕ → ℕ → Bool} (h1 : ok 0 1 = false) :
    optLoop (fun i j => sigExtend ok (([1, 1] : List ℕ).length - j) i j) [1, 1] ([1, 1] : List ℕ).length ([1, 1] : List ℕ).length 0 [] = [0] := by
  have w0 : optWidth [1, 1] 1 0 = 0 := by decide
  cases h2 : ok 0 2 <;> simp [optLoop, sigExtend, w0, h1, h2]

/-- **C159 fails for wide backgrounds.**  Two channels with one count each over a background of zero with an uncertainty of 3 * 2^27, at a threshold of three: in double precision
every channel is a group and success is reported; the significance of each is at most 2^-28, and exactly the two channels are one group. -/
theorem C159_gv_refuted {rnd lg} (h : Nearest rnd) :
    groupOptsigGvF rnd lg [1, 1] [1, 1] [0, 0] [3 * 2 ^ (27 : ℤ), 3 * 2 ^ (27 : ℤ)] (fun _ _ => 1) 3 = .ok ([1, 1], true) ∧
      significanceGv 1 0 (3 * 2 ^ (27 : ℤ)) 1 ≤ 2 ^ (-28 : ℤ) ∧
      ∀ d : RatioData, d.ratio 0 1 = 1 → ∃ success, groupOptsigGv [1, 1] [1, 1] [0, 0] [3 * 2 ^ (27 : ℤ), 3 * 2 ^ (27 : ℤ)] d 3 = .ok ([1, -1], success) := by
  obtain ⟨⟨-, c1⟩, -, c3⟩ := C154_infinite_refuted (lg := lg) h
  have c3 := c3 3
  have root : Real.sqrt (3 * (2 : ℝ) ^ (27 : ℤ) * (3 * 2 ^ (27 : ℤ))) = 3 * 2 ^ (27 : ℤ) := Real.sqrt_mul_self (by positivity)
  have fs : rnd (3 * (2 : ℝ) ^ (27 : ℤ)) = 3 * 2 ^ (27 : ℤ) := rnd_num h 3 27 (by norm_num) (by norm_num) (by norm_num) (by norm_num)
  have i01 : ∀ x y : ℝ, intervalSum (prefixSum [x, y]) 0 1 = x := by intro x y; simp [intervalSum, prefixSum, cumsum, cumsumFrom]
  have i12 : ∀ x y : ℝ, intervalSum (prefixSum [x, y]) 1 2 = y := by intro x y; simp [intervalSum, prefixSum, cumsum, cumsumFrom]
  have ra : ∀ x y : ℝ, Elisa.reduceat [x, y] [0, 1] = [x, y] := by intro x y; simp [Elisa.reduceat, sliceSum]
  have hlt : significanceGv 1 0 (3 * 2 ^ (27 : ℤ)) 1 < 3 := lt_of_le_of_lt c1 (by norm_num)
  refine ⟨?_, c1, ?_⟩
  · clear hlt c1
    generalize 3 * (2 : ℝ) ^ (27 : ℤ) = S at *
    unfold groupOptsigGvF
    rw [if_neg (by simp), if_neg (by norm_num)]
    dsimp only
    rw [loop_two (by simp only [List.map_cons, List.map_nil, i01, root, fs, c3]) (by simp only [List.map_cons, List.map_nil, i12, root, fs, c3])]
    have e : edges [0, 1] 2 = [(0, 1), (1, 2)] := by decide
    have f : setFlags 2 [0, 1] = [1, 1] := by decide
    simp [ra, root, fs, c3, e, f]
  · intro d hd
    refine ⟨gvSuccess [1, 1] [0, 0] [3 * 2 ^ (27 : ℤ), 3 * 2 ^ (27 : ℤ)] d 3 [0], ?_⟩
    generalize 3 * (2 : ℝ) ^ (27 : ℤ) = S at *
    unfold groupOptsigGv
    rw [if_neg (by simp), if_neg (by norm_num)]
    dsimp only
    have f : setFlags 2 [0] = [1, -1] := by decide
    rw [loop_one (by simp only [gvOk, List.map_cons, List.map_nil, i01, root, hd]; exact decide_eq_false (not_le.2 hlt))]
    simp [f]

example := C159_gv_refuted (lg := exLog) leftNearest

/-- **C159 (refused).** Unequal numbers of channels and thresholds that are not positive are refused with an `AssertionError`, and nothing else is refused. -/
theorem C159_lima_refuses (rnd lg : ℝ → ℝ) (bint : List ℕ) (on off : List ℝ) (ratio : ℕ → ℕ → ℝ) (sig : ℝ) :
    (groupOptsigLimaF rnd lg bint on off ratio sig = .error .assertionError ↔ ¬ (bint.length = on.length ∧ on.length = off.length) ∨ sig ≤ 0) ∧
      ((∃ r, groupOptsigLimaF rnd lg bint on off ratio sig = .ok r) ↔ bint.length = on.length ∧ on.length = off.length ∧ 0 < sig) := by
  unfold groupOptsigLimaF
  by_cases h1 : bint.length = on.length ∧ on.length = off.length
  swap
  · rw [if_pos h1]
    refine ⟨by simp [h1], ?_⟩
    simp only [reduceCtorEq, exists_false, false_iff]
    exact fun h => h1 ⟨h.1, h.2.1⟩
  rw [if_neg (not_not.2 h1)]
  by_cases h2 : sig ≤ 0
  · rw [if_pos h2]
    simp [h2, not_lt.2 h2]
  · rw [if_neg h2]
    simp [h1.1, h1.2, not_le.1 h2]

example (rnd lg : ℝ → ℝ) : ∃ r, groupOptsigLimaF rnd lg [1] [4] [1] (fun _ _ => 1) 2 = .ok r := ((C159_lima_refuses rnd lg [1] [4] [1] _ 2).2).2 (by norm_num)

/-- **C159 (refused).** The same for the Gaussian background. -/
theorem C159_gv_refuses (rnd lg : ℝ → ℝ) (bint : List ℕ) (n b s : List ℝ) (ratio : ℕ → ℕ → ℝ) (sig : ℝ) :
    (groupOptsigGvF rnd lg bint n b s ratio sig = .error .assertionError ↔ ¬ (bint.length = n.length ∧ n.length = b.length ∧ b.length = s.length) ∨ sig ≤ 0) ∧
      ((∃ r, groupOptsigGvF rnd lg bint n b s ratio sig = .ok r) ↔ (bint.length = n.length ∧ n.length = b.length ∧ b.length = s.length) ∧ 0 < sig) := by
  unfold groupOptsigGvF
  by_cases h1 : bint.length = n.length ∧ n.length = b.length ∧ b.length = s.length
  swap
  · rw [if_pos h1]
    refine ⟨by simp [h1], ?_⟩
    simp only [reduceCtorEq, exists_false, false_iff]
    exact fun h => h1 h.1
  rw [if_neg (not_not.2 h1)]
  by_cases h2 : sig ≤ 0
  · rw [if_pos h2]
    simp [h2, not_lt.2 h2]
  · rw [if_neg h2]
    simp [h1.1, h1.2.1, h1.2.2, not_le.1 h2]

example (rnd lg : ℝ → ℝ) : groupOptsigGvF rnd lg [1] [4] [1] [1] (fun _ _ => 1) 0 = .error .assertionError := ((C159_gv_refuses rnd lg [1] [4] [1] [1] _ 0).1).2 (.inr le_rfl)

end Elisa.Grouping.Fl
