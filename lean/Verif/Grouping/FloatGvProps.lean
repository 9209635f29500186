import Verif.Grouping.FloatGv
import Verif.Grouping.FloatLimaProps
import Verif.Grouping.SigValue

/-!
# The significance over a Gaussian background: zero uncertainties and rounding (C154)
-/

namespace Elisa.Grouping.Fl

open Elisa Elisa.Grouping Elisa.Infer.Fl

/-! ## Exact arithmetic -/

theorem gvRad_exact {n b s : ℝ} (hn : 0 ≤ n) : gvRadF id n b (s * s) = b * b - 2 * b * (s * s) + 4 * n * (s * s) + s * s * (s * s) ∧ 0 ≤ gvRadF id n b (s * s) := by
  have e : gvRadF id n b (s * s) = b * b - 2 * b * (s * s) + 4 * n * (s * s) + s * s * (s * s) := rfl
  refine ⟨e, ?_⟩
  rw [e, show b * b - 2 * b * (s * s) + 4 * n * (s * s) + s * s * (s * s) = (b - s * s) ^ 2 + 4 * (n * (s * s)) by ring]
  have := mul_self_nonneg s
  positivity

theorem gvBack_exact (n b s : ℝ) : gvBackF id n b (s * s) = gvBackground n b s := by
  unfold gvBackF gvBackground gvRadF
  simp only [id]
  norm_num

/-- **C154 (exact).** Without rounding, and for a positive uncertainty, the significance as computed is the one of C11, neither NaN nor infinite. -/
theorem C154_exact {n b s a : ℝ} (hn : 0 ≤ n) (hs : 0 < s) (ha : 0 < a) : gvF id Real.log n b s a = some (significanceGv n b s a : EReal) := by
  have hsa : 0 < s * a := mul_pos hs ha
  obtain ⟨-, hr⟩ := gvRad_exact (n := n) (b := b * a) (s := s * a) hn
  obtain ⟨-, hp, -⟩ := gvBackground_spec (b := b * a) hn hsa
  have hT := (C11_gv n b s a hn hs ha).1
  have hterms : gvTermsF id Real.log n (b * a) (s * a * (s * a)) (gvBackground n (b * a) (s * a)) = 2 * gvTerms n (b * a) (s * a) := by
    unfold gvTermsF gvTerms xlogyF xlogy
    simp only [id, ← pow_two]
  unfold gvF
  simp only [id]
  rw [if_neg (not_lt.2 hr), if_neg (mul_pos hsa hsa).ne', gvBack_exact, if_neg (fun hc => (hp hc.1).ne' hc.2), hterms, if_neg (not_lt.2 (by linarith))]
  rfl

/-- **C154 (zero uncertainty, refuted).** Without rounding: an uncertainty of zero, which is accepted, gives NaN over every background that is not negative, whatever the
counts, and an infinite significance over every negative one. -/
theorem C154_zero_refuted {n b a : ℝ} (hn : 0 ≤ n) (ha : 0 < a) :
    (0 ≤ b → gvF id Real.log n b 0 a = none) ∧ (b < 0 → gvF id Real.log n b 0 a = some ⊤) := by
  have e := gvBack_exact n (b * a) 0
  obtain ⟨er, hr⟩ := gvRad_exact (n := n) (b := b * a) (s := 0) hn
  have hb : gvBackground n (b * a) 0 = max (1 / 2 * (b * a + |b * a|)) 0 := by
    unfold gvBackground
    norm_num [Real.sqrt_mul_self_eq_abs]
  unfold gvF
  simp only [id, zero_mul, mul_zero] at *
  rw [e, hb]
  constructor
  · intro h0
    have : 0 ≤ b * a := mul_nonneg h0 ha.le
    rw [abs_of_nonneg this, max_eq_left (by linarith), if_neg (not_lt.2 hr), if_pos True.intro, if_pos (by ring)]
  · intro h0
    have : b * a < 0 := mul_neg_of_neg_of_pos h0 ha
    rw [abs_of_neg this, if_neg (not_lt.2 hr)]
    norm_num
    exact ⟨⟨h0.ne, ha.ne'⟩, if_pos (by linarith)⟩

/-! ## Grouping in exact arithmetic -/

theorem greedyE_same {s : ℕ → ℕ → Option EReal} {sig : ℝ} {ok : ℕ → ℕ → Bool} {nd : ℕ} (hr : ∀ a b, a < b → b ≤ nd → reachesE sig (s a b) = ok a b)
    (hf : ∀ a, a < nd → fallsE sig (s a nd) = !(ok a nd)) : ∀ (left i start : ℕ) (idx : List ℕ), start ≤ i → i + left = nd →
      greedyLoopE s sig left i start idx = greedyLoop ok left i start idx
  | 0, _, _, _, _, _ => rfl
  | 1, i, start, idx, h1, h2 => by
    unfold greedyLoopE greedyLoop
    subst h2
    rw [hf start (by omega)]
  | left + 2, i, start, idx, h1, h2 => by
    unfold greedyLoopE greedyLoop
    rw [hr start (i + 1) (by omega) (by omega), greedyE_same hr hf (left + 1) (i + 1) (i + 1) _ (le_refl _) (by omega),
      greedyE_same hr hf (left + 1) (i + 1) start _ (by omega) (by omega)]

theorem total_nonneg {xs : List ℝ} (h : ∀ x ∈ xs, 0 ≤ x) (a b : ℕ) : 0 ≤ total xs a b := by
  unfold total
  refine Finset.sum_nonneg fun k _ => ?_
  rw [List.getD_eq_getElem?_getD]
  cases hk : xs[k]? with
  | none => simp
  | some x => exact h x (List.mem_of_getElem? hk)

theorem total_squares_pos {xs : List ℝ} (h : ∀ x ∈ xs, x ≠ 0) {a b : ℕ} (hab : a < b) (hb : b ≤ xs.length) : 0 < total (xs.map fun x => x * x) a b := by
  unfold total
  refine Finset.sum_pos (fun k hk => ?_) ⟨a, Finset.mem_Ico.2 ⟨le_refl _, hab⟩⟩
  have hk' : k < xs.length := lt_of_lt_of_le (Finset.mem_Ico.1 hk).2 hb
  rw [List.getD_eq_getElem?_getD, List.getElem?_map, List.getElem?_eq_getElem hk']
  exact mul_self_pos.2 (h _ (List.getElem_mem hk'))

/-- **C154 (grouping).** Without rounding, and with positive uncertainties and ratios, the grouping by significance over a Gaussian background, NaN and infinities
considered, is the one of C05. -/
theorem C154_grouping (n b s : List ℝ) (d : RatioData) (sig : ℝ) (hn : ∀ x ∈ n, 0 ≤ x) (hs : ∀ x ∈ s, 0 < x) (hr : ∀ i j, i < j → j ≤ n.length → 0 < d.ratio i j) :
    groupSigGvF id Real.log n b s d.ratio sig = groupSigGv n b s d sig := by
  unfold groupSigGvF groupSigGv
  by_cases hlen : n.length = b.length ∧ b.length = s.length
  swap
  · rw [if_pos hlen, if_pos hlen]
  rw [if_neg (not_not.2 hlen), if_neg (not_not.2 hlen)]
  by_cases hsig : sig ≤ 0
  · rw [if_pos hsig, if_pos hsig]
  rw [if_neg hsig, if_neg hsig]
  by_cases hne : n = []
  · rw [if_pos hne, if_pos hne]
  rw [if_neg hne, if_neg hne]
  dsimp only
  have hpos : 0 < n.length := List.length_pos_of_ne_nil hne
  have key : ∀ i j, i < j → j ≤ n.length → gvF id Real.log (total n i j) (total b i j) (Real.sqrt (total (s.map fun x => x * x) i j)) (d.ratio i j) =
      some (significanceGv (total n i j) (total b i j) (Real.sqrt (total (s.map fun x => x * x) i j)) (d.ratio i j) : EReal) := by
    intro i j hij hj
    exact C154_exact (total_nonneg hn i j) (Real.sqrt_pos.2 (total_squares_pos (fun x hx => (hs x hx).ne') hij (by omega))) (hr i j hij hj)
  have hloop : greedyLoopE (fun i j : ℕ => gvF id Real.log (intervalSum (prefixSum n) i j) (intervalSum (prefixSum b) i j)
      (id (Real.sqrt (intervalSum (prefixSum (s.map fun x => x * x)) i j))) (d.ratio i j)) sig n.length 0 0 [0] = greedyLoop (gvOk n b s d sig) n.length 0 0 [0] := by
    refine greedyE_same (nd := n.length) (fun i j hij hj => ?_) (fun i hi => ?_) _ _ _ _ (le_refl _) (by omega)
    · rw [gvOk, intervalSum_prefix _ hij.le hj, intervalSum_prefix _ hij.le (by omega), intervalSum_prefix _ hij.le (by rw [List.length_map]; omega), id, key i j hij hj]
      simp only [reachesE, EReal.coe_le_coe_iff]
    · rw [gvOk, intervalSum_prefix _ hi.le (le_refl _), intervalSum_prefix _ hi.le (by omega), intervalSum_prefix _ hi.le (by rw [List.length_map]; omega), id, key i _ hi (le_refl _)]
      simp only [fallsE, EReal.coe_lt_coe_iff]
      simp only [← not_le, decide_not]
  rw [hloop]
  have hdesc := (greedy_out (gvOk n b s d sig) hpos).desc
  generalize greedyLoop (gvOk n b s d sig) n.length 0 0 [0] = r at *
  have hp : r.reverse.Pairwise (· < ·) := by rw [List.pairwise_reverse]; exact hdesc.pw
  congr 2
  rw [Bool.eq_iff_iff, gvSuccess_iff hlen.1 hlen.2 hdesc]
  rw [reduceat_eq _ _ hp, reduceat_eq _ _ hp, reduceat_eq _ _ hp, List.length_map, ← hlen.2, ← hlen.1, List.zip_map', List.zip_map', List.zip_map', List.all_map, List.all_eq_true]
  simp only [mem_edges_reverse, Function.comp, id]
  refine forall_congr' fun e => forall_congr' fun he => ?_
  obtain ⟨h1, h2⟩ := mem_revEdges_lt hdesc.pw hdesc.lt he
  rw [key _ _ h1 h2]
  simp only [reachesE, EReal.coe_le_coe_iff, decide_eq_true_eq]

/-- **C154 (grouping with zero uncertainties, refuted).** Without rounding: two channels of a thousand counts each, over a background of zero with an uncertainty of zero,
are not two groups but one, and the grouping reports failure. -/
theorem C154_grouping_refuted : groupSigGvF id Real.log [1000, 1000] [0, 0] [0, 0] (fun _ _ => 1) 3 = .ok ([1, -1], false) := by
  have hS : ∀ i j, i < j → j ≤ 2 → gvF id Real.log (intervalSum (prefixSum [1000, 1000]) i j) (intervalSum (prefixSum [0, 0]) i j)
      (id (Real.sqrt (intervalSum (prefixSum (([0, 0] : List ℝ).map fun x => x * x)) i j))) 1 = none := by
    intro i j hij hj
    rw [intervalSum_prefix _ hij.le (by simpa using hj), intervalSum_prefix _ hij.le (by simpa using hj), intervalSum_prefix _ hij.le (by simpa using hj)]
    have z1 : total ([0, 0] : List ℝ) i j = 0 := by
      unfold total
      refine Finset.sum_eq_zero fun k hk => ?_
      have : k = 0 ∨ k = 1 := by have := (Finset.mem_Ico.1 hk).2; omega
      rcases this with rfl | rfl <;> rfl
    have z2 : (([0, 0] : List ℝ).map fun x => x * x) = [0, 0] := by simp
    rw [z2, z1, Real.sqrt_zero]
    exact (C154_zero_refuted (total_nonneg (by intro x hx; simp at hx; rw [hx]; norm_num) i j) one_pos).1 (le_refl _)
  unfold groupSigGvF
  rw [if_neg (by simp), if_neg (by norm_num), if_neg (by simp)]
  dsimp only
  have hloop : greedyLoopE (fun i j : ℕ => gvF id Real.log (intervalSum (prefixSum [1000, 1000]) i j) (intervalSum (prefixSum [0, 0]) i j)
      (id (Real.sqrt (intervalSum (prefixSum (([0, 0] : List ℝ).map fun x => x * x)) i j))) 1) 3 ([1000, 1000] : List ℝ).length 0 0 [0] = [0] := by
    show greedyLoopE _ _ (0 + 2) 0 0 [0] = [0]
    unfold greedyLoopE
    rw [hS 0 1 (by norm_num) (by norm_num)]
    simp only [reachesE, zero_add]
    unfold greedyLoopE
    rw [if_neg (by norm_num), if_neg (by simp)]
  rw [hloop]
  have hn := (C154_zero_refuted (n := 2000) (b := 0) (a := 1) (by norm_num) one_pos).1 (le_refl _)
  congr 2
  simp [Elisa.reduceat, edges, reachesE]
  norm_num
  rw [hn]

/-! ## NaN from rounding -/

theorem rnd_point {rnd} (h : Nearest rnd) : rnd (19 / 5) = 8556839292003942 * 2 ^ (-51 : ℤ) :=
  h.eq 8556839292003942 (-51) (by norm_num) (by norm_num) (by norm_num) (by norm_num) (by norm_num) (by norm_num [abs_lt])

theorem rnd_num {rnd} (h : Nearest rnd) {x : ℝ} (M E : ℤ) (hx : x = M * 2 ^ E) (hM : |M| < 2 ^ 53) (h1 : -1000 ≤ E) (h2 : E ≤ 900) : rnd x = x := by
  refine h.fix ⟨M, E, hM, by omega, by omega, hx⟩ ?_
  have hMr : |(M : ℝ)| ≤ 2 ^ (53 : ℤ) := by
    rw [show (53 : ℤ) = ((53 : ℕ) : ℤ) by norm_num, zpow_natCast]; exact_mod_cast hM.le
  rw [hx]
  exact (mul_abs hMr (by rw [abs_of_pos (two_zpow_pos E)])).trans (zpow_le (by omega))

theorem upper_step {rnd} (h : Nearest rnd) {x y : ℝ} (hy : Rep y) (h1 : -2 ^ (10 : ℤ) ≤ x) (h2 : x ≤ y) (h3 : y ≤ 0) : rnd x ≤ y ∧ -2 ^ (10 : ℤ) ≤ rnd x := by
  have hx : |x| ≤ 2 ^ (1023 : ℤ) := by
    rw [abs_of_nonpos (h2.trans h3)]
    exact (neg_le.1 h1).trans (zpow_le (by norm_num))
  exact ⟨h.le hx hy h2, h.ge hx (rep_neg (rep_pow (by norm_num) (by norm_num))) h1⟩

/-- **C154 (refuted).** Three counts over a background of three, with an uncertainty of 3.8, have significance zero.  The code gives NaN for it, whatever the last bit of the
logarithm. -/
theorem C154_refuted {rnd lg} (h : Nearest rnd) (hl : Accurate lg) : significanceGv 3 3 (rnd (19 / 5)) 1 = 0 ∧ gvF rnd lg 3 3 (rnd (19 / 5)) 1 = none := by
  have e0 := rnd_point h
  constructor
  · rw [(C11_gv 3 3 (rnd (19 / 5)) 1 (by norm_num) (by rw [e0]; norm_num) one_pos).2.2.1]; norm_num
  have f3 : rnd ((3 : ℝ) * 1) = 3 := by rw [rnd_num h 3 0 (by norm_num) (by norm_num) (by norm_num) (by norm_num)]; norm_num
  have fs : rnd (rnd (19 / 5) * 1) = 8556839292003942 * 2 ^ (-51 : ℤ) := by
    rw [mul_one, e0]; exact rnd_num h 8556839292003942 (-51) (by norm_num) (by norm_num) (by norm_num) (by norm_num)
  have fs2 : rnd (8556839292003942 * 2 ^ (-51 : ℤ) * (8556839292003942 * 2 ^ (-51 : ℤ))) = 8128997327403745 * 2 ^ (-49 : ℤ) :=
    h.eq 8128997327403745 (-49) (by norm_num) (by norm_num) (by norm_num) (by norm_num) (by norm_num) (by norm_num [abs_lt])
  have fs4 : rnd (8128997327403745 * 2 ^ (-49 : ℤ) * (8128997327403745 * 2 ^ (-49 : ℤ))) = 7336420087981880 * 2 ^ (-45 : ℤ) :=
    h.eq 7336420087981880 (-45) (by norm_num) (by norm_num) (by norm_num) (by norm_num) (by norm_num) (by norm_num [abs_lt])
  have fb2 : rnd ((3 : ℝ) * 3) = 9 := by rw [rnd_num h 9 0 (by norm_num) (by norm_num) (by norm_num) (by norm_num)]; norm_num
  have f6 : rnd ((2 : ℝ) * 3) = 6 := by rw [rnd_num h 6 0 (by norm_num) (by norm_num) (by norm_num) (by norm_num)]; norm_num
  have f12 : rnd ((4 : ℝ) * 3) = 12 := by rw [rnd_num h 12 0 (by norm_num) (by norm_num) (by norm_num) (by norm_num)]; norm_num
  have fq : rnd (6 * (8128997327403745 * 2 ^ (-49 : ℤ))) = 6096747995552809 * 2 ^ (-46 : ℤ) :=
    h.eq 6096747995552809 (-46) (by norm_num) (by norm_num) (by norm_num) (by norm_num) (by norm_num) (by norm_num [abs_lt])
  have fr1 : rnd (9 - 6096747995552809 * 2 ^ (-46 : ℤ)) = -5463429297953833 * 2 ^ (-46 : ℤ) :=
    h.eq (-5463429297953833) (-46) (by norm_num) (by norm_num) (by norm_num) (by norm_num) (by norm_num) (by norm_num [abs_lt])
  have ft : rnd (12 * (8128997327403745 * 2 ^ (-49 : ℤ))) = 6096747995552809 * 2 ^ (-45 : ℤ) :=
    h.eq 6096747995552809 (-45) (by norm_num) (by norm_num) (by norm_num) (by norm_num) (by norm_num) (by norm_num [abs_lt])
  have fr2 : rnd (-5463429297953833 * 2 ^ (-46 : ℤ) + 6096747995552809 * 2 ^ (-45 : ℤ)) = 6730066693151785 * 2 ^ (-46 : ℤ) :=
    h.eq 6730066693151785 (-46) (by norm_num) (by norm_num) (by norm_num) (by norm_num) (by norm_num) (by norm_num [abs_lt])
  have fr3 : rnd (6730066693151785 * 2 ^ (-46 : ℤ) + 7336420087981880 * 2 ^ (-45 : ℤ)) = 5350726717278886 * 2 ^ (-44 : ℤ) :=
    h.eq 5350726717278886 (-44) (by norm_num) (by norm_num) (by norm_num) (by norm_num) (by norm_num) (by norm_num [abs_lt])
  have hrad : gvRadF rnd 3 3 (8128997327403745 * 2 ^ (-49 : ℤ)) = 5350726717278886 * 2 ^ (-44 : ℤ) := by
    unfold gvRadF
    rw [fb2, f6, f12, fq, fr1, ft, fr2, fs4, fr3]
  have froot : rnd (Real.sqrt (5350726717278886 * 2 ^ (-44 : ℤ))) = 4908923593833841 * 2 ^ (-48 : ℤ) := by
    refine h.eq 4908923593833841 (-48) (by norm_num) (by norm_num) (by norm_num) (by norm_num) (by norm_num) ?_
    rw [abs_lt]
    constructor
    · have : (4908923593833841 * 2 ^ (-48 : ℤ) - 2 ^ (-48 - 1 : ℤ) : ℝ) < Real.sqrt (5350726717278886 * 2 ^ (-44 : ℤ)) := by
        apply Real.lt_sqrt_of_sq_lt
        norm_num
      linarith
    · have : Real.sqrt (5350726717278886 * 2 ^ (-44 : ℤ)) < (4908923593833841 * 2 ^ (-48 : ℤ) + 2 ^ (-48 - 1 : ℤ) : ℝ) := by
        rw [Real.sqrt_lt' (by norm_num)]
        norm_num
      linarith
  have fd : rnd (3 - 8128997327403745 * 2 ^ (-49 : ℤ)) = -6440147467139809 * 2 ^ (-49 : ℤ) :=
    h.eq (-6440147467139809) (-49) (by norm_num) (by norm_num) (by norm_num) (by norm_num) (by norm_num) (by norm_num [abs_lt])
  have fu : rnd (-6440147467139809 * 2 ^ (-49 : ℤ) + 4908923593833841 * 2 ^ (-48 : ℤ)) = 6755399441055746 * 2 ^ (-50 : ℤ) :=
    h.eq 6755399441055746 (-50) (by norm_num) (by norm_num) (by norm_num) (by norm_num) (by norm_num) (by norm_num [abs_lt])
  have fb0 : rnd (1 / 2 * (6755399441055746 * 2 ^ (-50 : ℤ))) = 6755399441055746 * 2 ^ (-51 : ℤ) :=
    h.eq 6755399441055746 (-51) (by norm_num) (by norm_num) (by norm_num) (by norm_num) (by norm_num) (by norm_num [abs_lt])
  have hb0 : gvBackF rnd 3 3 (8128997327403745 * 2 ^ (-49 : ℤ)) = 6755399441055746 * 2 ^ (-51 : ℤ) := by
    unfold gvBackF
    rw [hrad, froot, fd, fu, fb0, max_eq_left (by norm_num)]
  have fx : rnd (3 / (6755399441055746 * 2 ^ (-51 : ℤ))) = 9007199254740989 * 2 ^ (-53 : ℤ) :=
    h.eq 9007199254740989 (-53) (by norm_num) (by norm_num) (by norm_num) (by norm_num) (by norm_num) (by norm_num [abs_lt])
  have fw : rnd (6755399441055746 * 2 ^ (-51 : ℤ) - 3) = 2 ^ (-50 : ℤ) := by
    rw [rnd_num h 1 (-50) (by norm_num) (by norm_num) (by norm_num) (by norm_num)]; norm_num
  have fv : rnd (3 - 6755399441055746 * 2 ^ (-51 : ℤ)) = -2 ^ (-50 : ℤ) := by
    rw [rnd_num h (-1) (-50) (by norm_num) (by norm_num) (by norm_num) (by norm_num)]; norm_num
  have fv2 : rnd (-2 ^ (-50 : ℤ) * -2 ^ (-50 : ℤ)) = 2 ^ (-100 : ℤ) := by
    rw [rnd_num h 1 (-100) (by norm_num) (by norm_num) (by norm_num) (by norm_num)]; norm_num
  have f2s : rnd (2 * (8128997327403745 * 2 ^ (-49 : ℤ))) = 8128997327403745 * 2 ^ (-48 : ℤ) :=
    h.eq 8128997327403745 (-48) (by norm_num) (by norm_num) (by norm_num) (by norm_num) (by norm_num) (by norm_num [abs_lt])
  have ft2 : rnd (2 ^ (-100 : ℤ) / (8128997327403745 * 2 ^ (-48 : ℤ))) ≤ 2 ^ (-100 : ℤ) ∧ 0 ≤ rnd (2 ^ (-100 : ℤ) / (8128997327403745 * 2 ^ (-48 : ℤ))) := by
    have hx : |(2 : ℝ) ^ (-100 : ℤ) / (8128997327403745 * 2 ^ (-48 : ℤ))| ≤ 2 ^ (1023 : ℤ) := by
      refine le_trans (?_ : _ ≤ (2 : ℝ) ^ (0 : ℤ)) (zpow_le (by norm_num))
      norm_num [abs_of_pos]
    exact ⟨h.le hx (rep_pow (by norm_num) (by norm_num)) (by norm_num), h.ge hx rep_zero (by norm_num)⟩
  -- the logarithm
  have x0 : (0 : ℝ) < 9007199254740989 * 2 ^ (-53 : ℤ) := by norm_num
  have hlog : Real.log (9007199254740989 * 2 ^ (-53 : ℤ)) ≤ -3 * 2 ^ (-53 : ℤ) := by
    have := Real.log_le_sub_one_of_pos x0
    refine this.trans (by norm_num)
  have hlog2 : -1 ≤ Real.log (9007199254740989 * 2 ^ (-53 : ℤ)) := by
    have := Real.one_sub_inv_le_log_of_pos x0
    refine le_trans ?_ this
    norm_num
  have hlg : lg (9007199254740989 * 2 ^ (-53 : ℤ)) ≤ -(29 / 10) * 2 ^ (-53 : ℤ) ∧ -2 ≤ lg (9007199254740989 * 2 ^ (-53 : ℤ)) := by
    have h1 := _root_.abs_le.1 (hl _ x0)
    have l0 : Real.log (9007199254740989 * 2 ^ (-53 : ℤ)) < 0 := lt_of_le_of_lt hlog (by norm_num)
    rw [abs_of_neg l0] at h1
    have h3 : (2 : ℝ) ^ (-50 : ℤ) * -Real.log (9007199254740989 * 2 ^ (-53 : ℤ)) ≤ 1 / 100 * -Real.log (9007199254740989 * 2 ^ (-53 : ℤ)) := mul_le_mul_of_nonneg_right (by norm_num) (by linarith)
    have e5 : (2 : ℝ) ^ (-53 : ℤ) ≤ 1 := by norm_num
    have e6 := two_zpow_pos (-53)
    generalize Real.log (9007199254740989 * 2 ^ (-53 : ℤ)) = L at *
    generalize lg (9007199254740989 * 2 ^ (-53 : ℤ)) = l at *
    generalize (2 : ℝ) ^ (-50 : ℤ) * -L = w at *
    clear x0
    generalize (2 : ℝ) ^ (-53 : ℤ) = z at *
    constructor <;> linarith
  -- the terms
  have r17 : Rep (-17 * 2 ^ (-54 : ℤ)) := ⟨-17, -54, by norm_num, by norm_num, by norm_num, by norm_num⟩
  obtain ⟨p1, p2⟩ := upper_step h (x := 3 * lg (9007199254740989 * 2 ^ (-53 : ℤ))) r17 (le_trans (by norm_num : -(2 : ℝ) ^ (10 : ℤ) ≤ 3 * -2) (mul_le_mul_of_nonneg_left hlg.2 (by norm_num))) (by
    have := mul_le_mul_of_nonneg_left hlg.1 (by norm_num : (0 : ℝ) ≤ 3)
    refine this.trans ?_
    norm_num) (by norm_num)
  obtain ⟨q1, q2⟩ := upper_step h (x := rnd (3 * lg (9007199254740989 * 2 ^ (-53 : ℤ))) + 2 ^ (-50 : ℤ)) (y := -2 ^ (-54 : ℤ)) (rep_neg (rep_pow (by norm_num) (by norm_num)))
    (p2.trans (le_add_of_nonneg_right (two_zpow_pos _).le)) ((add_le_add p1 (le_refl _)).trans (by norm_num)) (by norm_num)
  obtain ⟨u1, u2⟩ := upper_step h (x := rnd (rnd (3 * lg (9007199254740989 * 2 ^ (-53 : ℤ))) + 2 ^ (-50 : ℤ)) + rnd (2 ^ (-100 : ℤ) / (8128997327403745 * 2 ^ (-48 : ℤ)))) (y := -2 ^ (-55 : ℤ))
    (rep_neg (rep_pow (by norm_num) (by norm_num))) (q2.trans (le_add_of_nonneg_right ft2.2)) ((add_le_add q1 ft2.1).trans (by norm_num)) (by norm_num)
  have hterms : gvTermsF rnd lg 3 3 (8128997327403745 * 2 ^ (-49 : ℤ)) (6755399441055746 * 2 ^ (-51 : ℤ)) < 0 := by
    unfold gvTermsF xlogyF
    rw [if_pos (by norm_num), if_neg (by norm_num), fx, fw, fv, fv2, f2s]
    generalize rnd (rnd (rnd (3 * lg (9007199254740989 * 2 ^ (-53 : ℤ))) + 2 ^ (-50 : ℤ)) + rnd (2 ^ (-100 : ℤ) / (8128997327403745 * 2 ^ (-48 : ℤ)))) = T at *
    have hx : |2 * T| ≤ 2 ^ (1023 : ℤ) := by
      refine le_trans (?_ : _ ≤ (2 : ℝ) ^ (11 : ℤ)) (zpow_le (by norm_num))
      rw [abs_of_nonpos (by have := u1.trans (by norm_num : -(2 : ℝ) ^ (-55 : ℤ) ≤ 0); linarith), show (2 : ℝ) ^ (11 : ℤ) = 2 * 2 ^ (10 : ℤ) by norm_num]
      linarith
    refine (h.le hx (rep_neg (rep_pow (p := -54) (by norm_num) (by norm_num))) ?_).trans_lt (neg_neg_of_pos (two_zpow_pos _))
    rw [show (2 : ℝ) ^ (-54 : ℤ) = 2 * 2 ^ (-55 : ℤ) by norm_num]
    linarith
  unfold gvF
  simp only [f3, fs, fs2]
  rw [hb0, hrad, if_neg (by norm_num), if_neg (by norm_num), if_neg (by norm_num), if_pos hterms]

/-- **C154 (deficit, refuted).** No counts over a background of 43 counts with the uncertainty of counts, its square root, is a deficit of more than six standard deviations.
The code gives NaN for it. -/
theorem C154_deficit_refuted {rnd lg} (h : Nearest rnd) : significanceGv 0 43 (rnd (Real.sqrt 43)) 1 < -6 ∧ gvF rnd lg 0 43 (rnd (Real.sqrt 43)) 1 = none := by
  have e0 : rnd (Real.sqrt 43) = 7383019423637856 * 2 ^ (-50 : ℤ) := by
    refine h.eq 7383019423637856 (-50) (by norm_num) (by norm_num) (by norm_num) (by norm_num) (by norm_num) ?_
    rw [abs_lt]
    constructor
    · have : (7383019423637856 * 2 ^ (-50 : ℤ) - 2 ^ (-50 - 1 : ℤ) : ℝ) < Real.sqrt 43 := by
        apply Real.lt_sqrt_of_sq_lt
        norm_num
      linarith
    · have : Real.sqrt 43 < (7383019423637856 * 2 ^ (-50 : ℤ) + 2 ^ (-50 - 1 : ℤ) : ℝ) := by
        rw [Real.sqrt_lt' (by norm_num)]
        norm_num
      linarith
  rw [e0]
  constructor
  · have hs0 : (0 : ℝ) < 7383019423637856 * 2 ^ (-50 : ℤ) := by norm_num
    obtain ⟨c1, c2, -, -, c5⟩ := C11_gv 0 43 (7383019423637856 * 2 ^ (-50 : ℤ)) 1 (le_refl _) hs0 one_pos
    have hneg := c5.2 (by norm_num)
    obtain ⟨b0, hb, -⟩ := C11_profile 0 (43 * 1) (7383019423637856 * 2 ^ (-50 : ℤ) * 1) (le_refl _) (by norm_num)
    have hlow : 20 ≤ gvTerms 0 (43 * 1) (7383019423637856 * 2 ^ (-50 : ℤ) * 1) := by
      rw [hb]
      unfold backLoss
      generalize gvBackground 0 (43 * 1) (7383019423637856 * 2 ^ (-50 : ℤ) * 1) = B at *
      rw [if_neg (lt_irrefl _), zero_add, sub_zero]
      have : (43 * 1 - B) ^ 2 / 87 ≤ (43 * 1 - B) ^ 2 / (2 * (7383019423637856 * 2 ^ (-50 : ℤ) * 1 : ℝ) ^ 2) :=
        div_le_div_of_nonneg_left (sq_nonneg _) (by norm_num) (by norm_num)
      nlinarith
    nlinarith
  have f43 : rnd ((43 : ℝ) * 1) = 43 := by rw [rnd_num h 43 0 (by norm_num) (by norm_num) (by norm_num) (by norm_num)]; norm_num
  have fs : rnd (7383019423637856 * 2 ^ (-50 : ℤ) * 1) = 7383019423637856 * 2 ^ (-50 : ℤ) := by
    rw [mul_one]; exact rnd_num h 7383019423637856 (-50) (by norm_num) (by norm_num) (by norm_num) (by norm_num)
  have fs2 : rnd (7383019423637856 * 2 ^ (-50 : ℤ) * (7383019423637856 * 2 ^ (-50 : ℤ))) = 6051711999279103 * 2 ^ (-47 : ℤ) :=
    h.eq 6051711999279103 (-47) (by norm_num) (by norm_num) (by norm_num) (by norm_num) (by norm_num) (by norm_num [abs_lt])
  have fs4 : rnd (6051711999279103 * 2 ^ (-47 : ℤ) * (6051711999279103 * 2 ^ (-47 : ℤ))) = 8131987999031293 * 2 ^ (-42 : ℤ) :=
    h.eq 8131987999031293 (-42) (by norm_num) (by norm_num) (by norm_num) (by norm_num) (by norm_num) (by norm_num [abs_lt])
  have fb2 : rnd ((43 : ℝ) * 43) = 1849 := by rw [rnd_num h 1849 0 (by norm_num) (by norm_num) (by norm_num) (by norm_num)]; norm_num
  have f86 : rnd ((2 : ℝ) * 43) = 86 := by rw [rnd_num h 86 0 (by norm_num) (by norm_num) (by norm_num) (by norm_num)]; norm_num
  have f0 : rnd ((4 : ℝ) * 0) = 0 := by rw [rnd_num h 0 0 (by norm_num) (by norm_num) (by norm_num) (by norm_num)]; norm_num
  have f00 : rnd (0 * (6051711999279103 * 2 ^ (-47 : ℤ))) = 0 := by rw [zero_mul]; exact rnd_num h 0 0 (by norm_num) (by norm_num) (by norm_num) (by norm_num)
  have fq : rnd (86 * (6051711999279103 * 2 ^ (-47 : ℤ))) = 8131987999031295 * 2 ^ (-41 : ℤ) :=
    h.eq 8131987999031295 (-41) (by norm_num) (by norm_num) (by norm_num) (by norm_num) (by norm_num) (by norm_num [abs_lt])
  have fr1 : rnd (1849 - 8131987999031295 * 2 ^ (-41 : ℤ)) = -8131987999031294 * 2 ^ (-42 : ℤ) :=
    h.eq (-8131987999031294) (-42) (by norm_num) (by norm_num) (by norm_num) (by norm_num) (by norm_num) (by norm_num [abs_lt])
  have fr2 : rnd (-8131987999031294 * 2 ^ (-42 : ℤ) + 0) = -8131987999031294 * 2 ^ (-42 : ℤ) := by
    rw [add_zero]; exact rnd_num h (-8131987999031294) (-42) (by norm_num) (by norm_num) (by norm_num) (by norm_num)
  have fr3 : rnd (-8131987999031294 * 2 ^ (-42 : ℤ) + 8131987999031293 * 2 ^ (-42 : ℤ)) = -2 ^ (-42 : ℤ) := by
    rw [rnd_num h (-1) (-42) (by norm_num) (by norm_num) (by norm_num) (by norm_num)]; norm_num
  have hrad : gvRadF rnd 0 43 (6051711999279103 * 2 ^ (-47 : ℤ)) = -2 ^ (-42 : ℤ) := by
    unfold gvRadF
    rw [fb2, f86, f0, fq, fr1, f00, fr2, fs4, fr3]
  unfold gvF
  simp only [f43, fs, fs2]
  rw [hrad, if_pos (neg_neg_of_pos (two_zpow_pos _))]

/-- **C154 (infinite, refuted).** One count over a background of zero with an uncertainty of 3 * 2^27 has a significance between zero and 2^-28.  The code gives infinity, which
reaches every threshold. -/
theorem C154_infinite_refuted {rnd lg} (h : Nearest rnd) : (0 ≤ significanceGv 1 0 (3 * 2 ^ (27 : ℤ)) 1 ∧ significanceGv 1 0 (3 * 2 ^ (27 : ℤ)) 1 ≤ 2 ^ (-28 : ℤ)) ∧
    gvF rnd lg 1 0 (3 * 2 ^ (27 : ℤ)) 1 = some ⊤ ∧ ∀ sig, reachesE sig (gvF rnd lg 1 0 (3 * 2 ^ (27 : ℤ)) 1) = true := by
  have hv : gvF rnd lg 1 0 (3 * 2 ^ (27 : ℤ)) 1 = some ⊤ := by
    have f0 : rnd ((0 : ℝ) * 1) = 0 := by rw [rnd_num h 0 0 (by norm_num) (by norm_num) (by norm_num) (by norm_num)]; norm_num
    have fs : rnd (3 * (2 : ℝ) ^ (27 : ℤ) * 1) = 3 * 2 ^ (27 : ℤ) := by rw [rnd_num h 3 27 (by norm_num) (by norm_num) (by norm_num) (by norm_num)]; norm_num
    have fs2 : rnd (3 * (2 : ℝ) ^ (27 : ℤ) * (3 * 2 ^ (27 : ℤ))) = 9 * 2 ^ (54 : ℤ) := by rw [rnd_num h 9 54 (by norm_num) (by norm_num) (by norm_num) (by norm_num)]; norm_num
    have fs4 : rnd (9 * (2 : ℝ) ^ (54 : ℤ) * (9 * 2 ^ (54 : ℤ))) = 81 * 2 ^ (108 : ℤ) := by rw [rnd_num h 81 108 (by norm_num) (by norm_num) (by norm_num) (by norm_num)]; norm_num
    have g0 : rnd ((0 : ℝ) * 0) = 0 := by rw [rnd_num h 0 0 (by norm_num) (by norm_num) (by norm_num) (by norm_num)]; norm_num
    have g1 : rnd ((2 : ℝ) * 0) = 0 := by rw [rnd_num h 0 0 (by norm_num) (by norm_num) (by norm_num) (by norm_num)]; norm_num
    have g2 : rnd ((0 : ℝ) * (9 * 2 ^ (54 : ℤ))) = 0 := by rw [zero_mul]; exact rnd_num h 0 0 (by norm_num) (by norm_num) (by norm_num) (by norm_num)
    have g3 : rnd ((0 : ℝ) - 0) = 0 := by rw [rnd_num h 0 0 (by norm_num) (by norm_num) (by norm_num) (by norm_num)]; norm_num
    have g4 : rnd ((4 : ℝ) * 1) = 4 := by rw [rnd_num h 4 0 (by norm_num) (by norm_num) (by norm_num) (by norm_num)]; norm_num
    have g5 : rnd ((4 : ℝ) * (9 * 2 ^ (54 : ℤ))) = 36 * 2 ^ (54 : ℤ) := by rw [rnd_num h 36 54 (by norm_num) (by norm_num) (by norm_num) (by norm_num)]; norm_num
    have g6 : rnd ((0 : ℝ) + 36 * 2 ^ (54 : ℤ)) = 36 * 2 ^ (54 : ℤ) := by rw [zero_add]; exact rnd_num h 36 54 (by norm_num) (by norm_num) (by norm_num) (by norm_num)
    have g7 : rnd (36 * (2 : ℝ) ^ (54 : ℤ) + 81 * 2 ^ (108 : ℤ)) = 81 * 2 ^ (108 : ℤ) :=
      h.eq (81 * 2 ^ 46) 62 (by norm_num) (by norm_num) (by norm_num) (by norm_num) (by norm_num) (by norm_num [abs_lt])
    have hrad : gvRadF rnd 1 0 (9 * 2 ^ (54 : ℤ)) = 81 * 2 ^ (108 : ℤ) := by
      unfold gvRadF
      rw [g0, g1, g2, g3, g4, g5, g6, fs4, g7]
    have hrt : rnd (Real.sqrt (81 * (2 : ℝ) ^ (108 : ℤ))) = 9 * 2 ^ (54 : ℤ) := by
      rw [show 81 * (2 : ℝ) ^ (108 : ℤ) = 9 * 2 ^ (54 : ℤ) * (9 * 2 ^ (54 : ℤ)) by norm_num, Real.sqrt_mul_self (by norm_num)]
      exact rnd_num h 9 54 (by norm_num) (by norm_num) (by norm_num) (by norm_num)
    have g8 : rnd ((0 : ℝ) - 9 * 2 ^ (54 : ℤ)) = -(9 * 2 ^ (54 : ℤ)) := by rw [zero_sub]; exact rnd_num h (-9) 54 (by norm_num) (by norm_num) (by norm_num) (by norm_num)
    have g9 : rnd (-(9 * (2 : ℝ) ^ (54 : ℤ)) + 9 * 2 ^ (54 : ℤ)) = 0 := by rw [neg_add_cancel]; exact rnd_num h 0 0 (by norm_num) (by norm_num) (by norm_num) (by norm_num)
    have g10 : rnd ((1 / 2 : ℝ) * 0) = 0 := by rw [rnd_num h 0 0 (by norm_num) (by norm_num) (by norm_num) (by norm_num)]; norm_num
    have hb0 : gvBackF rnd 1 0 (9 * 2 ^ (54 : ℤ)) = 0 := by
      unfold gvBackF
      rw [hrad, hrt, g8, g9, g10, max_self]
    unfold gvF
    simp only [f0, fs, fs2]
    rw [hb0, hrad, if_neg (by norm_num), if_neg (by norm_num), if_pos ⟨one_pos, rfl⟩, gvInf, if_pos (by norm_num)]
  refine ⟨?_, hv, fun sig => ?_⟩
  · have hs0 : (0 : ℝ) < 3 * 2 ^ (27 : ℤ) := by norm_num
    obtain ⟨-, hb, hmin⟩ := C11_profile 1 (0 * 1) (3 * 2 ^ (27 : ℤ) * 1) zero_le_one (by norm_num)
    have h1 := hmin 1 zero_le_one (fun _ => one_pos)
    rw [← hb] at h1
    unfold significanceGv
    rw [if_pos (by norm_num), one_mul]
    refine ⟨Real.sqrt_nonneg _, ?_⟩
    rw [Real.sqrt_le_left (by norm_num)]
    have h2 : backLoss 1 (0 * 1) (3 * 2 ^ (27 : ℤ) * 1) 1 = 1 / 9 * 2 ^ (-55 : ℤ) := by
      unfold backLoss
      rw [if_pos one_pos, div_one, Real.log_one]
      norm_num
    rw [h2] at h1
    refine (mul_le_mul_of_nonneg_left h1 (by norm_num)).trans ?_
    norm_num
  · rw [hv]; simp [reachesE]

example := C154_exact (n := 7) (b := 3) (s := 1) (a := 1 / 2) (by norm_num) one_pos (by norm_num)
example := (C154_zero_refuted (n := 7) (b := 3) (a := 1 / 2) (by norm_num) (by norm_num)).1 (by norm_num)
example := (C154_zero_refuted (n := 7) (b := -3) (a := 1 / 2) (by norm_num) (by norm_num)).2 (by norm_num)
example := C154_grouping [20, 20] [5, 5] [1, 2] exRatio 3 (by norm_num) (by norm_num) (fun a b hab hb => by rw [exRatio_half hab hb]; norm_num)
example := C154_refuted leftNearest exLog_ok
example := C154_deficit_refuted (lg := Real.log) leftNearest
example := C154_infinite_refuted (lg := Real.log) leftNearest

/-- **C154 (equality, refuted).** One count over a background of one count has significance zero, and one count over a background of two has a negative one; with an uncertainty of
3 * 2^27 the code gives plus infinity for the first, which reaches every threshold, and minus infinity for the second. -/
theorem C154_equality_refuted {rnd lg} (h : Nearest rnd) :
    (significanceGv 1 1 (3 * 2 ^ (27 : ℤ)) 1 = 0 ∧ gvF rnd lg 1 1 (3 * 2 ^ (27 : ℤ)) 1 = some ⊤ ∧
      ∀ sig, reachesE sig (gvF rnd lg 1 1 (3 * 2 ^ (27 : ℤ)) 1) = true) ∧
    significanceGv 1 2 (3 * 2 ^ (27 : ℤ)) 1 < 0 ∧ gvF rnd lg 1 2 (3 * 2 ^ (27 : ℤ)) 1 = some ⊥ := by
  have fs : rnd (3 * (2 : ℝ) ^ (27 : ℤ) * 1) = 3 * 2 ^ (27 : ℤ) := by rw [rnd_num h 3 27 (by norm_num) (by norm_num) (by norm_num) (by norm_num)]; norm_num
  have fs2 : rnd (3 * (2 : ℝ) ^ (27 : ℤ) * (3 * 2 ^ (27 : ℤ))) = 9 * 2 ^ (54 : ℤ) := by rw [rnd_num h 9 54 (by norm_num) (by norm_num) (by norm_num) (by norm_num)]; norm_num
  have fs4 : rnd (9 * (2 : ℝ) ^ (54 : ℤ) * (9 * 2 ^ (54 : ℤ))) = 81 * 2 ^ (108 : ℤ) := by rw [rnd_num h 81 108 (by norm_num) (by norm_num) (by norm_num) (by norm_num)]; norm_num
  have g4 : rnd ((4 : ℝ) * 1) = 4 := by rw [rnd_num h 4 0 (by norm_num) (by norm_num) (by norm_num) (by norm_num)]; norm_num
  have g5 : rnd ((4 : ℝ) * (9 * 2 ^ (54 : ℤ))) = 36 * 2 ^ (54 : ℤ) := by rw [rnd_num h 36 54 (by norm_num) (by norm_num) (by norm_num) (by norm_num)]; norm_num
  have hrt : rnd (Real.sqrt (81 * (2 : ℝ) ^ (108 : ℤ))) = 9 * 2 ^ (54 : ℤ) := by
    rw [show 81 * (2 : ℝ) ^ (108 : ℤ) = 9 * 2 ^ (54 : ℤ) * (9 * 2 ^ (54 : ℤ)) by norm_num, Real.sqrt_mul_self (by norm_num)]
    exact rnd_num h 9 54 (by norm_num) (by norm_num) (by norm_num) (by norm_num)
  have g9 : rnd (-(9 * (2 : ℝ) ^ (54 : ℤ)) + 9 * 2 ^ (54 : ℤ)) = 0 := by rw [neg_add_cancel]; exact rnd_num h 0 0 (by norm_num) (by norm_num) (by norm_num) (by norm_num)
  have g10 : rnd ((1 / 2 : ℝ) * 0) = 0 := by rw [rnd_num h 0 0 (by norm_num) (by norm_num) (by norm_num) (by norm_num)]; norm_num
  have h1 : gvF rnd lg 1 1 (3 * 2 ^ (27 : ℤ)) 1 = some ⊤ := by
    have f0 : rnd ((1 : ℝ) * 1) = 1 := by rw [rnd_num h 1 0 (by norm_num) (by norm_num) (by norm_num) (by norm_num)]; norm_num
    have g1 : rnd ((2 : ℝ) * 1) = 2 := by rw [rnd_num h 2 0 (by norm_num) (by norm_num) (by norm_num) (by norm_num)]; norm_num
    have g2 : rnd ((2 : ℝ) * (9 * 2 ^ (54 : ℤ))) = 18 * 2 ^ (54 : ℤ) := by rw [rnd_num h 18 54 (by norm_num) (by norm_num) (by norm_num) (by norm_num)]; norm_num
    have g3 : rnd ((1 : ℝ) - 18 * 2 ^ (54 : ℤ)) = -18 * 2 ^ (54 : ℤ) :=
      h.eq (-(18 * 2 ^ 48)) 6 (by norm_num) (by norm_num) (by norm_num) (by norm_num) (by norm_num) (by norm_num [abs_lt])
    have g6 : rnd (-18 * 2 ^ (54 : ℤ) + 36 * (2 : ℝ) ^ (54 : ℤ)) = 18 * 2 ^ (54 : ℤ) := by
      rw [rnd_num h 18 54 (by norm_num) (by norm_num) (by norm_num) (by norm_num)]; norm_num
    have g7 : rnd (18 * (2 : ℝ) ^ (54 : ℤ) + 81 * 2 ^ (108 : ℤ)) = 81 * 2 ^ (108 : ℤ) :=
      h.eq (81 * 2 ^ 46) 62 (by norm_num) (by norm_num) (by norm_num) (by norm_num) (by norm_num) (by norm_num [abs_lt])
    have g8 : rnd ((1 : ℝ) - 9 * 2 ^ (54 : ℤ)) = -(9 * 2 ^ (54 : ℤ)) :=
      h.eq (-(9 * 2 ^ 49)) 5 (by norm_num) (by norm_num) (by norm_num) (by norm_num) (by norm_num) (by norm_num [abs_lt])
    have hrad : gvRadF rnd 1 1 (9 * 2 ^ (54 : ℤ)) = 81 * 2 ^ (108 : ℤ) := by
      unfold gvRadF
      rw [f0, g1, g2, g3, g4, g5, g6, fs4, g7]
    have hb0 : gvBackF rnd 1 1 (9 * 2 ^ (54 : ℤ)) = 0 := by
      unfold gvBackF
      rw [hrad, hrt, g8, g9, g10, max_self]
    unfold gvF
    simp only [f0, fs, fs2]
    rw [hb0, hrad, if_neg (by norm_num), if_neg (by norm_num), if_pos ⟨one_pos, rfl⟩, gvInf, if_pos le_rfl]
  have h2 : gvF rnd lg 1 2 (3 * 2 ^ (27 : ℤ)) 1 = some ⊥ := by
    have f0 : rnd ((2 : ℝ) * 1) = 2 := by rw [rnd_num h 2 0 (by norm_num) (by norm_num) (by norm_num) (by norm_num)]; norm_num
    have f1 : rnd ((2 : ℝ) * 2) = 4 := by rw [rnd_num h 4 0 (by norm_num) (by norm_num) (by norm_num) (by norm_num)]; norm_num
    have g3 : rnd ((4 : ℝ) - 36 * 2 ^ (54 : ℤ)) = -36 * 2 ^ (54 : ℤ) :=
      h.eq (-(36 * 2 ^ 47)) 7 (by norm_num) (by norm_num) (by norm_num) (by norm_num) (by norm_num) (by norm_num [abs_lt])
    have g6 : rnd (-36 * 2 ^ (54 : ℤ) + 36 * (2 : ℝ) ^ (54 : ℤ)) = 0 := by
      rw [rnd_num h 0 0 (by norm_num) (by norm_num) (by norm_num) (by norm_num)]; norm_num
    have g7 : rnd ((0 : ℝ) + 81 * 2 ^ (108 : ℤ)) = 81 * 2 ^ (108 : ℤ) := by
      rw [zero_add]; exact rnd_num h 81 108 (by norm_num) (by norm_num) (by norm_num) (by norm_num)
    have g8 : rnd ((2 : ℝ) - 9 * 2 ^ (54 : ℤ)) = -(9 * 2 ^ (54 : ℤ)) :=
      h.eq (-(9 * 2 ^ 49)) 5 (by norm_num) (by norm_num) (by norm_num) (by norm_num) (by norm_num) (by norm_num [abs_lt])
    have hrad : gvRadF rnd 1 2 (9 * 2 ^ (54 : ℤ)) = 81 * 2 ^ (108 : ℤ) := by
      unfold gvRadF
      rw [f1, g4, g5, g3, g6, fs4, g7]
    have hb0 : gvBackF rnd 1 2 (9 * 2 ^ (54 : ℤ)) = 0 := by
      unfold gvBackF
      rw [hrad, hrt, g8, g9, g10, max_self]
    unfold gvF
    simp only [f0, fs, fs2]
    rw [hb0, hrad, if_neg (by norm_num), if_neg (by norm_num), if_pos ⟨one_pos, rfl⟩, gvInf, if_neg (by norm_num)]
  exact ⟨⟨(C11_gv 1 1 _ 1 zero_le_one (by norm_num) one_pos).2.2.1.2 (by norm_num), h1, fun sig => by rw [h1]; simp [reachesE]⟩,
    (C11_gv 1 2 _ 1 zero_le_one (by norm_num) one_pos).2.2.2.2.2 (by norm_num), h2⟩

example := C154_equality_refuted (lg := Real.log) leftNearest

/-- **C154 (last channel, refuted).** Without rounding: the first of two channels reaches the threshold, the last one has an uncertainty of zero.  Its significance is undefined, so it is
not joined to the group before, as a last channel below the threshold is, but stays a group of its own that fails the final test. -/
theorem C154_last_refuted {n₀ n₁ b₀ b₁ s₀ sig : ℝ} (h₀ : 0 ≤ n₀) (h₁ : 0 ≤ n₁) (hb : 0 ≤ b₁) (hs : 0 < s₀) (hsig : 0 < sig) (hok : sig ≤ significanceGv n₀ b₀ s₀ 1) :
    groupSigGvF id Real.log [n₀, n₁] [b₀, b₁] [s₀, 0] (fun _ _ => 1) sig = .ok ([1, 1], false) := by
  have e1 : gvF id Real.log n₀ b₀ s₀ 1 = some (significanceGv n₀ b₀ s₀ 1 : EReal) := C154_exact h₀ hs one_pos
  have e2 : gvF id Real.log n₁ b₁ 0 1 = none := (C154_zero_refuted h₁ one_pos).1 hb
  unfold groupSigGvF
  rw [if_neg (by simp), if_neg (not_le.2 hsig), if_neg (by simp)]
  dsimp only
  have p : ∀ x y : ℝ, intervalSum (prefixSum [x, y]) 0 1 = x ∧ intervalSum (prefixSum [x, y]) 1 2 = y := by
    intro x y
    rw [intervalSum_prefix _ (by norm_num) (by simp), intervalSum_prefix _ (by norm_num) (by simp)]
    constructor <;> simp [total]
  have hsq : ([s₀, 0] : List ℝ).map (fun x => x * x) = [s₀ * s₀, 0] := by simp
  have hrt : Real.sqrt (s₀ * s₀) = s₀ := Real.sqrt_mul_self hs.le
  have hloop : greedyLoopE (fun i j : ℕ => gvF id Real.log (intervalSum (prefixSum [n₀, n₁]) i j) (intervalSum (prefixSum [b₀, b₁]) i j)
      (id (Real.sqrt (intervalSum (prefixSum (([s₀, 0] : List ℝ).map fun x => x * x)) i j))) 1) sig ([n₀, n₁] : List ℝ).length 0 0 [0] = [1, 0] := by
    show greedyLoopE _ _ (0 + 2) 0 0 [0] = [1, 0]
    unfold greedyLoopE
    rw [hsq, zero_add, (p n₀ n₁).1, (p b₀ b₁).1, (p (s₀ * s₀) 0).1, hrt, id, e1, if_pos (by simpa [reachesE] using hok)]
    unfold greedyLoopE
    rw [show (1 + 1 : ℕ) = 2 from rfl, (p n₀ n₁).2, (p b₀ b₁).2, (p (s₀ * s₀) 0).2, Real.sqrt_zero, id, e2]
    simp [fallsE]
  rw [hloop]
  have hr : ∀ x y : ℝ, Elisa.reduceat [x, y] [0, 1] = [x, y] := by intro x y; simp [Elisa.reduceat, sliceSum]
  rw [show ([1, 0] : List ℕ).reverse = [0, 1] from rfl, hr, hr, hsq, hr]
  congr 2
  simp [edges, reachesE, e2]

example : ∃ sig, 0 < sig ∧ groupSigGvF id Real.log [5, 1000] [1, 0] [1, 0] (fun _ _ => 1) sig = .ok ([1, 1], false) := by
  have h := (C11_gv 5 1 1 1 (by norm_num) one_pos one_pos).2.2.2.1.2 (by norm_num)
  exact ⟨_, h, C154_last_refuted (by norm_num) (by norm_num) le_rfl one_pos h le_rfl⟩

end Elisa.Grouping.Fl
