import Verif.Infer.FloatWProps

/-!
# The W-statistic in floating point: the statistic (C153)
-/

namespace Elisa.Infer.Fl

open Elisa Elisa.Infer Elisa.Grouping.Fl

/-! ## The rate of the source region -/

theorem onRate_near {rnd} (h : Nearest rnd) {s s' a b b' η : ℝ} (s0 : 0 ≤ s) (a0 : 0 ≤ a) (b0 : 0 ≤ b) (hη : η ≤ 1 / 8) (hA : |s' - s| + a * |b' - b| ≤ η * (s + a * b))
    (h1 : 2 ^ (-700 : ℤ) ≤ s + a * b) (h2 : s + a * b ≤ 2 ^ (700 : ℤ)) : Rl (η + 2 * 2 ^ (-52 : ℤ)) (onRate rnd s' a b') (s + a * b) := by
  have hz := two_zpow_pos (-52)
  have hz1 : (2 : ℝ) ^ (-52 : ℤ) ≤ 1 / 1000 := by norm_num
  have μ0 : 0 ≤ s + a * b := (two_zpow_pos _).le.trans h1
  have hab : |a * b' - a * b| = a * |b' - b| := by rw [← mul_sub, abs_mul, abs_of_nonneg a0]
  have hm : η * (s + a * b) ≤ 1 / 8 * (s + a * b) := mul_le_mul_of_nonneg_right hη μ0
  have hb' : |a * b'| ≤ 5 / 4 * (s + a * b) := by
    have k := abs_add_le (a * b' - a * b) (a * b)
    rw [sub_add_cancel, hab, abs_of_nonneg (mul_nonneg a0 b0)] at k
    have := abs_nonneg (s' - s)
    clear h1 h2 hz1 hz
    linarith
  have hr := absstep' h hb' h1 h2
  have hR : Rl (η + 2 ^ (-52 : ℤ)) (s' + rnd (a * b')) (s + a * b) := by
    unfold Rl
    rw [show s' + rnd (a * b') - (s + a * b) = (s' - s) + ((rnd (a * b') - a * b') + (a * b' - a * b)) by ring]
    refine (abs_add_le _ _).trans ((add_le_add (le_refl _) (abs_add_le _ _)).trans ?_)
    rw [hab, add_mul]
    clear h1 h2
    linarith
  have := hR.rnd h h1 h2 (by linarith)
  unfold onRate
  rwa [add_assoc, ← two_mul] at this

/-! ## A region without counts -/

theorem poissonF_zero {rnd lg} (h : Nearest rnd) (sparse : Bool) {b : ℝ} (hr : Rep b) (hb : |b| ≤ 2 ^ (1023 : ℤ)) : poissonF rnd lg sparse 0 b = min (-b) 0 := by
  have f0 : rnd 0 = 0 := h.fix rep_zero (by rw [abs_zero]; exact (two_zpow_pos _).le)
  have fb : rnd (-b) = -b := h.fix (rep_neg hr) (by rwa [abs_neg])
  cases sparse
  · simp [poissonF, xlogyF, gofF, f0, fb]
  · simp [poissonF]

theorem poisson_zero (b : ℝ) : poissonLogProb 0 b = min (-b) 0 := by simp [poissonLogProb, Grouping.xlogy]

theorem poissonF_nonpos (rnd lg : ℝ → ℝ) (sparse : Bool) (v rate : ℝ) : poissonF rnd lg sparse v rate ≤ 0 := by
  unfold poissonF
  split <;> exact min_le_right _ _

/-! ## One channel -/

/-- One Poisson term at a rate that is itself computed. -/
theorem term_error {rnd lg} (h : Nearest rnd) (hl : Accurate lg) (sparse : Bool) {n : ℕ} {m μ e : ℝ} (hn : n ≤ 2 ^ 53) (h1 : 2 ^ (-150 : ℤ) ≤ μ) (h2 : μ ≤ 2 ^ (56 : ℤ)) (he : e ≤ 1 / 2)
    (hr : Rl e m μ) : |poissonF rnd lg sparse n m - poissonLogProb n μ| ≤ (64 * 2 ^ (-52 : ℤ) + 2 * e) * bulk n μ := by
  have μ0 : 0 < μ := (two_zpow_pos _).trans_le h1
  have m1 : (2 : ℝ) ^ (-200 : ℤ) ≤ m := by
    have := hr.bounds.1
    refine le_trans ?_ this
    refine le_trans ?_ (mul_le_mul (by rw [zpow_neg_one]; linarith : (2 : ℝ) ^ (-1 : ℤ) ≤ 1 - e) h1 (two_zpow_pos _).le (by linarith))
    rw [← zpow_add₀ (by norm_num)]
    exact zpow_le (by norm_num)
  have m2 : m ≤ (2 : ℝ) ^ (60 : ℤ) := by
    refine hr.bounds.2.trans ((mul_le_mul (by rw [zpow_one]; linarith : 1 + e ≤ (2 : ℝ) ^ (1 : ℤ)) h2 μ0.le (two_zpow_pos _).le).trans ?_)
    rw [← zpow_add₀ (by norm_num)]
    exact zpow_le (by norm_num)
  have hch := (C149_channel h hl sparse n hn m1 m2).1
  have hbn := bulk_near (n := n) μ0 he hr
  have hex := exact_near (n := n) μ0 he hr
  refine (abs_sub_le _ (poissonLogProb n m) _).trans ((add_le_add hch hex).trans ?_)
  refine (add_le_add (mul_le_mul_of_nonneg_left hbn (two_zpow_pos _).le) (le_refl _)).trans (le_of_eq ?_)
  rw [show (2 : ℝ) ^ (-47 : ℤ) = 32 * 2 ^ (-52 : ℤ) by norm_num]
  ring

theorem w_channel {rnd lg} (h : Nearest rnd) (hl : Accurate lg) (sparse : Bool) {s s' a ε : ℝ} {n m : ℕ} (hs : 2 ^ (-100 : ℤ) ≤ s ∧ s ≤ 2 ^ (50 : ℤ))
    (ha : 2 ^ (-30 : ℤ) ≤ a ∧ a ≤ 2 ^ (30 : ℤ)) (hn : n ≤ 2 ^ 53) (hm : m ≤ 2 ^ 53) (hε0 : 0 ≤ ε) (hss : Rl ε s' s)
    (hloss : (5 * ε + 32 * 2 ^ (-52 : ℤ)) * (1 + loss s n m a) ≤ 1 / 16) :
    |wLoglikeF rnd lg sparse s' n m a - (poissonLogProb n (s + a * wstatBackground s n m a) + poissonLogProb m (wstatBackground s n m a))|
      ≤ (70 * 2 ^ (-52 : ℤ) + 3 * ((5 * ε + 32 * 2 ^ (-52 : ℤ)) * (1 + loss s n m a))) * (bulk n (s + a * wstatBackground s n m a) + bulk m (wstatBackground s n m a)) ∧
    wLoglikeF rnd lg sparse s' n m a ≤ 0 ∧
    2 ^ (-200 : ℤ) ≤ bulk n (s + a * wstatBackground s n m a) + bulk m (wstatBackground s n m a) ∧
    bulk n (s + a * wstatBackground s n m a) + bulk m (wstatBackground s n m a) ≤ 2 ^ (101 : ℤ) ∧
    |poissonLogProb n (s + a * wstatBackground s n m a) + poissonLogProb m (wstatBackground s n m a)| ≤
      bulk n (s + a * wstatBackground s n m a) + bulk m (wstatBackground s n m a) := by
  obtain ⟨hA, hM, hZ, b0, b1, b2⟩ := wstat_near h hs ha hn hm hε0 hss (hloss.trans (by norm_num))
  have hz := two_zpow_pos (-52)
  have hz1 : (2 : ℝ) ^ (-52 : ℤ) ≤ 1 / 10000 := by norm_num
  have a0 : 0 < a := (two_zpow_pos _).trans_le ha.1
  have s0 : 0 < s := (two_zpow_pos _).trans_le hs.1
  have l0 : 0 ≤ loss s n m a := by
    unfold loss
    split
    · exact le_refl _
    · positivity
  have hη0 : 0 ≤ (5 * ε + 32 * 2 ^ (-52 : ℤ)) * (1 + loss s n m a) := by positivity
  have hnr : (n : ℝ) ≤ 2 ^ (53 : ℤ) := by exact_mod_cast hn
  have hmr : (m : ℝ) ≤ 2 ^ (53 : ℤ) := by exact_mod_cast hm
  have hnm : (n : ℝ) + m ≤ 2 ^ (54 : ℤ) := (add_le_add hnr hmr).trans (by norm_num)
  have n0 : (0 : ℝ) ≤ n := Nat.cast_nonneg n
  generalize wstatBackground s n m a = b at *
  generalize (5 * ε + 32 * 2 ^ (-52 : ℤ)) * (1 + loss s n m a) = η at *
  have ab0 := mul_nonneg a0.le b0
  have μ1 : 2 ^ (-100 : ℤ) ≤ s + a * b := hs.1.trans (by linarith)
  have μ2 : s + a * b ≤ (2 : ℝ) ^ (55 : ℤ) := (add_le_add hs.2 (b2.trans hnm)).trans (by norm_num)
  have μ0 : 0 < s + a * b := (two_zpow_pos _).trans_le μ1
  have hon := onRate_near h s0.le a0.le b0 (hloss.trans (by norm_num)) hA ((zpow_le (by norm_num)).trans μ1) (μ2.trans (zpow_le (by norm_num)))
  have hη2 : η + 2 * 2 ^ (-52 : ℤ) ≤ 1 / 2 := by
    clear μ1 μ2 hs ha hnr hmr hnm hon
    generalize (2 : ℝ) ^ (-52 : ℤ) = z at *
    linarith
  have E1 := term_error h hl sparse hn ((zpow_le (by norm_num)).trans μ1) (μ2.trans (zpow_le (by norm_num))) hη2 hon
  have B1 := bulk_bounds hn ((zpow_le (by norm_num)).trans μ1) (μ2.trans (zpow_le (by norm_num)))
  have X1 := exact_le (n := n) μ0
  have hnB : (n : ℝ) ≤ bulk n (s + a * b) := by
    unfold bulk
    have := mul_nonneg n0 (abs_nonneg (Real.log (s + a * b)))
    have := mul_nonneg n0 (abs_nonneg (Real.log (n : ℝ)))
    linarith
  have B10 : 0 ≤ bulk n (s + a * b) := n0.trans hnB
  have hbm : b ≤ bulk m b := by
    unfold bulk
    have m0 : (0 : ℝ) ≤ m := Nat.cast_nonneg m
    have := mul_nonneg m0 (abs_nonneg (Real.log b))
    have := mul_nonneg m0 (abs_nonneg (Real.log (m : ℝ)))
    linarith
  have B20 : 0 ≤ bulk m b := b0.trans hbm
  -- the term of the background region
  have hoff : |poissonF rnd lg sparse m (wback rnd s' n m a) - poissonLogProb m b| ≤ η * bulk n (s + a * b) + (64 * 2 ^ (-52 : ℤ) + 2 * η) * bulk m b ∧ bulk m b ≤ 2 ^ (100 : ℤ) ∧
      |poissonLogProb m b| ≤ bulk m b := by
    rcases Nat.eq_zero_or_pos m with hm0 | hm0
    · obtain ⟨q1, q2⟩ := hZ hm0
      subst hm0
      have hb54 : b ≤ (2 : ℝ) ^ (54 : ℤ) := b1.trans hnm
      have hsmall : |wback rnd s' n (0 : ℕ) a| ≤ 2 ^ (1023 : ℤ) := by
        have k := abs_add_le (wback rnd s' n (0 : ℕ) a - b) b
        rw [sub_add_cancel, abs_of_nonneg b0] at k
        have k2 : η * n ≤ 1 * 2 ^ (54 : ℤ) := mul_le_mul (hloss.trans (by norm_num)) (hnr.trans (zpow_le (by norm_num))) n0 (by norm_num)
        rw [one_mul] at k2
        refine (k.trans (add_le_add (q1.trans k2) hb54)).trans ?_
        rw [← two_mul, show (2 : ℝ) * 2 ^ (54 : ℤ) = 2 ^ (55 : ℤ) by norm_num]
        exact zpow_le (by norm_num)
      rw [Nat.cast_zero] at *
      have hbk : bulk 0 b = b := by simp [bulk]
      rw [poissonF_zero h sparse q2 hsmall, poisson_zero, hbk]
      refine ⟨(min_lip _ _).trans ?_, hb54.trans (zpow_le (by norm_num)), ?_⟩
      · rw [show -wback rnd s' n 0 a - -b = -(wback rnd s' n 0 a - b) by ring, abs_neg]
        refine q1.trans ((mul_le_mul_of_nonneg_left hnB hη0).trans ?_)
        have : 0 ≤ (64 * 2 ^ (-52 : ℤ) + 2 * η) * b := by positivity
        exact le_add_of_nonneg_right this
      · rw [min_eq_left (by linarith), abs_neg, abs_of_nonneg b0]
    · obtain ⟨q1, q2⟩ := hM hm0
      have hb56 : b ≤ (2 : ℝ) ^ (56 : ℤ) := b1.trans (hnm.trans (zpow_le (by norm_num)))
      have E2 := term_error h hl sparse hm q2 hb56 (hloss.trans (by norm_num)) q1
      refine ⟨E2.trans ?_, (bulk_bounds hm ((zpow_le (by norm_num)).trans q2) (hb56.trans (zpow_le (by norm_num)))).2, exact_le ((two_zpow_pos _).trans_le q2)⟩
      exact le_add_of_nonneg_left (mul_nonneg hη0 B10)
  obtain ⟨E2, B2, X2⟩ := hoff
  have W1 : 2 ^ (-200 : ℤ) ≤ bulk n (s + a * b) + bulk m b := B1.1.trans (le_add_of_nonneg_right B20)
  have W2 : bulk n (s + a * b) + bulk m b ≤ 2 ^ (101 : ℤ) := (add_le_add B1.2 B2).trans (by norm_num)
  have X : |poissonLogProb n (s + a * b) + poissonLogProb m b| ≤ bulk n (s + a * b) + bulk m b := (abs_add_le _ _).trans (add_le_add X1 X2)
  have E : |poissonF rnd lg sparse n (onRate rnd s' a (wback rnd s' n m a)) + poissonF rnd lg sparse m (wback rnd s' n m a) - (poissonLogProb n (s + a * b) + poissonLogProb m b)|
      ≤ (68 * 2 ^ (-52 : ℤ) + 3 * η) * (bulk n (s + a * b) + bulk m b) := by
    rw [add_sub_add_comm]
    refine (abs_add_le _ _).trans ((add_le_add E1 E2).trans ?_)
    clear W1 W2 B1 B2 E1 E2 hs ha μ1 μ2 hnr hmr hnm hon
    generalize (2 : ℝ) ^ (-52 : ℤ) = z at *
    generalize bulk n (s + a * b) = P at *
    generalize bulk m b = Q at *
    nlinarith [mul_nonneg hη0 B20, mul_nonneg hz.le B20]
  have hneg : poissonF rnd lg sparse n (onRate rnd s' a (wback rnd s' n m a)) + poissonF rnd lg sparse m (wback rnd s' n m a) ≤ 0 :=
    add_nonpos (poissonF_nonpos ..) (poissonF_nonpos ..)
  have hW0 := add_nonneg B10 B20
  have hsize : |poissonF rnd lg sparse n (onRate rnd s' a (wback rnd s' n m a)) + poissonF rnd lg sparse m (wback rnd s' n m a)| ≤ 5 / 4 * (bulk n (s + a * b) + bulk m b) := by
    have k := abs_sub_abs_le_abs_sub (poissonF rnd lg sparse n (onRate rnd s' a (wback rnd s' n m a)) + poissonF rnd lg sparse m (wback rnd s' n m a))
      (poissonLogProb n (s + a * b) + poissonLogProb m b)
    have k2 : (68 * 2 ^ (-52 : ℤ) + 3 * η) * (bulk n (s + a * b) + bulk m b) ≤ 1 / 4 * (bulk n (s + a * b) + bulk m b) := by
      refine mul_le_mul_of_nonneg_right ?_ hW0
      clear W1 W2 B1 B2 E E1 E2 hs ha μ1 μ2 hnr hmr hnm hon k
      generalize (2 : ℝ) ^ (-52 : ℤ) = z at *
      linarith
    have k3 := E.trans k2
    clear W1 W2 B1 B2 E E1 E2 hs ha μ1 μ2 hnr hmr hnm hon k2
    linarith
  have hr := absstep' h hsize ((zpow_le (by norm_num)).trans W1) (W2.trans (zpow_le (by norm_num)))
  unfold wLoglikeF
  refine ⟨?_, ?_, W1, W2, X⟩
  · refine (abs_sub_le _ _ _).trans ((add_le_add hr E).trans ?_)
    rw [← add_mul]
    refine mul_le_mul_of_nonneg_right ?_ hW0
    clear W1 W2 B1 B2 E E1 E2 hs ha μ1 μ2 hnr hmr hnm hon hr
    generalize (2 : ℝ) ^ (-52 : ℤ) = z at *
    linarith
  · refine h.le ?_ rep_zero hneg
    refine hsize.trans ((mul_le_mul_of_nonneg_left W2 (by norm_num)).trans ?_)
    refine le_trans (?_ : _ ≤ (2 : ℝ) ^ (102 : ℤ)) (zpow_le (by norm_num))
    norm_num

/-! ## The statistic -/

/-- The profile background of a channel in exact arithmetic (likelihood.py:89-133, 419). -/
noncomputable def profiled (d : FitData) (b : FitBack) (unfold : List ℝ) (j : ℕ) : ℝ := wstatBackground (d.sourceCounts unfold j) (nth d.specCounts j) (nth b.counts j) (nth b.ratio j)

/-- The expected source counts of a channel relative to the background counts in its source region, where both regions have counts (specification, C153). -/
noncomputable def lossAt (d : FitData) (b : FitBack) (unfold : List ℝ) (j : ℕ) : ℝ := loss (d.sourceCounts unfold j) (nth d.specCounts j) (nth b.counts j) (nth b.ratio j)

/-- The size of the terms of the W-statistic of a channel (specification, C153): of the source region and of the background region. -/
noncomputable def sizeAt (d : FitData) (b : FitBack) (unfold : List ℝ) (j : ℕ) : ℝ :=
  bulk (nth d.specCounts j) (d.sourceCounts unfold j + nth b.ratio j * profiled d b unfold j) + bulk (nth b.counts j) (profiled d b unfold j)

theorem w_at {rnd lg} (h : Nearest rnd) (hl : Accurate lg) (sparse : Bool) {d : FitData} {b : FitBack} {unfold : List ℝ} {progs : ℕ → Prog} (hs : Folded d unfold progs) {j : ℕ}
    (hj : j < d.size) (ha : 2 ^ (-30 : ℤ) ≤ nth b.ratio j ∧ nth b.ratio j ≤ 2 ^ (30 : ℤ))
    (hn : ∃ n m : ℕ, nth d.specCounts j = n ∧ n ≤ 2 ^ 53 ∧ nth b.counts j = m ∧ m ≤ 2 ^ 53)
    (hloss : (5 * (((progs j).size : ℝ) + 3) + 32) * 2 ^ (-52 : ℤ) * (1 + lossAt d b unfold j) ≤ 1 / 16) :
    |wLoglikeF rnd lg sparse (counts rnd (progs j) (nth d.areaScale j) d.exposure) (nth d.specCounts j) (nth b.counts j) (nth b.ratio j) -
      (poissonLogProb (nth d.specCounts j) (d.sourceCounts unfold j + nth b.ratio j * profiled d b unfold j) + poissonLogProb (nth b.counts j) (profiled d b unfold j))|
      ≤ (70 * 2 ^ (-52 : ℤ) + 3 * ((5 * ((((progs j).size : ℝ) + 3) * 2 ^ (-52 : ℤ)) + 32 * 2 ^ (-52 : ℤ)) * (1 + lossAt d b unfold j))) * sizeAt d b unfold j ∧
    wLoglikeF rnd lg sparse (counts rnd (progs j) (nth d.areaScale j) d.exposure) (nth d.specCounts j) (nth b.counts j) (nth b.ratio j) ≤ 0 ∧
    2 ^ (-200 : ℤ) ≤ sizeAt d b unfold j ∧ sizeAt d b unfold j ≤ 2 ^ (101 : ℤ) ∧
    |poissonLogProb (nth d.specCounts j) (d.sourceCounts unfold j + nth b.ratio j * profiled d b unfold j) + poissonLogProb (nth b.counts j) (profiled d b unfold j)| ≤
      sizeAt d b unfold j := by
  obtain ⟨n, m, en, hn2, em, hm2⟩ := hn
  have hK := (hs.way j hj).2
  have hc := C147_counts h d unfold j (progs j) (hs.way j hj).1 (hK.trans (by norm_num)) (hs.response j hj) hs.model (hs.area j hj) hs.exposure
    ((hs.rate j hj).trans (zpow_le (by norm_num)))
  have eb := exact_counts_bounds d unfold j
  unfold lossAt at *
  unfold sizeAt profiled
  rw [en, em, show (5 * (((progs j).size : ℝ) + 3) + 32) * 2 ^ (-52 : ℤ) = 5 * ((((progs j).size : ℝ) + 3) * 2 ^ (-52 : ℤ)) + 32 * 2 ^ (-52 : ℤ) by ring] at hloss
  rw [en, em]
  exact w_channel h hl sparse (s := d.sourceCounts unfold j) (a := nth b.ratio j) ⟨le_trans (by norm_num) eb.1, eb.2.trans (by norm_num)⟩ ha hn2 hm2
    (by positivity : 0 ≤ (((progs j).size : ℝ) + 3) * 2 ^ (-52 : ℤ)) hc hloss

/-- **C153.** The W-statistic of a data set as computed in float64, from the product with the response to the profile background and the sum over the channels, differs from the exact
one by at most `2 ^ -50` times the sum over the channels of the size of their terms, times the number of operations a channel goes through (eight times the photon bins, the channels
and about a hundred more), times one more than the source counts relative to the background counts in the source region (for channels with counts in both regions), in whatever
order the sums are taken.  The last factor is the loss of digits in the numerator of the profile background; that it can be complete is C146. -/
theorem C153_wstat {F : Impl} (h : F.Legal) {lg : ℝ → ℝ} (hl : Accurate lg) (sparse : Bool) {d : FitData} {b : FitBack} {unfold : List ℝ} {progs : ℕ → Prog}
    (hs : Folded d unfold progs) (hback : d.back = some b) (ha : ∀ j < d.size, 2 ^ (-30 : ℤ) ≤ nth b.ratio j ∧ nth b.ratio j ≤ 2 ^ (30 : ℤ))
    (hn : ∀ j < d.size, ∃ n m : ℕ, nth d.specCounts j = n ∧ n ≤ 2 ^ 53 ∧ nth b.counts j = m ∧ m ≤ 2 ^ 53)
    (hloss : ∀ j < d.size, (5 * (((progs j).size : ℝ) + 3) + 32) * 2 ^ (-52 : ℤ) *
      (1 + lossAt d b unfold j) ≤ 1 / 16)
    {sites : Sites} (hsites : likelihood .wstat d unfold = .ok sites) :
    |wDevianceF F lg sparse d b progs - (deviance (getLoglike [sites])).total| ≤
      ((List.range d.size).map fun j : ℕ => (8 * ((progs j).size : ℝ) + 75 + d.size + 39) * 2 ^ (-50 : ℤ) *
        ((1 + lossAt d b unfold j) * sizeAt d b unfold j)).sum := by
  have hex : (deviance (getLoglike [sites])).total = -2 * ((List.range d.size).map fun j : ℕ =>
      poissonLogProb (nth d.specCounts j) (d.sourceCounts unfold j + nth b.ratio j * profiled d b unfold j) +
      poissonLogProb (nth b.counts j) (profiled d b unfold j)).sum := by
    simp only [likelihood, hback, Except.ok.injEq] at hsites
    subst hsites
    simp only [deviance, getLoglike, List.map_cons, List.map_nil, List.flatten_cons, List.flatten_nil, List.append_nil]
    congr 2
    apply List.map_congr_left
    intro j hj
    have hj' := List.mem_range.1 hj
    simp [nth, hj', profiled]
  rw [hex]
  have hN : Nearest F.rnd := h.nearest
  have hmain := fun j (hj : j < d.size) => w_at hN hl sparse hs hj (ha j hj) (hn j hj) (hloss j hj)
  have l0 : ∀ j < d.size, 0 ≤ lossAt d b unfold j := fun j hj => by
    obtain ⟨n, m, en, hn2, em, hm2⟩ := hn j hj
    have a0 : 0 < nth b.ratio j := (two_zpow_pos _).trans_le (ha j hj).1
    have s0 : 0 < d.sourceCounts unfold j := lt_of_lt_of_le (by norm_num) (exact_counts_bounds d unfold j).1
    unfold lossAt
    rw [em]
    unfold loss
    split
    · exact le_refl _
    · positivity
  have hbd : ∀ j < d.size, 8 * ((progs j).size : ℝ) + 75 ≤ 2 ^ 49 ∧ 1 + lossAt d b unfold j ≤ 2 ^ (50 : ℤ) := fun j hj => by
    have hl' := hloss j hj
    have hl0 := l0 j hj
    generalize lossAt d b unfold j = l at *
    have K0 : (0 : ℝ) ≤ (progs j).size := Nat.cast_nonneg _
    generalize ((progs j).size : ℝ) = K at *
    have e : (2 : ℝ) ^ (-52 : ℤ) * 2 ^ 52 = 1 := by norm_num
    have h1 : (5 * (K + 3) + 32) * (1 + l) ≤ 2 ^ 48 := by
      have := mul_le_mul_of_nonneg_right hl' (by norm_num : (0 : ℝ) ≤ 2 ^ 52)
      rw [show (5 * (K + 3) + 32) * (2 : ℝ) ^ (-52 : ℤ) * (1 + l) * 2 ^ 52 = (5 * (K + 3) + 32) * (1 + l) * ((2 : ℝ) ^ (-52 : ℤ) * 2 ^ 52) by ring, e, mul_one] at this
      exact this.trans (by norm_num)
    have h2 := mul_nonneg K0 hl0
    constructor
    · norm_num at h1 ⊢
      linarith
    · norm_num at h1 ⊢
      linarith
  refine statistic_error h (K := fun j => 8 * ((progs j).size : ℝ) + 75) hs.channels (fun j hj => ⟨by positivity, (hbd j hj).1⟩) (fun j hj => ?_)
    (fun j hj => (hmain j hj).2.1) (fun j hj => ?_) (fun j hj => ?_)
  · refine (hmain j hj).1.trans ?_
    have hl0 := l0 j hj
    have hW : 0 ≤ sizeAt d b unfold j :=
      (two_zpow_pos _).le.trans (hmain j hj).2.2.1
    refine le_trans (mul_le_mul_of_nonneg_right ?_ hW) (le_of_eq (mul_assoc _ _ _))
    rw [show (2 : ℝ) ^ (-51 : ℤ) = 2 * 2 ^ (-52 : ℤ) by norm_num]
    have hz := two_zpow_pos (-52)
    generalize lossAt d b unfold j = l at *
    have K0 : (0 : ℝ) ≤ (progs j).size := Nat.cast_nonneg _
    generalize ((progs j).size : ℝ) = K at *
    generalize (2 : ℝ) ^ (-52 : ℤ) = z at *
    have q1 := mul_nonneg (mul_nonneg K0 hl0) hz.le
    have q2 := mul_nonneg hl0 hz.le
    have q3 := mul_nonneg K0 hz.le
    nlinarith
  · have hl0 := l0 j hj
    have w1 := (hmain j hj).2.2.1
    have w2 := (hmain j hj).2.2.2.1
    have hW := (two_zpow_pos _).le.trans w1
    constructor
    · refine le_trans ((zpow_le (by norm_num)).trans w1) ?_
      exact le_mul_of_one_le_left hW (by linarith)
    · refine (mul_le_mul (hbd j hj).2 w2 hW (two_zpow_pos _).le).trans ?_
      rw [← zpow_add₀ (by norm_num)]
      exact zpow_le (by norm_num)
  · have hl0 := l0 j hj
    have hW := (two_zpow_pos _).le.trans (hmain j hj).2.2.1
    exact (hmain j hj).2.2.2.2.trans (le_mul_of_one_le_left hW (by linarith))

/-! ## A concrete case -/

set_option exponentiation.threshold 400 in
/-- Three counts and a background of eight counts at a ratio of one quarter. -/
theorem exLoss : lossAt { exFold with back := some exBack } exBack [4, 5] 0 ≤ 1000 := by
  have : FitData.sourceCounts { exFold with back := some exBack } [4, 5] 0 ≤ 1000 := by
    norm_num [FitData.sourceCounts, FitData.sourceRate, exFold, nth, clip, List.range_succ]
  unfold lossAt loss
  norm_num [exBack, exFold, nth] at *
  linarith

example := C153_wstat (b := exBack) leftImpl_legal exLog_ok true exFolded' rfl (fun j hj => by obtain rfl := exOne j hj; norm_num [exBack, nth])
  (fun j hj => by obtain rfl := exOne j hj; exact ⟨3, 8, by simp [exFold, nth], by norm_num, by simp [exBack, nth], by norm_num⟩)
  (fun j hj => by
    obtain rfl := exOne j hj
    refine (mul_le_mul_of_nonneg_left (add_le_add (le_refl 1) exLoss) (by positivity)).trans ?_
    norm_num [Prog.size]) rfl

end Elisa.Infer.Fl
