import Verif.Grouping.SigLemmas
import Mathlib.Tactic.Linarith
import Mathlib.Tactic.NormNum
import Mathlib.Tactic.Positivity

/-!
# Properties C05, C06: significance groupings

Specification vocabulary: `ValidFlags`, `IsGroup`, `total` (`Spec.lean`), `SigSpec`, `OptSigSpec`,
`FirstClose`, `FirstOptClose` (`SigLemmas.lean`), `OptimalEnd` (`Props.lean`).
-/

namespace Elisa.Grouping

open Elisa

/-- Total variance of channels `a..b-1`. -/
noncomputable def variance (errors : List ℝ) (a b : Nat) : ℝ := total (errors.map fun e => e * e) a b

/-- Channels `a..b-1` reach Li-Ma significance `sig` with the ratio of that interval. -/
def LimaMeets (on off : List ℝ) (d : RatioData) (sig : ℝ) (a b : Nat) : Prop :=
  sig ≤ significanceLima (total on a b) (total off a b) (d.ratio a b)

/-- Channels `a..b-1` reach the Poisson-Gauss significance `sig`. -/
def GvMeets (n b s : List ℝ) (d : RatioData) (sig : ℝ) (i j : Nat) : Prop :=
  sig ≤ significanceGv (total n i j) (total b i j) (Real.sqrt (variance s i j)) (d.ratio i j)

/-- Channels `a..b-1` have at least `sig` standard deviations of counts. -/
def NormalMeets (count error : List ℝ) (sig : ℝ) (a b : Nat) : Prop :=
  sig * Real.sqrt (variance error a b) ≤ total count a b

/-- The stopping condition of the normal grouping: the threshold is met with a non-zero error. -/
def NormalCloses (count error : List ℝ) (sig : ℝ) (a b : Nat) : Prop :=
  NormalMeets count error sig a b ∧ 0 < variance error a b

/-- Scale arrays for the examples: three channels of unit scale. -/
noncomputable def exRatio : RatioData :=
  let one : ScaleGroupData ℝ := ⟨[1, 1, 1], [1, 1, 1], [1, 1, 1], [1, 1, 1], [1, 1, 1], [1, 1, 1]⟩
  ⟨1, 2, one, one, one, one⟩

/-- **C05 (Li-Ma).** -/
theorem C05_group_sig_lima (on off : List ℝ) (d : RatioData) (sig : ℝ) (hl : on.length = off.length)
    (hsig : 0 < sig) (hne : on ≠ []) :
    ∃ flags success, groupSigLima on off d sig = .ok (flags, success) ∧
      SigSpec on.length (LimaMeets on off d sig) (LimaMeets on off d sig) flags success := by
  have hnd : 0 < on.length := List.length_pos_of_ne_nil hne
  refine ⟨_, _, by rw [groupSigLima, if_neg (not_not.2 hl), if_neg (not_le.2 hsig), if_neg hne], ?_⟩
  apply greedy_spec hnd
  · intro a b hab hb
    unfold limaOk LimaMeets
    rw [intervalSum_prefix on hab.le hb, intervalSum_prefix off hab.le (by omega), decide_eq_true_eq]
  · exact limaSuccess_iff hl (greedy_out _ hnd).desc

example := C05_group_sig_lima [5, 0, 9] [3, 1, 2] exRatio 3 rfl (by norm_num) (by simp)

/-- **C05 (Poisson data, Gaussian background).** -/
theorem C05_group_sig_gv (n b s : List ℝ) (d : RatioData) (sig : ℝ) (hl : n.length = b.length)
    (hl2 : b.length = s.length) (hsig : 0 < sig) (hne : n ≠ []) :
    ∃ flags success, groupSigGv n b s d sig = .ok (flags, success) ∧
      SigSpec n.length (GvMeets n b s d sig) (GvMeets n b s d sig) flags success := by
  have hnd : 0 < n.length := List.length_pos_of_ne_nil hne
  refine ⟨_, _, by rw [groupSigGv, if_neg (not_not.2 ⟨hl, hl2⟩), if_neg (not_le.2 hsig), if_neg hne], ?_⟩
  apply greedy_spec hnd
  · intro i j hij hj
    unfold gvOk GvMeets variance
    rw [intervalSum_prefix n hij.le hj, intervalSum_prefix b hij.le (by omega),
      intervalSum_prefix _ hij.le (by rw [List.length_map]; omega), decide_eq_true_eq]
  · exact gvSuccess_iff hl hl2 (greedy_out _ hnd).desc

example := C05_group_sig_gv [5, 0, 9] [3, 1, 2] [1, 1, 1] exRatio 3 rfl rfl (by norm_num) (by simp)

/-- **C05 (normal).**  The groups close at the first channel where the threshold is met with a
non-zero error; success means that every group meets the threshold. -/
theorem C05_group_sig_normal (count error : List ℝ) (sig : ℝ) (hl : count.length = error.length)
    (hsig : 0 < sig) (hne : count ≠ []) :
    ∃ flags success, groupSigNormal count error sig = .ok (flags, success) ∧
      SigSpec count.length (NormalCloses count error sig) (NormalMeets count error sig)
        flags success := by
  have hnd : 0 < count.length := List.length_pos_of_ne_nil hne
  refine ⟨_, _, by rw [groupSigNormal, if_neg (not_not.2 hl), if_neg (not_le.2 hsig), if_neg hne], ?_⟩
  have hz : (List.zip count error).length = count.length := by simp [hl]
  rw [normalLoop_eq sig count error (List.zip count error) 0 0 0 0 [0] (le_refl _) (by simp)
    (by simp) (by simp), hz]
  apply greedy_spec hnd
  · intro a b hab hb
    unfold NormalCloses NormalMeets variance
    rw [decide_eq_true_eq, sub_nonneg]
  · exact normalSuccess_iff hl (greedy_out _ hnd).desc

example := C05_group_sig_normal [1, 3, 9] [1, 1, 2] 2 rfl (by norm_num) (by simp)

/-- **C05 (rejections).** -/
theorem C05_rejects (on off : List ℝ) (d : RatioData) (sig : ℝ)
    (h : on.length ≠ off.length ∨ sig ≤ 0 ∨ on = []) :
    ∃ e, groupSigLima on off d sig = .error e := by
  unfold groupSigLima
  by_cases h1 : on.length = off.length
  · by_cases h2 : sig ≤ 0
    · exact ⟨_, by rw [if_neg (not_not.2 h1), if_pos h2]⟩
    · have h3 : on = [] := by
        rcases h with h | h | h
        · exact absurd h1 h
        · exact absurd h h2
        · exact h
      exact ⟨_, by rw [if_neg (not_not.2 h1), if_neg h2, if_pos h3]⟩
  · exact ⟨_, by rw [if_pos h1]⟩

/-- Non-vacuity of C05: with these three channels the first two are needed to reach 2 sigma. -/
example : NormalCloses [1, 3, 9] [1, 1, 2] 2 0 2 ∧ ¬ NormalCloses [1, 3, 9] [1, 1, 2] 2 0 1 := by
  have e1 : total ([1, 3, 9] : List ℝ) 0 2 = 4 := by rw [total_eq_sliceSum]; norm_num [sliceSum]
  have e2 : variance [1, 1, 2] 0 2 = 2 := by
    unfold variance; rw [total_eq_sliceSum]; norm_num [sliceSum]
  have e3 : total ([1, 3, 9] : List ℝ) 0 1 = 1 := by rw [total_eq_sliceSum]; norm_num [sliceSum]
  have e4 : variance [1, 1, 2] 0 1 = 1 := by
    unfold variance; rw [total_eq_sliceSum]; norm_num [sliceSum]
  unfold NormalCloses NormalMeets
  rw [e1, e2, e3, e4]
  refine ⟨⟨?_, by norm_num⟩, ?_⟩
  · have : Real.sqrt 2 ≤ 2 := by
      rw [Real.sqrt_le_left (by norm_num)]; norm_num
    linarith
  · rintro ⟨h, _⟩
    rw [Real.sqrt_one] at h
    linarith

/-! ## C06 -/

/-- **C06 (Li-Ma).** -/
theorem C06_group_optsig_lima (bint : List Nat) (on off : List ℝ) (d : RatioData) (sig : ℝ)
    (hlb : bint.length = on.length) (hl : on.length = off.length) (hsig : 0 < sig) (hne : bint ≠ [])
    (hb : ∀ x ∈ bint, 1 ≤ x) :
    ∃ flags success, groupOptsigLima bint on off d sig = .ok (flags, success) ∧
      OptSigSpec bint (LimaMeets on off d sig) (LimaMeets on off d sig) flags success := by
  have hnd : 0 < bint.length := List.length_pos_of_ne_nil hne
  refine ⟨_, _, by rw [groupOptsigLima, if_neg (not_not.2 ⟨hlb, hl⟩), if_neg (not_le.2 hsig)], ?_⟩
  have hb' : ∀ k, k ≤ bint.length - 1 → 1 ≤ bint.getD k 0 := fun k hk => getD_one_le hb hk hnd
  refine opt_spec (ok := limaOk on off d sig) hnd hb ?_
    (fun i j => sigExtend (limaOk on off d sig) (bint.length - j) i j) (fun _ _ => rfl) ?_
  · intro a b hab hbl
    unfold limaOk LimaMeets
    rw [intervalSum_prefix on hab.le (by omega), intervalSum_prefix off hab.le (by omega),
      decide_eq_true_eq]
  · have hd := (opt_out (fun i j => sigExtend (limaOk on off d sig) (bint.length - j) i j) bint hnd (by
      intro i j hi h
      have h' := sigExtend_some h
      have h1 := le_optWidth (bint := bint) (imax := bint.length - 1) (i := i) (by omega) hb'
      have h2 := optWidth_le (bint := bint) (imax := bint.length - 1) (i := i)
      omega)).desc
    rw [hlb] at hd ⊢
    exact limaSuccess_iff hl hd

example := C06_group_optsig_lima [2, 1, 3] [5, 0, 9] [3, 1, 2] exRatio 3 rfl rfl (by norm_num) (by simp) (by decide)

/-- **C06 (Poisson data, Gaussian background).** -/
theorem C06_group_optsig_gv (bint : List Nat) (n b s : List ℝ) (d : RatioData) (sig : ℝ)
    (hlb : bint.length = n.length) (hl : n.length = b.length) (hl2 : b.length = s.length)
    (hsig : 0 < sig) (hne : bint ≠ []) (hb : ∀ x ∈ bint, 1 ≤ x) :
    ∃ flags success, groupOptsigGv bint n b s d sig = .ok (flags, success) ∧
      OptSigSpec bint (GvMeets n b s d sig) (GvMeets n b s d sig) flags success := by
  have hnd : 0 < bint.length := List.length_pos_of_ne_nil hne
  refine ⟨_, _, by rw [groupOptsigGv, if_neg (not_not.2 ⟨hlb, hl, hl2⟩), if_neg (not_le.2 hsig)], ?_⟩
  have hb' : ∀ k, k ≤ bint.length - 1 → 1 ≤ bint.getD k 0 := fun k hk => getD_one_le hb hk hnd
  refine opt_spec (ok := gvOk n b s d sig) hnd hb ?_
    (fun i j => sigExtend (gvOk n b s d sig) (bint.length - j) i j) (fun _ _ => rfl) ?_
  · intro i j hij hj
    unfold gvOk GvMeets variance
    rw [intervalSum_prefix n hij.le (by omega), intervalSum_prefix b hij.le (by omega),
      intervalSum_prefix _ hij.le (by rw [List.length_map]; omega), decide_eq_true_eq]
  · have hd := (opt_out (fun i j => sigExtend (gvOk n b s d sig) (bint.length - j) i j) bint hnd (by
      intro i j hi h
      have h' := sigExtend_some h
      have h1 := le_optWidth (bint := bint) (imax := bint.length - 1) (i := i) (by omega) hb'
      have h2 := optWidth_le (bint := bint) (imax := bint.length - 1) (i := i)
      omega)).desc
    rw [hlb] at hd ⊢
    exact gvSuccess_iff hl hl2 hd

example := C06_group_optsig_gv [2, 1, 3] [5, 0, 9] [3, 1, 2] [1, 1, 1] exRatio 3 rfl rfl rfl (by norm_num) (by simp) (by decide)

/-- The stopping condition that `group_optsig_normal` really uses: with the optimal bin ending at
`w`, the error of `a..b-1` is taken as the **sum** of the errors of `a..w` and `w+1..b-1`. -/
def NormalLinCloses (bint : List Nat) (count error : List ℝ) (sig : ℝ) (a b : Nat) : Prop :=
  ∃ w, OptimalEnd bint a w ∧
    sig * (Real.sqrt (variance error a (w + 1)) + Real.sqrt (variance error (w + 1) b))
      ≤ total count a b ∧
    0 < Real.sqrt (variance error a (w + 1)) + Real.sqrt (variance error (w + 1) b)

/-- **C06 (normal), partial.**  The grouping is a partition, success means that every group meets the
threshold, every group but the last meets it.  Missing with respect to C06: the group does not stop
at the *first* such channel, because the stopping condition overestimates the error
(`C06_optsig_normal_refuted`); it stops at the first channel where that stronger condition holds. -/
theorem C06_group_optsig_normal_partial (bint : List Nat) (count error : List ℝ) (sig : ℝ)
    (hlb : bint.length = count.length) (hl : count.length = error.length) (hsig : 0 < sig)
    (hne : bint ≠ []) (hb : ∀ x ∈ bint, 1 ≤ x) :
    ∃ flags success, groupOptsigNormal bint count error sig = .ok (flags, success) ∧
      OptSigSpec bint (NormalLinCloses bint count error sig) (NormalMeets count error sig) flags
        success ∧
      ∀ a b, IsGroup flags a b → b < bint.length → NormalCloses count error sig a b := by
  have hnd : 0 < bint.length := List.length_pos_of_ne_nil hne
  have hb' : ∀ k, k ≤ bint.length - 1 → 1 ≤ bint.getD k 0 := fun k hk => getD_one_le hb hk hnd
  have hspec : OptSigSpec bint (NormalLinCloses bint count error sig) (NormalMeets count error sig)
      (setFlags bint.length (optLoop (optNormalExtend count error sig) bint bint.length bint.length 0
        []).reverse)
      (normalSuccess count error sig (optLoop (optNormalExtend count error sig) bint bint.length
        bint.length 0 []).reverse) := by
    have hexteq : ∀ i, i < bint.length → _ := fun i hi =>
      optNormalExtend_eq bint count error sig hlb hl i (le_optWidth (by omega) hb') hnd
    refine opt_spec (ok := normalLinOk bint count error sig) hnd hb ?_ _ hexteq ?_
    · intro a b hab hbl
      have hopt := optimalEnd_optWidth hb (i := a) (by omega)
      unfold normalLinOk NormalLinCloses variance
      simp only [decide_eq_true_eq, sub_nonneg]
      constructor
      · intro h
        exact ⟨_, hopt, h⟩
      · rintro ⟨w, hw, h⟩
        rw [hw.unique hopt] at h
        exact h
    · have hd := (opt_out (optNormalExtend count error sig) bint hnd (by
        intro i j hi h
        rw [hexteq i hi] at h
        have h' := sigExtend_some h
        have h1 := le_optWidth (bint := bint) (imax := bint.length - 1) (i := i) (by omega) hb'
        have h2 := optWidth_le (bint := bint) (imax := bint.length - 1) (i := i)
        omega)).desc
      rw [hlb] at hd ⊢
      exact normalSuccess_iff hl hd
  refine ⟨_, _, by rw [groupOptsigNormal, if_neg (not_not.2 ⟨hlb, hl⟩), if_neg (not_le.2 hsig)],
    hspec, ?_⟩
  intro a b hab hbl
  obtain ⟨w, hw, hwb, ⟨w', hw', h1, h2⟩, _⟩ := hspec.minimal a b hab hbl
  have hww := hw'.unique hw
  subst hww
  have haw : a ≤ w' := hw.1.1
  have hsplit : variance error a b = variance error a (w' + 1) + variance error (w' + 1) b :=
    (total_append _ (by omega) (by omega)).symm
  have n1 : 0 ≤ variance error a (w' + 1) := total_sq_nonneg error _ _
  have n2 : 0 ≤ variance error (w' + 1) b := total_sq_nonneg error _ _
  constructor
  · refine le_trans ?_ h1
    apply mul_le_mul_of_nonneg_left _ hsig.le
    rw [hsplit]
    rw [Real.sqrt_le_iff]
    refine ⟨by positivity, ?_⟩
    nlinarith [Real.sq_sqrt n1, Real.sq_sqrt n2, mul_nonneg (Real.sqrt_nonneg (variance error a (w' + 1)))
      (Real.sqrt_nonneg (variance error (w' + 1) b))]
  · rw [hsplit]
    by_contra hc
    have z1 : variance error a (w' + 1) = 0 := by linarith
    have z2 : variance error (w' + 1) b = 0 := by linarith
    rw [z1, z2] at h2
    simp at h2

example := C06_group_optsig_normal_partial [2, 1, 3] [1, 3, 9] [1, 1, 2] 2 rfl rfl (by norm_num) (by simp) (by decide)

theorem optimalEnd_ones {n a w : Nat} (ha : a < n) :
    OptimalEnd (List.replicate n 1) a w ↔ w = a := by
  have h : OptimalEnd (List.replicate n 1) a a := by
    refine ⟨⟨le_refl _, by simpa using ha, ?_⟩, ?_⟩
    · intro k h1 h2
      have : k = a := by omega
      subst this
      simp [List.getD, ha]
    · rintro j ⟨h1, h2, h3⟩
      have := h3 a (le_refl _) h1
      simp [List.getD, ha] at this
      exact this
  constructor
  · intro h'; exact h'.unique h
  · rintro rfl; exact h

/-- **C06 refuted for the normal significance.**  With `bint = [1,1,1,1]`, counts `[1, 2.5, 10, 10]`,
errors `[2, 2, 1, 1]` and `sig = 1`, the first two channels already reach the threshold
(`3.5 ≥ √8`) but the code extends the first group to three channels. -/
theorem C06_optsig_normal_refuted :
    ∃ flags success, groupOptsigNormal [1, 1, 1, 1] [1, 5 / 2, 10, 10] [2, 2, 1, 1] 1
        = .ok (flags, success) ∧
      IsGroup flags 0 3 ∧ NormalCloses [1, 5 / 2, 10, 10] [2, 2, 1, 1] 1 0 2 ∧
      ¬ OptSigSpec [1, 1, 1, 1] (NormalCloses [1, 5 / 2, 10, 10] [2, 2, 1, 1] 1)
        (NormalMeets [1, 5 / 2, 10, 10] [2, 2, 1, 1] 1) flags success := by
  obtain ⟨flags, success, h1, h2, _⟩ := C06_group_optsig_normal_partial [1, 1, 1, 1]
    [1, 5 / 2, 10, 10] [2, 2, 1, 1] 1 rfl rfl one_pos (by simp) (by simp)
  have hopt : ∀ a w, a < 4 → (OptimalEnd [1, 1, 1, 1] a w ↔ w = a) := fun a w ha =>
    optimalEnd_ones (n := 4) ha
  have c : ∀ a b, total ([1, 5 / 2, 10, 10] : List ℝ) a b =
      sliceSum ([1, 5 / 2, 10, 10] : List ℝ) a b := total_eq_sliceSum _
  have v : ∀ a b, variance [2, 2, 1, 1] a b = sliceSum ([4, 4, 1, 1] : List ℝ) a b := by
    intro a b; unfold variance; rw [total_eq_sliceSum]; norm_num
  have s4 : Real.sqrt 4 = 2 := by
    rw [show (4 : ℝ) = 2 ^ 2 by norm_num, Real.sqrt_sq (by norm_num)]
  -- the conservative condition holds for [0, 3) and [3, 4) but not for [0, 1) and [0, 2)
  have n1 : ¬ NormalLinCloses [1, 1, 1, 1] [1, 5 / 2, 10, 10] [2, 2, 1, 1] 1 0 1 := by
    rintro ⟨w, hw, h, _⟩
    rw [hopt 0 w (by omega)] at hw; subst hw
    rw [c, v, v] at h
    norm_num [sliceSum, s4] at h
  have n2 : ¬ NormalLinCloses [1, 1, 1, 1] [1, 5 / 2, 10, 10] [2, 2, 1, 1] 1 0 2 := by
    rintro ⟨w, hw, h, _⟩
    rw [hopt 0 w (by omega)] at hw; subst hw
    rw [c, v, v] at h
    norm_num [sliceSum, s4] at h
  have s5 : Real.sqrt 5 ≤ 3 := by rw [Real.sqrt_le_left (by norm_num)]; norm_num
  have y3 : NormalLinCloses [1, 1, 1, 1] [1, 5 / 2, 10, 10] [2, 2, 1, 1] 1 0 3 := by
    refine ⟨0, (hopt 0 0 (by omega)).2 rfl, ?_, ?_⟩
    · rw [c, v, v]
      norm_num [sliceSum, s4]
      linarith
    · rw [v, v]
      norm_num [sliceSum, s4]
      positivity
  have y4 : NormalLinCloses [1, 1, 1, 1] [1, 5 / 2, 10, 10] [2, 2, 1, 1] 1 3 4 := by
    refine ⟨3, (hopt 3 3 (by omega)).2 rfl, ?_, ?_⟩
    · rw [c, v, v]
      norm_num [sliceSum]
    · rw [v, v]
      norm_num [sliceSum]
  have hfirst : ∀ b, FirstOptClose [1, 1, 1, 1]
      (NormalLinCloses [1, 1, 1, 1] [1, 5 / 2, 10, 10] [2, 2, 1, 1] 1) 0 b → b = 3 := by
    rintro b ⟨w, hw, h3, h4, h5⟩
    rw [hopt 0 w (by omega)] at hw; subst hw
    by_contra hb
    rcases lt_or_gt_of_ne hb with hb | hb
    · have : b = 1 ∨ b = 2 := by omega
      rcases this with rfl | rfl
      · exact n1 h4
      · exact n2 h4
    · exact h5 3 (by omega) hb y3
  have hquad : NormalCloses [1, 5 / 2, 10, 10] [2, 2, 1, 1] 1 0 2 := by
    unfold NormalCloses NormalMeets
    rw [c, v]
    norm_num [sliceSum]
    rw [Real.sqrt_le_left (by norm_num)]
    norm_num
  have h0 : IsStart flags 0 := ⟨1, h2.valid.first, by decide⟩
  have hlen : flags.length = 4 := h2.valid.length
  obtain ⟨a, b, hab⟩ := exists_kth h0 (k := 0)
    (List.length_pos_of_mem (mem_groupIdx.2 h0))
  have ha : a = 0 := by
    have := hab.2
    by_contra hc
    have h3 : (0 : Nat) ∈ (List.range a).filter (startB flags) := by
      rw [List.mem_filter]
      exact ⟨List.mem_range.2 (by omega), startB_iff.2 h0⟩
    rw [filter_take_length flags a (by have := hab.1.1; have := hab.1.2.1; omega)] at this
    have := List.length_pos_of_mem h3
    omega
  subst ha
  have hgrp : IsGroup flags 0 3 := by
    have hble := hab.1.2.1
    by_cases hb4 : b < 4
    · have := hfirst b (h2.minimal 0 b hab.1 hb4)
      subst this; exact hab.1
    · exfalso
      have : b = 4 := by omega
      subst this
      rcases h2.last 0 hab.1 with h | ⟨e, he, h, h'⟩ | ⟨_, w, hw, h⟩
      · have : (4 : Nat) = 3 := hfirst 4 h
        omega
      · have := hfirst e h; subst this
        obtain ⟨w, hw, h6⟩ := h'
        rw [hopt 3 w (by omega)] at hw; subst hw
        exact h6 4 (by omega) (le_refl _) y4
      · rw [hopt 0 w (by omega)] at hw; subst hw
        exact h 3 (by omega) (by decide) y3
  refine ⟨flags, success, h1, hgrp, hquad, ?_⟩
  intro hs
  obtain ⟨w, hw, _, _, h5⟩ := hs.minimal 0 3 hgrp (by decide)
  rw [hopt 0 w (by omega)] at hw; subst hw
  exact h5 2 (by omega) (by omega) hquad

end Elisa.Grouping
