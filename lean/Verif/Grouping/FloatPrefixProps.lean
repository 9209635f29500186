import Verif.Grouping.FloatPrefix
import Verif.Grouping.FloatNormalProps
import Verif.Grouping.FloatGvProps

/-!
# Sums over intervals of channels in float64 (C157)
-/

namespace Elisa.Grouping.Fl

open Elisa Elisa.Grouping Elisa.Infer.Fl

/-! ## Prefix sums -/

theorem cumsumFrom_get (F : Impl) : ∀ (xs : List ℝ) (acc : ℝ) (k : ℕ), k < xs.length →
    (F.cumsumFrom acc xs).getD k 0 = (xs.take (k + 1)).foldl (fun a x => F.rnd (a + x)) acc
  | [], _, _, h => absurd h (by simp)
  | x :: xs, acc, 0, _ => by simp [Impl.cumsumFrom]
  | x :: xs, acc, k + 1, h => by
    rw [Impl.cumsumFrom, List.getD_cons_succ, cumsumFrom_get F xs _ k (by simpa using h), List.take_succ_cons, List.foldl_cons]

theorem prefix_get {F : Impl} (h : F.Legal) {xs : List ℝ} (hx : ∀ x ∈ xs, Rep x ∧ |x| ≤ 2 ^ (1023 : ℤ)) {k : ℕ} (hk : k ≤ xs.length) :
    (F.prefixSum xs).getD k 0 = running F.rnd (xs.take k) := by
  cases k with
  | zero => simp [Impl.prefixSum, running]
  | succ k =>
    rw [Impl.prefixSum, List.getD_cons_succ]
    cases xs with
    | nil => simp at hk
    | cons x xs =>
      have h0 : F.rnd (0 + x) = x := by
        rw [zero_add]
        exact Nearest.fix h.nearest (hx x List.mem_cons_self).1 (hx x List.mem_cons_self).2
      rw [Impl.cumsum, List.take_succ_cons, running, List.foldl_cons, h0]
      cases k with
      | zero => simp
      | succ k => rw [List.getD_cons_succ, cumsumFrom_get F xs x k (by simpa using hk)]

theorem running_split (rnd : ℝ → ℝ) (xs : List ℝ) {a b : ℕ} (hab : a ≤ b) :
    running rnd (xs.take b) = (leftTree (.leaf (running rnd (xs.take a))) (channels xs a b)).value rnd := by
  rw [leftTree_value]
  unfold running channels Tree.value
  rw [← List.foldl_append]
  congr 1
  conv_lhs => rw [← List.take_append_drop a (xs.take b)]
  rw [List.take_take, min_eq_left hab]

theorem mass_sub {xs ys : List ℝ} (h : List.Sublist xs ys) : mass xs ≤ mass ys :=
  (h.map fun x => |x|).sum_le_sum (by simp)

theorem mem_mass {xs : List ℝ} {x : ℝ} (h : x ∈ xs) : |x| ≤ mass xs :=
  List.single_le_sum (by simp) _ (List.mem_map_of_mem h)

/-- What the loops compute with: numbers of the format whose sums do not overflow. -/
def Summands (xs : List ℝ) : Prop := (∀ x ∈ xs, Rep x) ∧ mass xs ≤ 2 ^ (900 : ℤ) ∧ xs.length ≤ 2 ^ 25

section
variable {F : Impl} {xs : List ℝ}

theorem Summands.get (h : F.Legal) (hx : Summands xs) {k : ℕ} (hk : k ≤ xs.length) : (F.prefixSum xs).getD k 0 = running F.rnd (xs.take k) :=
  prefix_get h (fun x hm => ⟨hx.1 x hm, ((mem_mass hm).trans hx.2.1).trans (zpow_le (by norm_num))⟩) hk

theorem Summands.prefix (h : F.Legal) (hx : Summands xs) (k : ℕ) :
    Rep (running F.rnd (xs.take k)) ∧ |running F.rnd (xs.take k) - (xs.take k).sum| ≤ (xs.take k).length * 2 ^ (-52 : ℤ) * mass (xs.take k) := by
  rw [running_value]
  have hs := List.take_sublist k xs
  exact order_error h.nearest (fun x hm => hx.1 x (hs.subset hm)) ((hs.length_le.trans hx.2.2).trans (by norm_num))
    (((mass_sub hs).trans hx.2.1).trans (zpow_le (by norm_num))) (Or.inr (running_leaves _))

/-- A prefix sum is at most twice the sum of the absolute values. -/
theorem Summands.bound (h : F.Legal) (hx : Summands xs) (k : ℕ) : |running F.rnd (xs.take k)| ≤ 2 * mass (xs.take k) := by
  have h1 := (hx.prefix h k).2
  have h2 := sum_le_mass (xs.take k)
  have h3 := mass_nonneg (xs.take k)
  have h4 : ((xs.take k).length : ℝ) * 2 ^ (-52 : ℤ) ≤ 1 := by
    have : ((xs.take k).length : ℝ) ≤ 2 ^ 25 := by exact_mod_cast (List.take_sublist k xs).length_le.trans hx.2.2
    refine (mul_le_mul_of_nonneg_right this (two_zpow_pos _).le).trans ?_
    norm_num
  have h5 := mul_le_mul_of_nonneg_right h4 h3
  have h6 := abs_add_le (running F.rnd (xs.take k) - (xs.take k).sum) (xs.take k).sum
  rw [sub_add_cancel] at h6
  have h7 := h1.trans h5
  linarith only [h2, h6, h7]

theorem fold_zero {rnd : ℝ → ℝ} (h : Nearest rnd) {p : ℝ} (hp : Rep p) (hb : |p| ≤ 2 ^ (1023 : ℤ)) : ∀ ys : List ℝ, (∀ x ∈ ys, x = 0) → ys.foldl (fun a x => rnd (a + x)) p = p
  | [], _ => rfl
  | y :: ys, h0 => by
    rw [List.foldl_cons, h0 y List.mem_cons_self, add_zero, h.fix hp hb]
    exact fold_zero h hp hb ys fun x hx => h0 x (List.mem_cons_of_mem _ hx)

/-- **C157 (nothing in the interval).** An interval of channels that contain zeros has sum zero, whatever comes before it, so that the tests for an empty interval
(grouping.py:294, 304, 308) are right. -/
theorem C157_zeros (h : F.Legal) (hx : ∀ x ∈ xs, Rep x) (hm : (xs.map fun x => |x|).sum ≤ 2 ^ (900 : ℤ)) (hn : xs.length ≤ 2 ^ 25) {a b : ℕ} (hab : a ≤ b) (hb : b ≤ xs.length)
    (h0 : ∀ x ∈ (xs.take b).drop a, x = 0) : F.intervalSum (F.prefixSum xs) a b = 0 := by
  have hx' : Summands xs := ⟨hx, hm, hn⟩
  unfold Impl.intervalSum
  have hp := (hx'.prefix h a).1
  have hbd : |running F.rnd (xs.take a)| ≤ 2 ^ (1023 : ℤ) := by
    refine (hx'.bound h a).trans ?_
    refine (mul_le_mul_of_nonneg_left ((mass_sub (List.take_sublist a xs)).trans hm) (by norm_num)).trans ?_
    rw [show (2 : ℝ) * 2 ^ (900 : ℤ) = 2 ^ (901 : ℤ) by rw [show (901 : ℤ) = 1 + 900 by norm_num, zpow_add₀ (by norm_num), zpow_one]]
    exact zpow_le (by norm_num)
  rw [hx'.get h hb, hx'.get h (hab.trans hb), running_split F.rnd xs hab, leftTree_value, Tree.value, fold_zero h.nearest hp hbd (channels xs a b) h0, sub_self]
  exact Nearest.fix h.nearest rep_zero (by rw [abs_zero]; exact (two_zpow_pos _).le)

/-- **C157 (error), partial.**  The sum over an interval of channels, the difference of two computed prefix sums, has an error of at most a few units of `2 ^ -52` (three plus the
number of channels in the interval) of the sum of the absolute values of all channels *up to the end of the interval*.  What is missing: an error relative to the channels in the
interval, see the counterexample below. -/
theorem C157_interval_error_partial (h : F.Legal) (hx : ∀ x ∈ xs, Rep x) (hm : (xs.map fun x => |x|).sum ≤ 2 ^ (900 : ℤ)) (hn : xs.length ≤ 2 ^ 25) {a b : ℕ} (hab : a ≤ b) (hb : b ≤ xs.length) :
    |F.intervalSum (F.prefixSum xs) a b - total xs a b| ≤ ((b - a : ℕ) + 3) * 2 ^ (-52 : ℤ) * total (xs.map fun x => |x|) 0 b := by
  have hx' : Summands xs := ⟨hx, hm, hn⟩
  have hr : Nearest F.rnd := h.nearest
  have tot : total (xs.map fun x => |x|) 0 b = mass (xs.take b) := by
    rw [← channels_sum, channels_map]; rfl
  have split : mass (xs.take b) = mass (xs.take a) + mass (channels xs a b) := by
    rw [← mass_append]
    congr 1
    conv_lhs => rw [← List.take_append_drop a (xs.take b)]
    rw [List.take_take, min_eq_left hab]; rfl
  unfold Impl.intervalSum
  rw [hx'.get h hb, hx'.get h (hab.trans hb), tot, ← channels_sum]
  obtain ⟨ra, ea⟩ := hx'.prefix h a
  obtain ⟨rb, -⟩ := hx'.prefix h b
  have ba := hx'.bound h a
  have bb := hx'.bound h b
  have step := running_split F.rnd xs hab
  have hlen : (channels xs a b).length = b - a := by unfold channels; rw [List.length_drop, List.length_take]; omega
  have hta : (xs.take a).length = a := by rw [List.length_take]; omega
  have mb : mass (xs.take b) ≤ 2 ^ (900 : ℤ) := (mass_sub (List.take_sublist b xs)).trans hm
  have ma := mass_nonneg (xs.take a)
  have mab := mass_nonneg (channels xs a b)
  have sa := sum_le_mass (xs.take a)
  have sab := sum_le_mass (channels xs a b)
  have big : mass (running F.rnd (xs.take a) :: channels xs a b) ≤ 2 ^ (1000 : ℤ) := by
    have e1 : mass (running F.rnd (xs.take a) :: channels xs a b) = |running F.rnd (xs.take a)| + mass (channels xs a b) := by simp [mass]
    rw [e1]
    have e2 : |running F.rnd (xs.take a)| + mass (channels xs a b) ≤ 2 * 2 ^ (900 : ℤ) := by
      refine le_trans ?_ (mul_le_mul_of_nonneg_left mb (by norm_num))
      linarith only [ba, split, mab]
    refine e2.trans ?_
    rw [show (2 : ℝ) * 2 ^ (900 : ℤ) = 2 ^ (901 : ℤ) by rw [show (901 : ℤ) = 1 + 900 by norm_num, zpow_add₀ (by norm_num), zpow_one]]
    exact zpow_le (by norm_num)
  have err := (order_error hr (xs := running F.rnd (xs.take a) :: channels xs a b) (by
    intro x hm
    rcases List.mem_cons.1 hm with rfl | hm
    · exact ra
    · exact hx x ((channels_sub xs a b).subset hm)) (by rw [List.length_cons, hlen]; have : b - a ≤ 2 ^ 25 := by omega
                                                        omega) big (t := leftTree (.leaf (running F.rnd (xs.take a))) (channels xs a b))
    (Or.inl (by rw [leftTree_leaves]; exact List.Perm.refl _))).2
  rw [← step, List.length_cons, hlen, List.sum_cons] at err
  have e1 : mass (running F.rnd (xs.take a) :: channels xs a b) = |running F.rnd (xs.take a)| + mass (channels xs a b) := by simp [mass]
  rw [e1] at err
  rw [hta] at ea
  have dif : |running F.rnd (xs.take b) + -running F.rnd (xs.take a)| ≤ 2 ^ 1023 := by
    rw [nat1023]
    refine (abs_add_le _ _).trans ?_
    rw [abs_neg]
    have e2 : |running F.rnd (xs.take b)| + |running F.rnd (xs.take a)| ≤ 4 * 2 ^ (900 : ℤ) := by
      refine le_trans ?_ (mul_le_mul_of_nonneg_left mb (by norm_num))
      linarith only [ba, bb, split, mab]
    refine e2.trans ?_
    rw [show (4 : ℝ) * 2 ^ (900 : ℤ) = 2 ^ (902 : ℤ) by rw [show (902 : ℤ) = 2 + 900 by norm_num, zpow_add₀ (by norm_num)]; norm_num]
    exact zpow_le (by norm_num)
  have last := (plus_error hr rb (rep_neg ra) dif).2
  rw [← sub_eq_add_neg] at last
  have n1 : (((b - a : ℕ) : ℝ) + 1) * a * (2 ^ (-52 : ℤ)) ≤ 1 / 4 := by
    have h1 : ((b - a : ℕ) + 1) * a ≤ 2 ^ 50 := by
      have : (b - a + 1) * a ≤ 2 ^ 25 * 2 ^ 25 := by
        rcases Nat.eq_zero_or_pos a with rfl | h0
        · simp
        · exact Nat.mul_le_mul (by omega) (by omega)
      omega
    have h2 : (((b - a : ℕ) : ℝ) + 1) * a ≤ 2 ^ 50 := by exact_mod_cast h1
    refine (mul_le_mul_of_nonneg_right h2 (two_zpow_pos _).le).trans ?_
    norm_num
  have n2 : (((b - a : ℕ) : ℝ) + 1) * (2 ^ (-52 : ℤ)) ≤ 1 / 4 := by
    have h2 : (((b - a : ℕ) : ℝ) + 1) ≤ 2 ^ 26 := by exact_mod_cast (by omega : b - a + 1 ≤ 2 ^ 26)
    refine (mul_le_mul_of_nonneg_right h2 (two_zpow_pos _).le).trans ?_
    norm_num
  have eu : (2 : ℝ) ^ (-52 : ℤ) = 2 * unit := by unfold unit; norm_num
  have hu := unit_pos
  push_cast at err
  rw [split]
  rw [eu] at ea err n1 n2 ⊢
  clear mb dif big hm hx' bb e1 tot
  generalize running F.rnd (xs.take a) = pa at *
  generalize running F.rnd (xs.take b) = pb at *
  generalize (xs.take a).sum = Sa at *
  generalize (channels xs a b).sum = S at *
  generalize mass (xs.take a) = A at *
  generalize mass (channels xs a b) = B at *
  have m0 : (0 : ℝ) ≤ ((b - a : ℕ) : ℝ) := Nat.cast_nonneg _
  generalize ((b - a : ℕ) : ℝ) = m at *
  have pab : |pa| ≤ A + a * (2 * unit) * A := by
    have := abs_add_le (pa - Sa) Sa
    rw [sub_add_cancel] at this
    linarith only [this, ea, sa]
  have k0 : 0 ≤ (m + 1) * (2 * unit) := by positivity
  have k1 : (m + 1) * (2 * unit) * (|pa| + B) ≤ (m + 1) * (2 * unit) * (A + a * (2 * unit) * A + B) := mul_le_mul_of_nonneg_left (by linarith only [pab]) k0
  have k2 : (m + 1) * a * (2 * unit) * (2 * unit * A) ≤ 1 / 4 * (2 * unit * A) := mul_le_mul_of_nonneg_right n1 (by positivity)
  have k3 : |pb - (pa + S)| ≤ (m + 1) * (2 * unit) * (A + B) + unit * A := by
    have : 0 ≤ unit * A := by positivity
    linarith only [err, k1, k2, this]
  have k4 : (m + 1) * (2 * unit) * (A + B) ≤ 1 / 4 * (A + B) := mul_le_mul_of_nonneg_right n2 (by positivity)
  have u1 : unit * A ≤ 1 / 4 * A := mul_le_mul_of_nonneg_right (by unfold unit; norm_num) ma
  have k5 : |pb - pa| ≤ 2 * (A + B) := by
    have := abs_add_le (pb - (pa + S)) S
    rw [show pb - (pa + S) + S = pb - pa by ring] at this
    linarith only [this, k3, k4, u1, sab, ma, mab]
  have k6 := mul_le_mul_of_nonneg_left k5 hu.le
  have k7 := abs_add_le (F.rnd (pb - pa) - (pb - pa)) (pb - (pa + S))
  rw [show F.rnd (pb - pa) - (pb - pa) + (pb - (pa + S)) = F.rnd (pb - pa) - S by ring] at k7
  have k8 : 0 ≤ unit * B := by positivity
  have k9 : 0 ≤ unit * A := by positivity
  linarith only [k7, last, k6, k3, k8, k9]

end

/-! ## Whole counts -/

theorem running_whole {F : Impl} (h : F.Legal) (data : List ℕ) (hs : data.sum ≤ 2 ^ 53) : running F.rnd (asFloat data) = ((data.sum : ℕ) : ℝ) := by
  rw [running_value]
  have e : (leftTree (.leaf 0) (asFloat data)).leaves.sum = ((data.sum : ℕ) : ℝ) := by rw [running_leaves, List.sum_cons, zero_add, asFloat_sum]
  rw [← e]
  refine (tree_exact h _ ?_ ?_).1
  · intro x hx
    rw [running_leaves, List.mem_cons] at hx
    rcases hx with rfl | hx
    · exact ⟨0, by norm_num⟩
    · obtain ⟨k, _, rfl⟩ := List.mem_map.1 hx
      exact ⟨k, rfl⟩
  · rw [e]
    exact_mod_cast hs

/-- **C157 (whole counts).** Counts that are whole numbers, up to `2 ^ 53` in all, are added up exactly in every interval. -/
theorem C157_whole {F : Impl} (h : F.Legal) (data : List ℕ) (hs : data.sum ≤ 2 ^ 53) {a b : ℕ} (hab : a ≤ b) (hb : b ≤ data.length) :
    F.intervalSum (F.prefixSum (data.map fun k : ℕ => (k : ℝ))) a b = total (data.map fun k : ℕ => (k : ℝ)) a b := by
  have hl : (asFloat data).length = data.length := by simp [asFloat]
  have hx : ∀ x ∈ asFloat data, Rep x ∧ |x| ≤ 2 ^ (1023 : ℤ) := by
    intro x hx
    obtain ⟨k, hk, rfl⟩ := List.mem_map.1 hx
    have hk' : k ≤ 2 ^ 53 := (List.single_le_sum (by simp) k hk).trans hs
    have hz : |(k : ℤ)| ≤ 2 ^ 53 := by rw [abs_of_nonneg (by positivity)]; exact_mod_cast hk'
    have r := rep_int hz
    have bg := big hz
    rw [nat1023] at bg
    push_cast at r bg
    exact ⟨r, bg⟩
  show F.intervalSum (F.prefixSum (asFloat data)) a b = total (asFloat data) a b
  have st : ∀ k, (data.take k).sum ≤ 2 ^ 53 := fun k => (sublist_sum (List.take_sublist k data)).trans hs
  have sp : (data.take b).sum = (data.take a).sum + ((data.take b).drop a).sum := by
    conv_lhs => rw [← List.take_append_drop a (data.take b)]
    rw [List.sum_append, List.take_take, min_eq_left hab]
  unfold Impl.intervalSum
  rw [prefix_get h hx (by rw [hl]; exact hb), prefix_get h hx (by rw [hl]; exact hab.trans hb), asFloat_take, asFloat_take, running_whole h _ (st b), running_whole h _ (st a),
    ← channels_sum, channels, asFloat_take, asFloat_drop, asFloat_sum, sp]
  push_cast
  rw [add_sub_cancel_left]
  have := st b
  exact_mod_cast h.rnd_nat (k := ((data.take b).drop a).sum) (by omega)

/-! ## Scale factors of one -/

/-- The scale factor of every channel is one: `counts` counts in groups of `chans` channels. -/
def UnitScale (d : ScaleGroupData ℝ) (n : ℕ) : Prop :=
  ∃ counts chans : List ℕ, d.counts = (counts.map fun k : ℕ => (k : ℝ)) ∧ d.weightedInv = (counts.map fun k : ℕ => (k : ℝ)) ∧ d.nChan = (chans.map fun k : ℕ => (k : ℝ)) ∧
    d.reciprocal = (chans.map fun k : ℕ => (k : ℝ)) ∧ counts.length = n ∧ chans.length = n ∧ counts.sum ≤ 2 ^ 53 ∧ chans.sum ≤ 2 ^ 53

theorem scaleOf_unit {F : Impl} (h : F.Legal) {d : ScaleGroupData ℝ} {n : ℕ} (hd : UnitScale d n) {a b : ℕ} (hab : a ≤ b) (hb : b ≤ n) :
    F.scaleOf d a b = 1 ∧ scaleFromInterval (buildScalePrefix d false) a b = 1 := by
  obtain ⟨cs, ks, e1, e2, e3, e4, l1, l2, s1, s2⟩ := hd
  have one : F.rnd 1 = 1 := by
    have := fix_small h.nearest 1 (by norm_num)
    push_cast at this
    exact this
  have exact1 : ∀ xs : List ℝ, b ≤ xs.length → (prefixSum xs).getD b 0 - (prefixSum xs).getD a 0 = total xs a b := fun xs hx => intervalSum_prefix xs hab hx
  constructor
  · unfold Impl.scaleOf
    dsimp only
    rw [e1, e2, e3, e4, C157_whole h cs s1 hab (by omega), C157_whole h ks s2 hab (by omega)]
    split
    · rfl
    rename_i h1
    split
    · rename_i h2
      rw [div_self h2, one]
    · rw [div_self h1, one]
  · unfold scaleFromInterval buildScalePrefix
    dsimp only
    rw [e1, e2, e3, e4, exact1 (cs.map fun k : ℕ => (k : ℝ)) (by rw [List.length_map]; omega), exact1 (ks.map fun k : ℕ => (k : ℝ)) (by rw [List.length_map]; omega)]
    split
    · rfl
    rename_i h1
    rw [if_neg (by simp)]
    split
    · rename_i h2
      exact div_self h2
    · exact div_self h1

/-- **C157 (scale factors of one).** If all area and background scale factors are one, the ratio used for every interval of channels is the ratio of the exposures, rounded once. -/
theorem C157_unit_ratio {F : Impl} (h : F.Legal) (d : RatioData) {n : ℕ} (h1 : UnitScale d.specArea n) (h2 : UnitScale d.specBack n) (h3 : UnitScale d.backArea n) (h4 : UnitScale d.backBack n)
    (hr : |d.specExp / d.backExp| ≤ 2 ^ (1000 : ℤ)) {a b : ℕ} (hab : a ≤ b) (hb : b ≤ n) :
    F.ratio d a b = F.rnd (d.specExp / d.backExp) ∧ d.ratio a b = d.specExp / d.backExp := by
  have s1 := scaleOf_unit h h1 hab hb
  have s2 := scaleOf_unit h h2 hab hb
  have s3 := scaleOf_unit h h3 hab hb
  have s4 := scaleOf_unit h h4 hab hb
  have hn : Nearest F.rnd := h.nearest
  have hb := hn.abs_le hr (by norm_num) (by norm_num)
  have fx : F.rnd (F.rnd (d.specExp / d.backExp)) = F.rnd (d.specExp / d.backExp) := hn.fix hb.1 (hb.2.trans (zpow_le (by norm_num)))
  constructor
  · unfold Impl.ratio
    rw [s1.1, s2.1, s3.1, s4.1, mul_one, mul_one, div_one, div_one, fx, fx, fx, fx]
  · unfold RatioData.ratio intervalBackRatio
    rw [s1.2, s2.2, s3.2, s4.2, mul_one, mul_one, div_one, div_one]

/-! ## A lost variance -/

/-- **C157 (refuted).** Two channels, the background of the second is 1 ± 1, that of the first has an uncertainty of 3 * 2 ^ 26.  A hundred counts in the second channel have a significance above 10.
The variance of the second channel alone, computed as a difference of prefix sums, is zero, and the significance is NaN. -/
theorem C157_refuted {F : Impl} (h : F.Legal) (lg : ℝ → ℝ) :
    (F.gvSums [0, 100] [0, 1] [3 * 2 ^ 26, 1] 1 2 = (100, 1, 0) ∧ gvF F.rnd lg 100 1 0 1 = none) ∧
      (total [0, 100] 1 2, total [0, 1] 1 2, Real.sqrt (variance [3 * 2 ^ 26, 1] 1 2)) = ((100 : ℝ), (1 : ℝ), (1 : ℝ)) ∧ 10 < significanceGv 100 1 1 1 := by
  have hr : Nearest F.rnd := h.nearest
  have k0 := fix_small hr 0 (by norm_num)
  have k1 := fix_small hr 1 (by norm_num)
  have k2 := fix_small hr 2 (by norm_num)
  have k200 := fix_small hr 200 (by norm_num)
  have k400 := fix_small hr 400 (by norm_num)
  have k100 := fix_small hr 100 (by norm_num)
  push_cast at k0 k1 k2 k200 k400 k100
  refine ⟨⟨?_, ?_⟩, ?_, ?_⟩
  · have q : F.rnd (3 * 2 ^ 26 * (3 * 2 ^ 26)) = 9 * 2 ^ 52 := hr.eq 5066549580791808 3 (by norm_num) (by norm_num) (by norm_num) (by norm_num) (by norm_num) (by norm_num)
    have q' : F.rnd (9 * 2 ^ 52 + 1) = 9 * 2 ^ 52 := hr.eq 5066549580791808 3 (by norm_num) (by norm_num) (by norm_num) (by norm_num) (by norm_num) (by norm_num [abs_lt])
    simp only [Impl.gvSums, Impl.intervalSum, Impl.prefixSum, Impl.cumsum, Impl.cumsumFrom, List.map_cons, List.map_nil, q, mul_one, k1, q', List.getD_cons_succ, List.getD_cons_zero, sub_self, k0,
      Real.sqrt_zero, zero_add, sub_zero, k100]
  · have rad : gvRadF F.rnd 100 1 0 = 1 := by
      unfold gvRadF
      norm_num [k0, k1, k2, k400]
    have bk : gvBackF F.rnd 100 1 0 = 1 := by
      unfold gvBackF
      rw [rad, Real.sqrt_one, sub_zero, k1, show (1 : ℝ) + 1 = 2 by norm_num, k2, show (1 / 2 : ℝ) * 2 = 1 by norm_num, k1]
      norm_num
    unfold gvF
    dsimp only
    rw [mul_one, mul_one, k1, k0, mul_zero, k0, rad, bk, if_neg (by norm_num), if_pos rfl, sub_self, k0, mul_zero, k0, if_pos rfl]
  · unfold variance
    rw [total_eq_sliceSum, total_eq_sliceSum, total_eq_sliceSum]
    norm_num [sliceSum]
  · have hb : gvBackground 100 1 1 = 10 := by
      unfold gvBackground
      have : Real.sqrt 400 = 20 := by rw [show (400 : ℝ) = 20 * 20 by norm_num]; exact Real.sqrt_mul_self (by norm_num)
      norm_num [this]
    have hl : (1 : ℝ) ≤ Real.log 10 := by
      rw [Real.le_log_iff_exp_le (by norm_num)]
      exact Real.exp_one_lt_d9.le.trans (by norm_num)
    unfold significanceGv gvTerms
    rw [mul_one, hb, if_pos (by norm_num), one_mul]
    refine Real.lt_sqrt_of_sq_lt ?_
    norm_num [Elisa.Grouping.xlogy]
    linarith only [hl]

/-! ## Examples -/

example := C157_refuted leftImpl_legal Real.log

theorem exData : (∀ x ∈ ([1, -3, 9] : List ℝ), Rep x) ∧ (([1, -3, 9] : List ℝ).map fun x => |x|).sum ≤ 2 ^ (900 : ℤ) := by
  constructor
  · intro x hx
    have r1 := rep_small (k := 1) (by norm_num)
    have r3 := rep_small (k := -3) (by norm_num)
    have r9 := rep_small (k := 9) (by norm_num)
    push_cast at r1 r3 r9
    simp only [List.mem_cons, List.not_mem_nil, or_false] at hx
    rcases hx with rfl | rfl | rfl
    · exact r1
    · exact r3
    · exact r9
  · refine le_trans ?_ (zpow_le (p := 4) (by norm_num))
    norm_num

example := C157_interval_error_partial leftImpl_legal exData.1 exData.2 (by norm_num) (a := 1) (b := 3) (by norm_num) (by norm_num)
example := C157_whole leftImpl_legal [3, 0, 12, 7] (by norm_num) (a := 1) (b := 3) (by norm_num) (by norm_num)
example := C157_zeros leftImpl_legal (xs := [0, 0]) (by simp [rep_zero]) (by simp) (by norm_num) (a := 0) (b := 2) (by norm_num) (by norm_num) (by simp)

/-- Two groups of channels with unit scale factors. -/
noncomputable def exUnit : ScaleGroupData ℝ := ⟨[1, 1], [5, 0], [3, 1], [5, 0], [3, 1], [3, 1]⟩

theorem exUnit_ok : UnitScale exUnit 2 := ⟨[5, 0], [3, 1], by simp [exUnit], by simp [exUnit], by simp [exUnit], by simp [exUnit], rfl, rfl, by norm_num, by norm_num⟩

example := C157_unit_ratio leftImpl_legal ⟨1, 3, exUnit, exUnit, exUnit, exUnit⟩ exUnit_ok exUnit_ok exUnit_ok exUnit_ok
  (le_trans (by norm_num) (zpow_le (p := 0) (by norm_num))) (a := 0) (b := 1) (by norm_num) (by norm_num)

end Elisa.Grouping.Fl
