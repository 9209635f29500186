import Verif.Grouping.FloatProps
import Mathlib.Algebra.Order.Archimedean.Basic
import Mathlib.Algebra.Order.Round

/-!
# C145: rounding errors of grouped counts that are not whole numbers; C144: the limit is sharp
-/

namespace Elisa.Grouping.Fl

open Elisa Elisa.Grouping

/-! ## Relative error of one addition -/

/-- Half the distance of 1 to the next number. -/
noncomputable def unit : ℝ := 2 ^ (-53 : ℤ)

theorem unit_pos : 0 < unit := by unfold unit; positivity

theorem two_zpow_pos (e : ℤ) : (0 : ℝ) < 2 ^ e := by positivity

/-- There is a number of the format within a relative distance `2 ^ -53` of every `x` of the normal range. -/
theorem near_rep {x : ℝ} (h0 : 2 ^ (-1022 : ℤ) ≤ x) (h1 : x ≤ 2 ^ 1023) : ∃ y, Rep y ∧ |y - x| ≤ unit * x := by
  have hx : 0 < x := lt_of_lt_of_le (two_zpow_pos _) h0
  obtain ⟨n, hn1, hn2⟩ := exists_mem_Ico_zpow hx (by norm_num : (1 : ℝ) < 2)
  have hlo : -1022 ≤ n := by
    by_contra hc
    have : (2 : ℝ) ^ (n + 1) ≤ 2 ^ (-1022 : ℤ) := zpow_le_zpow_right₀ (by norm_num) (by omega)
    linarith
  have hhi : n ≤ 1023 := by
    by_contra hc
    have : (2 : ℝ) ^ (1024 : ℤ) ≤ 2 ^ n := zpow_le_zpow_right₀ (by norm_num) (by omega)
    have e : (2 : ℝ) ^ (1024 : ℤ) = 2 * 2 ^ 1023 := by
      rw [show (1024 : ℤ) = 1 + ((1023 : ℕ) : ℤ) by norm_num, zpow_add₀ (by norm_num), zpow_one, zpow_natCast]
    have hp : (0 : ℝ) < 2 ^ 1023 := by positivity
    rw [e] at this
    generalize (2 : ℝ) ^ 1023 = P at *
    linarith
  have hE := two_zpow_pos (n - 52)
  have hq : x / 2 ^ (n - 52) * 2 ^ (n - 52) = x := by field_simp
  have hm := abs_sub_round (x / 2 ^ (n - 52))
  set m := round (x / (2 : ℝ) ^ (n - 52)) with hmdef
  have e52 : (2 : ℝ) ^ n = 2 ^ 52 * 2 ^ (n - 52) := by
    rw [show (n : ℤ) = ((52 : ℕ) : ℤ) + (n - 52) by push_cast; ring, zpow_add₀ (by norm_num), zpow_natCast]
    congr 2
    push_cast
    ring
  have e53 : (2 : ℝ) ^ (n + 1) = 2 ^ 53 * 2 ^ (n - 52) := by
    rw [show (n + 1 : ℤ) = ((53 : ℕ) : ℤ) + (n - 52) by push_cast; ring, zpow_add₀ (by norm_num), zpow_natCast]
  have q1 : 2 ^ 52 ≤ x / 2 ^ (n - 52) := by rw [le_div_iff₀ hE]; linarith
  have q2 : x / 2 ^ (n - 52) < 2 ^ 53 := by rw [div_lt_iff₀ hE]; linarith
  have b1 := abs_le.1 hm
  have m1 : (0 : ℝ) < m := by linarith [b1.2, q1, (by norm_num : (1 / 2 : ℝ) < 2 ^ 52)]
  have m2 : (m : ℝ) < 2 ^ 53 + 1 := by linarith [b1.1]
  have m1' : 0 < m := by exact_mod_cast m1
  have m2' : m < 2 ^ 53 + 1 := by exact_mod_cast m2
  have herr : |(m : ℝ) * 2 ^ (n - 52) - x| ≤ unit * x := by
    have e1 : (m : ℝ) * 2 ^ (n - 52) - x = -(x / 2 ^ (n - 52) - m) * 2 ^ (n - 52) := by
      rw [neg_mul, sub_mul, hq]; ring
    rw [e1, abs_mul, abs_neg, abs_of_pos hE]
    calc |x / 2 ^ (n - 52) - m| * 2 ^ (n - 52) ≤ 1 / 2 * 2 ^ (n - 52) := mul_le_mul_of_nonneg_right hm hE.le
      _ = unit * 2 ^ n := by rw [e52, unit]; norm_num; ring
      _ ≤ unit * x := mul_le_mul_of_nonneg_left hn1 unit_pos.le
  rcases lt_or_eq_of_le (show m ≤ 2 ^ 53 by omega) with hlt | heq
  · exact ⟨_, ⟨m, n - 52, by rw [abs_of_pos m1']; exact hlt, by omega, by omega, rfl⟩, herr⟩
  · have hn : n ≠ 1023 := by
      intro hc
      have e : (2 : ℝ) ^ n = 2 ^ 1023 := by rw [hc, show (1023 : ℤ) = ((1023 : ℕ) : ℤ) by norm_num, zpow_natCast]
      have hxe : x = 2 ^ n := le_antisymm (e ▸ h1) hn1
      have hq' : x / 2 ^ (n - 52) = 2 ^ 52 := by rw [hxe, e52]; field_simp
      rw [hq', heq] at hm
      norm_num at hm
    refine ⟨_, ⟨2 ^ 52, n - 51, by norm_num, by omega, by omega, ?_⟩, herr⟩
    rw [heq, show n - 51 = 1 + (n - 52) by ring, zpow_add₀ (by norm_num), zpow_one]
    push_cast
    ring

/-- Numbers of the format are multiples of the smallest one. -/
theorem rep_multiple {y : ℝ} (h : Rep y) : ∃ k : ℤ, y = k * (2 : ℝ) ^ (-1074 : ℤ) := by
  obtain ⟨m, e, _, he, _, rfl⟩ := h
  obtain ⟨j, hj⟩ := Int.eq_ofNat_of_zero_le (show 0 ≤ e + 1074 by omega)
  refine ⟨m * 2 ^ j, ?_⟩
  rw [show e = (j : ℤ) + -1074 by omega, zpow_add₀ (by norm_num), zpow_natCast]
  push_cast
  ring

/-- Adding two numbers of the format: relative error at most `2 ^ -53`. -/
theorem add_error {F : Impl} (h : F.Legal) {a b : ℝ} (ha : Rep a) (hb : Rep b) (ha0 : 0 ≤ a) (hb0 : 0 ≤ b) (hs : a + b ≤ 2 ^ 1023) :
    Rep (F.rnd (a + b)) ∧ |F.rnd (a + b) - (a + b)| ≤ unit * (a + b) := by
  have habs : |a + b| ≤ 2 ^ 1023 := by rwa [abs_of_nonneg (by linarith)]
  obtain ⟨hr, hn⟩ := h.nearest (a + b) habs
  refine ⟨hr, ?_⟩
  rcases le_or_gt (2 ^ (-1022 : ℤ)) (a + b) with hc | hc
  · obtain ⟨y, hy, he⟩ := near_rep hc hs
    exact (hn y hy).trans he
  · obtain ⟨k, hk⟩ := rep_multiple ha
    obtain ⟨l, hl⟩ := rep_multiple hb
    have hkl : a + b = ((k + l : ℤ) : ℝ) * 2 ^ (-1074 : ℤ) := by rw [hk, hl]; push_cast; ring
    have hE := two_zpow_pos (-1074)
    have hnn : (0 : ℝ) ≤ ((k + l : ℤ) : ℝ) := by
      by_contra hneg
      have : ((k + l : ℤ) : ℝ) * 2 ^ (-1074 : ℤ) < 0 := mul_neg_of_neg_of_pos (not_le.1 hneg) hE
      linarith
    have hlt : ((k + l : ℤ) : ℝ) < 2 ^ 52 := by
      rw [hkl, show (-1022 : ℤ) = ((52 : ℕ) : ℤ) + -1074 by norm_num, zpow_add₀ (by norm_num), zpow_natCast] at hc
      exact lt_of_mul_lt_mul_right hc hE.le
    have hlt' : k + l < 2 ^ 52 := by exact_mod_cast hlt
    have hnn' : 0 ≤ k + l := by exact_mod_cast hnn
    have hrep : Rep (a + b) := ⟨k + l, -1074, by rw [abs_of_nonneg hnn']; omega, le_refl _, by norm_num, hkl⟩
    rw [h.rnd_rep hrep habs, sub_self, abs_zero]
    exact mul_nonneg unit_pos.le (by linarith)

/-! ## Sums in any order -/

/-- Number of additions a number goes through at most. -/
def Tree.depth : Tree → ℕ
  | .leaf _ => 0
  | .node l r => max l.depth r.depth + 1

theorem Tree.depth_lt : ∀ t : Tree, t.depth + 1 ≤ t.leaves.length
  | .leaf _ => by simp [Tree.depth, Tree.leaves]
  | .node l r => by
    have hl := Tree.depth_lt l
    have hr := Tree.depth_lt r
    simp only [Tree.depth, Tree.leaves, List.length_append]
    omega

theorem one_sub_unit : 0 < 1 - unit ∧ 1 - unit ≤ 1 := by
  have h1 : unit < 1 := by unfold unit; norm_num
  exact ⟨by linarith, by linarith [unit_pos]⟩

theorem tree_error {F : Impl} (h : F.Legal) : ∀ t : Tree, (∀ x ∈ t.leaves, Rep x ∧ 0 ≤ x) → t.leaves.sum * (1 + unit) ^ t.depth ≤ 2 ^ 1023 →
    Rep (t.value F.rnd) ∧ (1 - unit) ^ t.depth * t.leaves.sum ≤ t.value F.rnd ∧ t.value F.rnd ≤ t.leaves.sum * (1 + unit) ^ t.depth
  | .leaf x, hx, _ => by
    have := hx x (by simp [Tree.leaves])
    simpa [Tree.leaves, Tree.depth, Tree.value] using this.1
  | .node l r, hx, hs => by
    simp only [Tree.leaves, List.mem_append, List.sum_append, Tree.depth] at hx hs ⊢
    have hl0 : 0 ≤ l.leaves.sum := List.sum_nonneg fun x hm => (hx x (Or.inl hm)).2
    have hr0 : 0 ≤ r.leaves.sum := List.sum_nonneg fun x hm => (hx x (Or.inr hm)).2
    have hu := unit_pos
    have hone : (1 : ℝ) ≤ 1 + unit := by linarith
    set d := max l.depth r.depth with hd
    have pl : (1 + unit) ^ l.depth ≤ (1 + unit) ^ d := pow_le_pow_right₀ hone (le_max_left _ _)
    have pr : (1 + unit) ^ r.depth ≤ (1 + unit) ^ d := pow_le_pow_right₀ hone (le_max_right _ _)
    have pd : 0 < (1 + unit) ^ d := by positivity
    have ps : (1 + unit) ^ (d + 1) = (1 + unit) ^ d * (1 + unit) := pow_succ _ _
    have ql : (1 - unit) ^ d ≤ (1 - unit) ^ l.depth := pow_le_pow_of_le_one one_sub_unit.1.le one_sub_unit.2 (le_max_left _ _)
    have qr : (1 - unit) ^ d ≤ (1 - unit) ^ r.depth := pow_le_pow_of_le_one one_sub_unit.1.le one_sub_unit.2 (le_max_right _ _)
    have hsum : (l.leaves.sum + r.leaves.sum) * (1 + unit) ^ d ≤ 2 ^ 1023 := by
      refine le_trans ?_ hs
      rw [ps, ← mul_assoc]
      exact le_mul_of_one_le_right (by positivity) hone
    have bl : l.leaves.sum * (1 + unit) ^ l.depth ≤ l.leaves.sum * (1 + unit) ^ d := mul_le_mul_of_nonneg_left pl hl0
    have br : r.leaves.sum * (1 + unit) ^ r.depth ≤ r.leaves.sum * (1 + unit) ^ d := mul_le_mul_of_nonneg_left pr hr0
    have nl := mul_nonneg hl0 pd.le
    have nr := mul_nonneg hr0 pd.le
    obtain ⟨rl, l1, l2⟩ := tree_error h l (fun x hm => hx x (Or.inl hm)) (by rw [add_mul] at hsum; linarith)
    obtain ⟨rr, r1, r2⟩ := tree_error h r (fun x hm => hx x (Or.inr hm)) (by rw [add_mul] at hsum; linarith)
    have vl0 : 0 ≤ l.value F.rnd := le_trans (mul_nonneg (pow_nonneg one_sub_unit.1.le _) hl0) l1
    have vr0 : 0 ≤ r.value F.rnd := le_trans (mul_nonneg (pow_nonneg one_sub_unit.1.le _) hr0) r1
    have vub : l.value F.rnd + r.value F.rnd ≤ (l.leaves.sum + r.leaves.sum) * (1 + unit) ^ d := by rw [add_mul]; linarith
    have vlb : (1 - unit) ^ d * (l.leaves.sum + r.leaves.sum) ≤ l.value F.rnd + r.value F.rnd := by
      have a1 := mul_le_mul_of_nonneg_right ql hl0
      have a2 := mul_le_mul_of_nonneg_right qr hr0
      rw [mul_add]; linarith
    obtain ⟨hrep, herr⟩ := add_error h rl rr vl0 vr0 (vub.trans hsum)
    have he := abs_le.1 herr
    refine ⟨hrep, ?_, ?_⟩
    · rw [Tree.value, pow_succ, mul_assoc, mul_comm (1 - unit), ← mul_assoc]
      calc (1 - unit) ^ d * (l.leaves.sum + r.leaves.sum) * (1 - unit) ≤ (l.value F.rnd + r.value F.rnd) * (1 - unit) :=
            mul_le_mul_of_nonneg_right vlb one_sub_unit.1.le
        _ ≤ F.rnd (l.value F.rnd + r.value F.rnd) := by linarith [he.1]
    · rw [Tree.value, ps, ← mul_assoc]
      calc F.rnd (l.value F.rnd + r.value F.rnd) ≤ (l.value F.rnd + r.value F.rnd) * (1 + unit) := by linarith [he.2]
        _ ≤ (l.leaves.sum + r.leaves.sum) * (1 + unit) ^ d * (1 + unit) := mul_le_mul_of_nonneg_right vub (by linarith)

theorem grow : ∀ n : ℕ, n ≤ 2 ^ 52 → (1 + unit) ^ n ≤ 1 + 2 * n * unit
  | 0, _ => by simp
  | n + 1, hn => by
    have ih := grow n (by omega)
    have hu := unit_pos
    have hle : (n : ℝ) * unit ≤ 1 / 2 := by
      have h1 : (n : ℝ) ≤ 2 ^ 52 := by exact_mod_cast (by omega : n ≤ 2 ^ 52)
      have h2 : (2 : ℝ) ^ 52 * unit = 1 / 2 := by unfold unit; norm_num
      have := mul_le_mul_of_nonneg_right h1 hu.le
      linarith
    rw [pow_succ]
    have h3 : (1 + unit) ^ n * (1 + unit) ≤ (1 + 2 * n * unit) * (1 + unit) := mul_le_mul_of_nonneg_right ih (by linarith)
    have h4 : (1 + 2 * n * unit) * (1 + unit) = 1 + 2 * n * unit + unit + 2 * (n * unit) * unit := by ring
    have h5 : 2 * (n * unit) * unit ≤ unit := by
      have := mul_le_mul_of_nonneg_right hle hu.le
      linarith
    push_cast
    linarith

theorem shrink' : ∀ n : ℕ, 1 - n * unit ≤ (1 - unit) ^ n := by
  intro n
  have := one_add_mul_le_pow (a := -unit) (by linarith [one_sub_unit.1]) n
  simpa [sub_eq_add_neg] using this

/-- Non-negative numbers are added up with a relative error of at most `n * 2 ^ -52`, where `n` is their number, whatever the order of the
additions. -/
theorem sum_error {F : Impl} (h : F.Legal) (t : ℕ) (xs : List ℝ) (hx : ∀ x ∈ xs, Rep x ∧ 0 ≤ x) (hs : xs.sum ≤ 2 ^ 1022) (hn : xs.length ≤ 2 ^ 52) :
    |F.sum t xs - xs.sum| ≤ xs.length * 2 ^ (-52 : ℤ) * xs.sum := by
  cases xs with
  | nil => simp [Impl.sum]
  | cons x r =>
    have hp := h.leaves t (x :: r) (by simp)
    rw [Impl.sum]
    generalize x :: r = xs at *
    set T := F.order t xs
    have hsum := hp.sum_eq
    have hd : T.depth ≤ xs.length := by have := T.depth_lt; rw [hp.length_eq] at this; omega
    have h0 : 0 ≤ xs.sum := List.sum_nonneg fun x hm => (hx x hm).2
    have hu := unit_pos
    have hg := grow xs.length hn
    have hgd : (1 + unit) ^ T.depth ≤ 1 + 2 * xs.length * unit := (pow_le_pow_right₀ (by linarith) hd).trans hg
    have hsd : 1 - xs.length * unit ≤ (1 - unit) ^ T.depth :=
      (shrink' xs.length).trans (pow_le_pow_of_le_one one_sub_unit.1.le one_sub_unit.2 hd)
    have hle : (xs.length : ℝ) * unit ≤ 1 / 2 := by
      have h1 : (xs.length : ℝ) ≤ 2 ^ 52 := by exact_mod_cast hn
      have h2 : (2 : ℝ) ^ 52 * unit = 1 / 2 := by unfold unit; norm_num
      have := mul_le_mul_of_nonneg_right h1 hu.le
      linarith
    have hbig : T.leaves.sum * (1 + unit) ^ T.depth ≤ 2 ^ 1023 := by
      rw [hsum]
      calc xs.sum * (1 + unit) ^ T.depth ≤ 2 ^ 1022 * 2 := mul_le_mul hs (by linarith) (by positivity) (by positivity)
        _ = 2 ^ 1023 := (pow_succ _ _).symm
    obtain ⟨-, e1, e2⟩ := tree_error h T (fun y hy => hx y (hp.mem_iff.1 hy)) hbig
    rw [hsum] at e1 e2
    have eu : (2 : ℝ) ^ (-52 : ℤ) = 2 * unit := by unfold unit; norm_num
    rw [eu, abs_le]
    have a1 := mul_le_mul_of_nonneg_left hgd h0
    have a2 := mul_le_mul_of_nonneg_right hsd h0
    have a3 : 0 ≤ (xs.length : ℝ) * unit * xs.sum := by positivity
    constructor <;> nlinarith

/-! ## The counts of the groups -/

/-- The error allowed for a computed value `a` whose exact value is `b`, when `n` channels are added up. -/
def Close (n : ℕ) (a b : ℝ) : Prop := |a - b| ≤ n * 2 ^ (-52 : ℤ) * b

theorem close_self (n : ℕ) {b : ℝ} (h : 0 ≤ b) : Close n b b := by
  unfold Close
  rw [sub_self, abs_zero]
  positivity

theorem sum_close {F : Impl} (h : F.Legal) (t : ℕ) {xs ys : List ℝ} (hsub : List.Sublist xs ys) (hy : ∀ x ∈ ys, Rep x ∧ 0 ≤ x)
    (hs : ys.sum ≤ 2 ^ 1022) (hn : ys.length ≤ 2 ^ 52) : Close ys.length (F.sum t xs) xs.sum := by
  have hle : xs.sum ≤ ys.sum := hsub.sum_le_sum fun x hx => (hy x hx).2
  have hl := hsub.length_le
  have h0 : 0 ≤ xs.sum := List.sum_nonneg fun x hm => (hy x (hsub.subset hm)).2
  refine (sum_error h t xs (fun x hx => hy x (hsub.subset hx)) (hle.trans hs) (by omega)).trans ?_
  refine mul_le_mul_of_nonneg_right (mul_le_mul_of_nonneg_right (by exact_mod_cast hl) (by positivity)) h0

theorem reduceat_close {F : Impl} (h : F.Legal) (ys : List ℝ) (hy : ∀ x ∈ ys, Rep x ∧ 0 ≤ x) (hs : ys.sum ≤ 2 ^ 1022) (hn : ys.length ≤ 2 ^ 52) :
    ∀ idx : List ℕ, List.Forall₂ (Close ys.length) (F.reduceat ys idx) (reduceat ys idx)
  | [] => .nil
  | [a] => .cons (sum_close h a (List.drop_sublist a ys) hy hs hn) .nil
  | a :: b :: r => by
    simp only [Impl.reduceat, reduceat]
    refine .cons ?_ (reduceat_close h ys hy hs hn (b :: r))
    split
    · exact sum_close h a ((List.drop_sublist _ _).trans (List.take_sublist _ _)) hy hs hn
    · refine close_self _ ?_
      rw [List.getD_eq_getElem?_getD]
      cases hg : ys[a]? with
      | none => simp
      | some v => exact (hy v (List.mem_of_getElem? hg)).2

theorem rep_zero : Rep 0 := ⟨0, 0, by norm_num, by norm_num, by norm_num, by simp⟩

theorem kept_error {F : Impl} (h : F.Legal) : ∀ (q ys : List ℝ), (∀ x ∈ q, x = 0 ∨ x = 1) → (∀ x ∈ ys, Rep x ∧ 0 ≤ x) → ys.sum ≤ 2 ^ 1022 →
    List.zipWith (fun q c => F.rnd (q * c)) q ys = mulArr q ys ∧ (∀ x ∈ mulArr q ys, Rep x ∧ 0 ≤ x) ∧ (mulArr q ys).sum ≤ ys.sum
  | [], ys, _, hy, _ => by
    refine ⟨by simp [mulArr], by simp [mulArr], ?_⟩
    simpa [mulArr] using List.sum_nonneg fun x hm => (hy x hm).2
  | _ :: _, [], _, _, _ => by simp [mulArr]
  | x :: q, y :: ys, hq, hy, hs => by
    have hy1 := hy y (by simp)
    have h0 : 0 ≤ ys.sum := List.sum_nonneg fun z hm => (hy z (List.mem_cons_of_mem _ hm)).2
    rw [List.sum_cons] at hs
    obtain ⟨e1, e2, e3⟩ := kept_error h q ys (fun z hz => hq z (List.mem_cons_of_mem _ hz)) (fun z hz => hy z (List.mem_cons_of_mem _ hz))
      (le_trans (by linarith [hy1.2]) hs)
    have hyb : |y| ≤ 2 ^ 1023 := by
      rw [abs_of_nonneg hy1.2]
      exact (le_trans (by linarith) hs).trans (pow_le_pow_right₀ (by norm_num) (by norm_num))
    have hval : F.rnd (x * y) = x * y ∧ Rep (x * y) ∧ 0 ≤ x * y ∧ x * y ≤ y := by
      rcases hq x (by simp) with hx | hx
      · rw [hx, zero_mul]
        exact ⟨h.rnd_rep rep_zero (by rw [abs_zero]; positivity), rep_zero, le_refl _, hy1.2⟩
      · rw [hx, one_mul]
        exact ⟨h.rnd_rep hy1.1 hyb, hy1.1, hy1.2, le_refl _⟩
    simp only [mulArr] at e1 e2 e3 ⊢
    simp only [List.zipWith_cons_cons, List.mem_cons, List.sum_cons]
    refine ⟨by rw [e1, hval.1], ?_, by linarith [hval.2.2.2]⟩
    rintro z (rfl | hz)
    · exact ⟨hval.2.1, hval.2.2.1⟩
    · exact e2 z hz

/-- **C145 (counts).** For counts that are any non-negative float64 numbers (counts of Gaussian data, scaled counts), the counts of the groups are computed
with a relative error of at most `N * 2 ^ -52`, `N` the number of channels, whatever the order of the additions: one value for every group, with the same
refusals. -/
theorem C145_group_counts {F : Impl} (h : F.Legal) (s : Data.Spectrum) (hc : ∀ x ∈ s.counts, Rep x ∧ 0 ≤ x) (hs : s.counts.sum ≤ 2 ^ 1022)
    (hn : s.counts.length ≤ 2 ^ 52) (flags : List Int) (quality : Option (List Bool)) :
    match F.groupCounts s.counts flags quality, s.group flags quality with
    | .ok computed, .ok (exact, _) => computed.length = exact.length ∧
        ∀ (i : ℕ) (a b : ℝ), computed[i]? = some a → exact[i]? = some b → |a - b| ≤ s.counts.length * 2 ^ (-52 : ℤ) * b
    | .error e, .error e' => e = e'
    | _, _ => False := by
  simp only [Impl.groupCounts, Data.Spectrum.group]
  split_ifs with h1 h2
  · rfl
  · rfl
  · obtain ⟨k1, k2, k3⟩ := kept_error h (qualityFactor quality s.counts.length) s.counts (by
      intro x hx
      cases quality with
      | none => simp only [qualityFactor, List.mem_replicate] at hx; exact Or.inr hx.2
      | some q =>
        simp only [qualityFactor, List.mem_map] at hx
        obtain ⟨b, _, rfl⟩ := hx
        cases b <;> simp) hc hs
    have hlen : (mulArr (qualityFactor quality s.counts.length) s.counts).length ≤ s.counts.length := by
      simp [mulArr]
    have hf := reduceat_close h _ k2 (k3.trans hs) (hlen.trans hn) (groupIdx flags)
    rw [k1]
    refine ⟨hf.length_eq, ?_⟩
    intro i a b ha hb
    obtain ⟨ia, ea⟩ := List.getElem?_eq_some_iff.1 ha
    obtain ⟨ib, eb⟩ := List.getElem?_eq_some_iff.1 hb
    have hcl := hf.get ia ib
    simp only [List.get_eq_getElem] at hcl
    rw [ea, eb] at hcl
    refine le_trans hcl (mul_le_mul_of_nonneg_right (mul_le_mul_of_nonneg_right (by exact_mod_cast hlen) (by positivity)) ?_)
    by_contra hneg
    have hpos : (0 : ℝ) ≤ _ := le_trans (abs_nonneg _) hcl
    rcases (mul_nonneg_iff.1 hpos) with ⟨_, hb0⟩ | ⟨hle, _⟩
    · exact hneg hb0
    · have hz : ((mulArr (qualityFactor quality s.counts.length) s.counts).length : ℝ) = 0 := by
        refine le_antisymm ?_ (by positivity)
        by_contra hp
        have : (0 : ℝ) < _ * 2 ^ (-52 : ℤ) := mul_pos (not_le.1 hp) (by positivity)
        linarith
      have hz' : (mulArr (qualityFactor quality s.counts.length) s.counts) = [] := List.length_eq_zero_iff.1 (by exact_mod_cast hz)
      have hmem : ∀ idx : List ℕ, ∀ v ∈ reduceat ([] : List ℝ) idx, v = 0 := by
        intro idx
        induction idx with
        | nil => simp [reduceat]
        | cons c r ih =>
          cases r with
          | nil => simp [reduceat]
          | cons d r =>
            intro v hv
            simp only [reduceat, List.mem_cons] at hv
            rcases hv with rfl | hv
            · split <;> simp [sliceSum]
            · exact ih v hv
      rw [hz'] at hb
      exact hneg (hmem _ b (List.mem_of_getElem? hb)).ge

/-! ## The limit -/

/-- `2 ^ 53 + 1` is not a number of the format. -/
theorem not_rep : ¬ Rep (2 ^ 53 + 1) := by
  rintro ⟨m, e, hm, _, _, he⟩
  have hm' := abs_lt.1 hm
  have h2 := two_zpow_pos e
  have hcast : (m : ℝ) < 2 ^ 53 := by exact_mod_cast hm'.2
  rcases le_or_gt e 0 with h0 | h0
  · have h1 : (2 : ℝ) ^ e ≤ 1 := by
      rw [← zpow_zero (2 : ℝ)]; exact zpow_le_zpow_right₀ (by norm_num) h0
    have hmpos : (0 : ℝ) < m := by
      by_contra hc
      have := mul_nonpos_of_nonpos_of_nonneg (not_lt.1 hc) h2.le
      rw [← he] at this
      norm_num at this
    have := mul_le_mul_of_nonneg_left h1 hmpos.le
    linarith
  · obtain ⟨j, hj⟩ := Int.eq_ofNat_of_zero_le (show 0 ≤ e - 1 by omega)
    have e1 : (2 : ℝ) ^ e = 2 * 2 ^ j := by
      rw [show e = 1 + (j : ℤ) by omega, zpow_add₀ (by norm_num), zpow_one, zpow_natCast]
    rw [e1] at he
    have hz : (2 ^ 53 + 1 : ℤ) = m * (2 * 2 ^ j) := by exact_mod_cast he
    have : (2 : ℤ) ∣ 2 ^ 53 + 1 := ⟨m * 2 ^ j, by rw [hz]; ring⟩
    norm_num at this

/-- **C144 (limit).** The bound `2 ^ 53` cannot be raised: a group of two channels with `2 ^ 53` counts and one count is given a wrong number of counts, by
every implementation. -/
theorem C144_limit {F : Impl} (h : F.Legal) : F.groupCounts (asFloat [2 ^ 53, 1]) [1, -1] none ≠ .ok [2 ^ 53 + 1] := by
  have hr : ∀ x ∈ asFloat [2 ^ 53, 1], Rep x ∧ 0 ≤ x := by
    intro x hx
    obtain ⟨k, hk, rfl⟩ := List.mem_map.1 hx
    refine ⟨?_, by positivity⟩
    have : Rep ((k : ℤ) : ℝ) := rep_int (by
      rcases List.mem_cons.1 hk with rfl | hk
      · norm_num
      · rw [List.mem_singleton.1 hk]; norm_num)
    simpa using this
  have hbig : (2 : ℝ) ^ 54 ≤ 2 ^ 1022 := pow_le_pow_right₀ (by norm_num) (by norm_num)
  have hsum : (asFloat [2 ^ 53, 1]).sum ≤ 2 ^ 1022 := by
    refine le_trans ?_ hbig
    norm_num [asFloat]
  intro hc
  obtain ⟨k1, -, -⟩ := kept_error h [1, 1] (asFloat [2 ^ 53, 1]) (by simp) hr hsum
  have k4 : mulArr [1, 1] (asFloat [2 ^ 53, 1]) = asFloat [2 ^ 53, 1] := by simp [mulArr, asFloat]
  have hq : qualityFactor (none : Option (List Bool)) (asFloat [2 ^ 53, 1]).length = ([1, 1] : List ℝ) := by simp [qualityFactor, asFloat]
  have hg : groupIdx [1, -1] = [0] := by decide
  simp only [Impl.groupCounts, hq, k1, k4, hg, Impl.reduceat, List.drop_zero] at hc
  have hv : F.sum 0 (asFloat [2 ^ 53, 1]) = 2 ^ 53 + 1 := by
    simpa [asFloat] using hc
  have hp := h.leaves 0 (asFloat [2 ^ 53, 1]) (by simp [asFloat])
  have hval : F.sum 0 (asFloat [2 ^ 53, 1]) = (F.order 0 (asFloat [2 ^ 53, 1])).value F.rnd := rfl
  have hd : (F.order 0 (asFloat [2 ^ 53, 1])).depth ≤ 1 := by
    have := (F.order 0 (asFloat [2 ^ 53, 1])).depth_lt
    rw [hp.length_eq] at this
    simpa [asFloat] using this
  have ht := (tree_error h (F.order 0 (asFloat [2 ^ 53, 1])) (fun y hy => hr y (hp.mem_iff.1 hy)) (by
    rw [hp.sum_eq]
    have hu := unit_pos
    have hone : unit ≤ 1 := by linarith [one_sub_unit.1]
    calc (asFloat [2 ^ 53, 1]).sum * (1 + unit) ^ (F.order 0 (asFloat [2 ^ 53, 1])).depth ≤ 2 ^ 1022 * 2 := by
          refine mul_le_mul hsum ?_ (by positivity) (by positivity)
          calc (1 + unit) ^ (F.order 0 (asFloat [2 ^ 53, 1])).depth ≤ (1 + unit) ^ 1 := pow_le_pow_right₀ (by linarith) hd
            _ ≤ 2 := by rw [pow_one]; linarith
      _ = 2 ^ 1023 := (pow_succ _ _).symm)).1
  rw [← hval, hv] at ht
  exact not_rep ht

/-! ## There are such implementations -/

theorem rep_finite : {y : ℝ | Rep y}.Finite := by
  have : {y : ℝ | Rep y} ⊆ (fun p : ℤ × ℤ => (p.1 : ℝ) * 2 ^ p.2) '' (Set.Icc (-2 ^ 53) (2 ^ 53) ×ˢ Set.Icc (-1074) 971) := by
    rintro y ⟨m, e, hm, h1, h2, rfl⟩
    have := abs_lt.1 hm
    exact ⟨(m, e), ⟨⟨by omega, by omega⟩, h1, h2⟩, rfl⟩
  exact ((Set.finite_Icc _ _).prod (Set.finite_Icc _ _)).image _ |>.subset this

theorem nearest_exists (x : ℝ) : ∃ y, Rep y ∧ ∀ z, Rep z → |y - x| ≤ |z - x| :=
  Set.exists_min_image {y : ℝ | Rep y} (fun y => |y - x|) rep_finite ⟨0, rep_zero⟩

/-- The sum from left to right. -/
def leftTree : Tree → List ℝ → Tree
  | t, [] => t
  | t, x :: xs => leftTree (.node t (.leaf x)) xs

theorem leftTree_leaves : ∀ (xs : List ℝ) (t : Tree), (leftTree t xs).leaves = t.leaves ++ xs
  | [], t => by simp [leftTree]
  | x :: xs, t => by rw [leftTree, leftTree_leaves xs]; simp [Tree.leaves]

/-- Rounding to a nearest number, sums from left to right. -/
noncomputable def leftImpl : Impl where
  rnd x := Classical.choose (nearest_exists x)
  order _ xs := match xs with
    | [] => .leaf 0
    | x :: xs => leftTree (.leaf x) xs

theorem leftImpl_legal : leftImpl.Legal where
  nearest x _ := Classical.choose_spec (nearest_exists x)
  leaves t xs h := by
    cases xs with
    | nil => exact absurd rfl h
    | cons x xs =>
      show (leftTree (.leaf x) xs).leaves.Perm (x :: xs)
      rw [leftTree_leaves]
      simp [Tree.leaves]

example := C144_group_min leftImpl_legal [3, 0, 12, 7] (by norm_num) 10
example : leftImpl.groupMin (asFloat [3, 0, 12, 7]) ((10 : ℕ) : ℝ) = .ok ([1, -1, -1, -1], true) := by
  rw [C144_group_min leftImpl_legal [3, 0, 12, 7] (by norm_num) 10]
  decide
example := C144_group_opt leftImpl_legal [2, 2, 1, 1] [3, 0, 12, 7] (by norm_num) 10 (by norm_num)
example := C144_group_counts leftImpl_legal ⟨asFloat [3, 0, 12, 7], [0, 0, 0, 0], [0, 0, 1, 0], [1, -1, 1, -1], true, 1, [1], [1], none⟩ [3, 0, 12, 7] rfl (by norm_num) [1, -1, 1, -1] (some [true, true, false, true])
example := C144_limit leftImpl_legal
example := C145_group_counts leftImpl_legal ⟨[1 / 2, 3 / 4], [0, 0], [0, 0], [1, -1], false, 1, [1], [1], none⟩ (by
    have h1 : Rep (1 / 2) := ⟨1, -1, by norm_num, by norm_num, by norm_num, by norm_num⟩
    have h2 : Rep (3 / 4) := ⟨3, -2, by norm_num, by norm_num, by norm_num, by norm_num⟩
    intro x hx
    simp only [List.mem_cons, List.not_mem_nil, or_false] at hx
    rcases hx with rfl | rfl
    · exact ⟨h1, by norm_num⟩
    · exact ⟨h2, by norm_num⟩) (by
    refine le_trans ?_ (pow_le_pow_right₀ (by norm_num) (by norm_num) : (2 : ℝ) ^ 1 ≤ 2 ^ 1022)
    norm_num) (by norm_num) [1, -1] none

end Elisa.Grouping.Fl
