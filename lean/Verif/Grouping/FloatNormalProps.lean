import Verif.Grouping.FloatNormal
import Verif.Grouping.FloatErrorProps
import Verif.Grouping.SigProps
import Verif.Infer.FloatStatProps
import Mathlib.Tactic.Linarith
import Mathlib.Tactic.NormNum
import Mathlib.Tactic.Positivity

/-!
# The grouping by plain significance in float64 (C156)
-/

namespace Elisa.Grouping.Fl

open Elisa Elisa.Grouping Elisa.Infer.Fl

/-! ## Sums of numbers of either sign, in any order -/

/-- Adding two numbers of the format of either sign: relative error at most `2 ^ -53`. -/
theorem plus_error {rnd} (h : Nearest rnd) {a b : ℝ} (ha : Rep a) (hb : Rep b) (hs : |a + b| ≤ 2 ^ 1023) :
    Rep (rnd (a + b)) ∧ |rnd (a + b) - (a + b)| ≤ unit * |a + b| := by
  obtain ⟨hr, hn⟩ := h (a + b) hs
  refine ⟨hr, ?_⟩
  rcases le_or_gt (2 ^ (-1022 : ℤ)) |a + b| with hc | hc
  · obtain ⟨y, hy, he⟩ := near_rep hc hs
    rcases le_total 0 (a + b) with h0 | h0
    · rw [abs_of_nonneg h0] at he ⊢
      exact (hn y hy).trans he
    · rw [abs_of_nonpos h0] at he ⊢
      refine (hn (-y) (rep_neg hy)).trans ?_
      rw [show -y - (a + b) = -(y - -(a + b)) by ring, abs_neg]
      exact he
  · obtain ⟨k, hk⟩ := rep_multiple ha
    obtain ⟨l, hl⟩ := rep_multiple hb
    have hkl : a + b = ((k + l : ℤ) : ℝ) * 2 ^ (-1074 : ℤ) := by rw [hk, hl]; push_cast; ring
    have hE := two_zpow_pos (-1074)
    have hlt : |((k + l : ℤ) : ℝ)| < 2 ^ 52 := by
      rw [hkl, abs_mul, abs_of_pos hE, show (-1022 : ℤ) = ((52 : ℕ) : ℤ) + -1074 by norm_num, zpow_add₀ (by norm_num), zpow_natCast] at hc
      exact lt_of_mul_lt_mul_right hc hE.le
    have hlt' : |k + l| < 2 ^ 52 := by exact_mod_cast hlt
    have hrep : Rep (a + b) := ⟨k + l, -1074, by omega, le_refl _, by norm_num, hkl⟩
    rw [h.fix hrep (by rw [← nat1023]; exact hs), sub_self, abs_zero]
    exact mul_nonneg unit_pos.le (abs_nonneg _)

/-- Sum of the absolute values. -/
def mass (xs : List ℝ) : ℝ := (xs.map fun x => |x|).sum

theorem mass_nonneg (xs : List ℝ) : 0 ≤ mass xs := List.sum_nonneg (by simp)

theorem sum_le_mass : ∀ xs : List ℝ, |xs.sum| ≤ mass xs
  | [] => by simp [mass]
  | x :: xs => by
    have := sum_le_mass xs
    simp only [mass, List.map_cons, List.sum_cons] at this ⊢
    exact (abs_add_le _ _).trans (by linarith)

theorem mass_append (xs ys : List ℝ) : mass (xs ++ ys) = mass xs + mass ys := by simp [mass]

theorem tree_signed {rnd} (h : Nearest rnd) : ∀ t : Tree, (∀ x ∈ t.leaves, Rep x) → mass t.leaves * (1 + unit) ^ t.depth ≤ 2 ^ 1023 →
    Rep (t.value rnd) ∧ |t.value rnd - t.leaves.sum| ≤ ((1 + unit) ^ t.depth - 1) * mass t.leaves
  | .leaf x, hx, _ => by
    have := hx x (by simp [Tree.leaves])
    simpa [Tree.leaves, Tree.depth, Tree.value] using this
  | .node l r, hx, hs => by
    simp only [Tree.leaves, List.mem_append, List.sum_append, Tree.depth, mass_append] at hx hs ⊢
    have hl0 := mass_nonneg l.leaves
    have hr0 := mass_nonneg r.leaves
    have hu := unit_pos
    have hone : (1 : ℝ) ≤ 1 + unit := by linarith
    generalize hd : max l.depth r.depth = d at *
    have pl : (1 + unit) ^ l.depth ≤ (1 + unit) ^ d := pow_le_pow_right₀ hone (by omega)
    have pr : (1 + unit) ^ r.depth ≤ (1 + unit) ^ d := pow_le_pow_right₀ hone (by omega)
    have p1 : 1 ≤ (1 + unit) ^ d := one_le_pow₀ hone
    have ps : (1 + unit) ^ (d + 1) = (1 + unit) ^ d * (1 + unit) := pow_succ _ _
    rw [ps] at hs ⊢
    generalize (1 + unit) ^ d = G at *
    have hsum : (mass l.leaves + mass r.leaves) * G ≤ 2 ^ 1023 := by
      refine le_trans ?_ hs
      rw [← mul_assoc]
      exact le_mul_of_one_le_right (by positivity) hone
    have bl : mass l.leaves * (1 + unit) ^ l.depth ≤ mass l.leaves * G := mul_le_mul_of_nonneg_left pl hl0
    have br : mass r.leaves * (1 + unit) ^ r.depth ≤ mass r.leaves * G := mul_le_mul_of_nonneg_left pr hr0
    have nl : 0 ≤ mass l.leaves * G := by positivity
    have nr : 0 ≤ mass r.leaves * G := by positivity
    rw [add_mul] at hsum
    obtain ⟨rl, l1⟩ := tree_signed h l (fun x hm => hx x (Or.inl hm)) (bl.trans ((le_add_of_nonneg_right nr).trans hsum))
    obtain ⟨rr, r1⟩ := tree_signed h r (fun x hm => hx x (Or.inr hm)) (br.trans ((le_add_of_nonneg_left nl).trans hsum))
    have l2 : |l.value rnd - l.leaves.sum| ≤ (G - 1) * mass l.leaves := l1.trans (mul_le_mul_of_nonneg_right (by linarith only [pl]) hl0)
    have r2 : |r.value rnd - r.leaves.sum| ≤ (G - 1) * mass r.leaves := r1.trans (mul_le_mul_of_nonneg_right (by linarith only [pr]) hr0)
    have vb : |l.value rnd + r.value rnd| ≤ mass l.leaves * G + mass r.leaves * G := by
      have e1 := abs_add_le (l.value rnd - l.leaves.sum) l.leaves.sum
      have e2 := abs_add_le (r.value rnd - r.leaves.sum) r.leaves.sum
      rw [sub_add_cancel] at e1 e2
      have e3 := sum_le_mass l.leaves
      have e4 := sum_le_mass r.leaves
      have e5 := abs_add_le (l.value rnd) (r.value rnd)
      linarith only [e1, e2, e3, e4, e5, l2, r2]
    obtain ⟨hrep, herr⟩ := plus_error h rl rr (vb.trans hsum)
    refine ⟨hrep, ?_⟩
    rw [Tree.value]
    have e1 := abs_add_le (rnd (l.value rnd + r.value rnd) - (l.value rnd + r.value rnd)) ((l.value rnd - l.leaves.sum) + (r.value rnd - r.leaves.sum))
    have e2 := abs_add_le (l.value rnd - l.leaves.sum) (r.value rnd - r.leaves.sum)
    rw [show rnd (l.value rnd + r.value rnd) - (l.value rnd + r.value rnd) + ((l.value rnd - l.leaves.sum) + (r.value rnd - r.leaves.sum))
      = rnd (l.value rnd + r.value rnd) - (l.leaves.sum + r.leaves.sum) by ring] at e1
    have e3 := mul_le_mul_of_nonneg_left vb hu.le
    rw [show (G * (1 + unit) - 1) * (mass l.leaves + mass r.leaves)
      = unit * (mass l.leaves * G + mass r.leaves * G) + ((G - 1) * mass l.leaves + (G - 1) * mass r.leaves) by ring]
    linarith only [e1, e2, e3, herr, l2, r2]

/-- The computed sum of at most `2 ^ 40` numbers, in any order, starting with zero or not. -/
theorem order_error {rnd} (h : Nearest rnd) {xs : List ℝ} (hx : ∀ x ∈ xs, Rep x) (hn : xs.length ≤ 2 ^ 40) (hm : mass xs ≤ 2 ^ (1000 : ℤ)) {t : Tree}
    (ht : t.leaves.Perm xs ∨ t.leaves = 0 :: xs) :
    Rep (t.value rnd) ∧ |t.value rnd - xs.sum| ≤ xs.length * 2 ^ (-52 : ℤ) * mass xs := by
  have hd : t.depth ≤ xs.length := by
    have := t.depth_lt
    rcases ht with ht | ht
    · rw [ht.length_eq] at this; omega
    · rw [ht, List.length_cons] at this; omega
  have hs : t.leaves.sum = xs.sum := by
    rcases ht with ht | ht
    · exact ht.sum_eq
    · rw [ht, List.sum_cons, zero_add]
  have ha : mass t.leaves = mass xs := by
    rcases ht with ht | ht
    · exact (ht.map _).sum_eq
    · rw [ht]; simp [mass]
  have hr : ∀ x ∈ t.leaves, Rep x := by
    intro x hx'
    rcases ht with ht | ht
    · exact hx x (ht.mem_iff.1 hx')
    · rw [ht, List.mem_cons] at hx'
      rcases hx' with rfl | hx'
      · exact rep_zero
      · exact hx x hx'
  have hu := unit_pos
  have h0 := mass_nonneg xs
  have hg : (1 + unit) ^ t.depth ≤ 1 + 2 * xs.length * unit :=
    (pow_le_pow_right₀ (by linarith) hd).trans (grow xs.length (hn.trans (by norm_num)))
  have hle : (1 + unit) ^ t.depth ≤ 2 := by
    have h1 : (xs.length : ℝ) ≤ 2 ^ 40 := by exact_mod_cast hn
    have h2 : (2 : ℝ) ^ 40 * unit ≤ 1 / 2 := by unfold unit; norm_num
    have := mul_le_mul_of_nonneg_right h1 hu.le
    linarith
  have e : (2 : ℝ) ^ (-52 : ℤ) = 2 * unit := by unfold unit; norm_num
  obtain ⟨r1, r2⟩ := tree_signed h t hr (by
    rw [ha, nat1023]
    refine (mul_le_mul hm hle (by positivity) (two_zpow_pos _).le).trans ?_
    rw [show (2 : ℝ) ^ (1000 : ℤ) * 2 = 2 ^ (1001 : ℤ) by rw [show (1001 : ℤ) = 1000 + 1 by norm_num, zpow_add₀ (by norm_num), zpow_one]]
    exact zpow_le (by norm_num))
  refine ⟨r1, ?_⟩
  rw [← hs]
  refine r2.trans ?_
  rw [ha, e]
  refine mul_le_mul_of_nonneg_right ?_ h0
  linarith only [hg]

/-- The sum from left to right starting with zero, as in a loop. -/
theorem leftTree_value (rnd : ℝ → ℝ) : ∀ (xs : List ℝ) (t : Tree), (leftTree t xs).value rnd = xs.foldl (fun a x => rnd (a + x)) (t.value rnd)
  | [], t => rfl
  | x :: xs, t => by rw [leftTree, leftTree_value rnd xs]; rfl

/-- Channels `a` to `b - 1`. -/
def channels (xs : List ℝ) (a b : ℕ) : List ℝ := (xs.take b).drop a

theorem channels_sum (xs : List ℝ) (a b : ℕ) : (channels xs a b).sum = total xs a b := by rw [total_eq_sliceSum]; rfl

theorem channels_succ (xs : List ℝ) {a b : ℕ} (h : a ≤ b) (hb : b < xs.length) : channels xs a (b + 1) = channels xs a b ++ [xs[b]] := by
  unfold channels
  rw [List.take_succ_eq_append_getElem hb, List.drop_append_of_le_length (by rw [List.length_take]; omega)]

theorem channels_sub (xs : List ℝ) (a b : ℕ) : List.Sublist (channels xs a b) xs := (List.drop_sublist _ _).trans (List.take_sublist _ _)

theorem channels_map (f : ℝ → ℝ) (xs : List ℝ) (a b : ℕ) : channels (xs.map f) a b = (channels xs a b).map f := by
  simp [channels, List.map_drop, List.map_take]

/-- `p ≤ c` with computed numbers that are close to `P` and `C`. -/
theorem compare {c C p P m : ℝ} (hc : |c - C| + |p - P| ≤ m) (hm : m < |C - P| ∨ (c = C ∧ p = P)) : (0 ≤ c - p ↔ P ≤ C) := by
  rcases hm with hm | ⟨rfl, rfl⟩
  · have h1 := _root_.abs_le.1 (le_refl |c - C|)
    have h2 := _root_.abs_le.1 (le_refl |p - P|)
    rcases le_or_gt P C with h | h
    · rw [abs_of_nonneg (sub_nonneg.2 h)] at hm
      exact iff_of_true (by linarith) h
    · rw [abs_of_neg (sub_neg.2 h)] at hm
      exact iff_of_false (by linarith) (not_le.2 h)
  · exact sub_nonneg

/-- The root of a number known up to a share `r`. -/
theorem root_share {v V r : ℝ} (hV : 0 < V) (hr : r ≤ 1) (h : |v - V| ≤ r * V) : |Real.sqrt v - Real.sqrt V| ≤ r * Real.sqrt V := by
  have hv : 0 ≤ v := by
    have := (_root_.abs_le.1 h).1
    nlinarith
  have s0 := Real.sqrt_pos.2 hV
  have t0 := Real.sqrt_nonneg v
  have e1 := Real.mul_self_sqrt hV.le
  have e2 := Real.mul_self_sqrt hv
  have e3 : |Real.sqrt v - Real.sqrt V| * (Real.sqrt v + Real.sqrt V) = |v - V| := by
    have e := abs_mul (Real.sqrt v - Real.sqrt V) (Real.sqrt v + Real.sqrt V)
    rw [abs_of_nonneg (add_nonneg t0 s0.le)] at e
    rw [← e]
    congr 1
    linear_combination e2 - e1
  have e4 : |Real.sqrt v - Real.sqrt V| * Real.sqrt V ≤ r * Real.sqrt V * Real.sqrt V := by
    have := mul_nonneg (abs_nonneg (Real.sqrt v - Real.sqrt V)) t0
    rw [mul_add] at e3
    rw [mul_assoc, e1]
    linarith
  exact le_of_mul_le_mul_right e4 s0

/-- Size of an error of a channel: zero, or far from overflow and underflow when squared. -/
def Sigma (e : ℝ) : Prop := Rep e ∧ (e = 0 ∨ 2 ^ (-300 : ℤ) ≤ e ∧ e ≤ 2 ^ (300 : ℤ))

theorem square_error {rnd} (h : Nearest rnd) {e : ℝ} (he : Sigma e) : Rep (rnd (e * e)) ∧ 0 ≤ rnd (e * e) ∧ |rnd (e * e) - e * e| ≤ unit * (e * e) ∧ e * e ≤ 2 ^ (600 : ℤ) := by
  rcases he.2 with rfl | h1
  · have h0 : rnd (0 * 0) = 0 := by
      rw [mul_zero]
      exact h.fix rep_zero (by rw [abs_zero]; exact (two_zpow_pos _).le)
    rw [h0]
    refine ⟨rep_zero, le_refl _, by simp, ?_⟩
    rw [mul_zero]
    exact (two_zpow_pos _).le
  · have h2 := mul_in h1 h1
    have h3 := h.mem h2.1 h2.2 (by norm_num) (by norm_num)
    exact ⟨h3.1, (two_zpow_pos _).le.trans h3.2.1, h.rel h2 (by norm_num) (by norm_num), h2.2.trans (zpow_le (by norm_num))⟩

theorem squares_error {rnd} (h : Nearest rnd) : ∀ es : List ℝ, (∀ e ∈ es, Sigma e) →
    |(es.map fun e => rnd (e * e)).sum - (es.map fun e => e * e).sum| ≤ unit * (es.map fun e => e * e).sum
  | [], _ => by simp
  | e :: es, he => by
    have ih := squares_error h es fun x hx => he x (List.mem_cons_of_mem _ hx)
    have h1 := (square_error h (he e List.mem_cons_self)).2.2.1
    simp only [List.map_cons, List.sum_cons]
    generalize (es.map fun e => rnd (e * e)).sum = s at *
    generalize (es.map fun e => e * e).sum = t at *
    have := abs_add_le (rnd (e * e) - e * e) (s - t)
    rw [show rnd (e * e) - e * e + (s - t) = rnd (e * e) + s - (e * e + t) by ring] at this
    linarith

theorem list_bound {f : ℝ → ℝ} {B : ℝ} : ∀ es : List ℝ, (∀ e ∈ es, f e ≤ B) → (es.map f).sum ≤ es.length * B
  | [], _ => by simp
  | e :: es, he => by
    have ih := list_bound es fun x hx => he x (List.mem_cons_of_mem _ hx)
    have := he e List.mem_cons_self
    simp only [List.map_cons, List.sum_cons, List.length_cons]
    push_cast
    linarith

theorem list_pos {es : List ℝ} (he : ∀ e ∈ es, Sigma e) : (es.map fun e => e * e).sum = 0 ∨ 2 ^ (-600 : ℤ) ≤ (es.map fun e => e * e).sum := by
  induction es with
  | nil => left; rfl
  | cons e es ih =>
    have h0 : 0 ≤ (es.map fun e => e * e).sum := List.sum_nonneg (by simp; intro a _; exact mul_self_nonneg a)
    rw [List.map_cons, List.sum_cons]
    rcases (he e List.mem_cons_self).2 with rfl | h1
    · rw [mul_zero, zero_add]
      exact ih fun x hx => he x (List.mem_cons_of_mem _ hx)
    · right
      have h2 := (mul_in h1 h1).1
      rw [show (-300 : ℤ) + -300 = -600 by norm_num] at h2
      linarith only [h2, h0]

/-- The computed variance of some channels. -/
theorem variance_error {rnd} (h : Nearest rnd) {es : List ℝ} (he : ∀ e ∈ es, Sigma e) (hn : es.length ≤ 2 ^ 40) {t : Tree}
    (ht : t.leaves.Perm (es.map fun e => rnd (e * e)) ∨ t.leaves = 0 :: (es.map fun e => rnd (e * e))) :
    Rep (t.value rnd) ∧ |t.value rnd - (es.map fun e => e * e).sum| ≤ (es.length + 1) * 2 ^ (-52 : ℤ) * (es.map fun e => e * e).sum := by
  have hu := unit_pos
  have eu : (2 : ℝ) ^ (-52 : ℤ) = 2 * unit := by unfold unit; norm_num
  have hV : 0 ≤ (es.map fun e => e * e).sum := List.sum_nonneg (by simp; intro a _; exact mul_self_nonneg a)
  have hm : mass (es.map fun e => rnd (e * e)) = (es.map fun e => rnd (e * e)).sum := by
    unfold mass
    rw [List.map_map]
    congr 1
    refine List.map_congr_left fun e hx => abs_of_nonneg (square_error h (he e hx)).2.1
  have hq := squares_error h es he
  have hlen : (es.length : ℝ) ≤ 2 ^ 40 := by exact_mod_cast hn
  have hb : (es.map fun e => rnd (e * e)).sum ≤ 2 ^ (1000 : ℤ) := by
    refine (list_bound (B := 2 ^ (601 : ℤ)) es fun e hx => ?_).trans ?_
    · obtain ⟨-, -, h2, h3⟩ := square_error h (he e hx)
      have h4 := (_root_.abs_le.1 h2).2
      have h5 : unit ≤ 1 := by unfold unit; norm_num
      have h6 := mul_le_mul_of_nonneg_right h5 (mul_self_nonneg e)
      rw [show (601 : ℤ) = 600 + 1 by norm_num, zpow_add₀ (by norm_num), zpow_one]
      linarith only [h3, h4, h6]
    · refine (mul_le_mul_of_nonneg_right hlen (two_zpow_pos _).le).trans ?_
      rw [show (2 : ℝ) ^ 40 = 2 ^ (40 : ℤ) by norm_num, ← zpow_add₀ (by norm_num)]
      exact zpow_le (by norm_num)
  obtain ⟨r1, r2⟩ := order_error h (xs := es.map fun e => rnd (e * e)) (by
    intro x hx
    obtain ⟨e, hx', rfl⟩ := List.mem_map.1 hx
    exact (square_error h (he e hx')).1) (by rwa [List.length_map]) (by rwa [hm]) ht
  refine ⟨r1, ?_⟩
  rw [hm, List.length_map, eu] at r2
  rw [eu]
  generalize (es.map fun e => rnd (e * e)).sum = Q at *
  generalize (es.map fun e => e * e).sum = V at *
  have h1 := abs_sub_le (t.value rnd) Q V
  have h2 : (2 : ℝ) ^ 40 * (2 * unit) ≤ 1 / 4 := by unfold unit; norm_num
  have h3 := mul_le_mul_of_nonneg_right hlen (by positivity : 0 ≤ 2 * unit)
  have h4 : Q ≤ V + unit * V := by linarith only [(_root_.abs_le.1 hq).2]
  have h5 : (es.length : ℝ) * (2 * unit) * Q ≤ es.length * (2 * unit) * (V + unit * V) := mul_le_mul_of_nonneg_left h4 (by positivity)
  have h6 : (es.length : ℝ) * (2 * unit) * (unit * V) ≤ 1 / 4 * (unit * V) := mul_le_mul_of_nonneg_right (h3.trans h2) (by positivity)
  have h7 : 0 ≤ unit * V := by positivity
  linarith only [h1, r2, hq, h5, h6, h7]

/-- `sig * np.sqrt(group_variance)`. -/
theorem limit_error {rnd} (h : Nearest rnd) {sig v V r : ℝ} (hs : 2 ^ (-30 : ℤ) ≤ sig ∧ sig ≤ 2 ^ (30 : ℤ)) (hV : V = 0 ∨ 2 ^ (-600 : ℤ) ≤ V) (hV2 : V ≤ 2 ^ (640 : ℤ))
    (hr : r ≤ 1 / 4) (h0 : |v - V| ≤ r * V) :
    Rep (rnd (sig * rnd (Real.sqrt v))) ∧ |rnd (sig * rnd (Real.sqrt v)) - sig * Real.sqrt V| ≤ (r + 3 * unit) * (sig * Real.sqrt V) ∧
      rnd (sig * rnd (Real.sqrt v)) ≤ 2 ^ (1000 : ℤ) := by
  have hz : rnd 0 = 0 := h.fix rep_zero (by rw [abs_zero]; exact (two_zpow_pos _).le)
  have sig0 : 0 < sig := (two_zpow_pos _).trans_le hs.1
  rcases hV with rfl | hV
  · have : v = 0 := by
      rw [mul_zero, sub_zero] at h0
      exact abs_nonpos_iff.1 h0
    rw [this, Real.sqrt_zero, hz, mul_zero, hz]
    refine ⟨rep_zero, by simp, (two_zpow_pos _).le⟩
  · have V0 : 0 < V := (two_zpow_pos _).trans_le hV
    have hv := _root_.abs_le.1 h0
    have hrV := mul_le_mul_of_nonneg_right hr V0.le
    have r0 : 0 ≤ r := by
      by_contra hc
      have : r * V < 0 := mul_neg_of_neg_of_pos (not_le.1 hc) V0
      exact absurd ((abs_nonneg _).trans h0) (not_le.2 this)
    have v1 : 2 ^ (-602 : ℤ) ≤ v := by
      have e : (2 : ℝ) ^ (-600 : ℤ) = 4 * 2 ^ (-602 : ℤ) := by
        rw [show (-600 : ℤ) = 2 + -602 by norm_num, zpow_add₀ (by norm_num)]; norm_num
      have := two_zpow_pos (-602)
      rw [e] at hV
      linarith only [hV, hv.1, hrV, this]
    have v2 : v ≤ 2 ^ (642 : ℤ) := by
      have e : (2 : ℝ) ^ (642 : ℤ) = 4 * 2 ^ (640 : ℤ) := by
        rw [show (642 : ℤ) = 2 + 640 by norm_num, zpow_add₀ (by norm_num)]; norm_num
      rw [e]
      clear e
      generalize (2 : ℝ) ^ (640 : ℤ) = z at *
      linarith only [hV2, hv.2, hrV, V0]
    have t1 : (2 : ℝ) ^ (-301 : ℤ) ≤ Real.sqrt v := by
      refine Real.le_sqrt_of_sq_le ?_
      rw [sq, ← zpow_add₀ (by norm_num)]
      exact v1
    have t2 : Real.sqrt v ≤ (2 : ℝ) ^ (321 : ℤ) := by
      refine Real.sqrt_le_iff.2 ⟨(two_zpow_pos _).le, ?_⟩
      rw [sq, ← zpow_add₀ (by norm_num)]
      exact v2
    have t3 := root_share V0 (hr.trans (by norm_num)) h0
    have m1 := h.mem t1 t2 (by norm_num) (by norm_num)
    have e1 := h.rel ⟨t1, t2⟩ (by norm_num) (by norm_num)
    have p1 := mul_in hs m1.2
    have m2 := h.mem p1.1 p1.2 (by norm_num) (by norm_num)
    have e2 := h.rel p1 (by norm_num) (by norm_num)
    refine ⟨m2.1, ?_, m2.2.2.trans (zpow_le (by norm_num))⟩
    have S0 := Real.sqrt_pos.2 V0
    have hu := unit_pos
    have hu2 : unit ≤ 1 / 1000 := by unfold unit; norm_num
    clear hs m2 p1 m1 t1 t2 v1 v2 hV2 hV
    generalize Real.sqrt V = S at *
    generalize Real.sqrt v = s at *
    generalize rnd s = s' at *
    generalize rnd (sig * s') = p at *
    have a1 : s ≤ (1 + r) * S := by linarith only [(_root_.abs_le.1 t3).2]
    have a2 : |s' - S| ≤ unit * ((1 + r) * S) + r * S := by
      have := abs_sub_le s' s S
      have := mul_le_mul_of_nonneg_left a1 hu.le
      linarith
    have a3 : |sig * s' - sig * S| ≤ sig * (unit * ((1 + r) * S) + r * S) := by
      rw [← mul_sub, abs_mul, abs_of_pos sig0]
      exact mul_le_mul_of_nonneg_left a2 sig0.le
    have a4 : sig * s' ≤ sig * S + sig * (unit * ((1 + r) * S) + r * S) := by linarith only [(_root_.abs_le.1 a3).2]
    have a5 := abs_sub_le p (sig * s') (sig * S)
    have a6 := mul_le_mul_of_nonneg_left a4 hu.le
    have a7 : 0 < sig * S := mul_pos sig0 S0
    have e : sig * (unit * ((1 + r) * S) + r * S) = (unit * (1 + r) + r) * (sig * S) := by ring
    rw [e] at a3 a6
    generalize sig * S = T at *
    have b1 : |p - T| ≤ (unit * (1 + (unit * (1 + r) + r)) + (unit * (1 + r) + r)) * T := by
      linarith only [a5, e2, a6, a3]
    refine b1.trans (mul_le_mul_of_nonneg_right ?_ a7.le)
    nlinarith only [hu, hu2, r0, hr, mul_nonneg hu.le r0, mul_nonneg hu.le hu.le, mul_le_mul_of_nonneg_left hr hu.le, mul_le_mul_of_nonneg_left hu2 hu.le,
      mul_nonneg (mul_nonneg hu.le hu.le) r0, mul_le_mul_of_nonneg_left hr (mul_nonneg hu.le hu.le)]

/-! ## One test -/

/-- The margin that keeps a test from being decided by rounding, for channels with counts `cs` and errors `es` out of `n`. -/
def Decided (n : ℕ) (sig : ℝ) (cs es : List ℝ) : Prop :=
  (mass cs = 0 ∧ (es.map fun e => e * e).sum = 0) ∨
    (n + 3) * 2 ^ (-52 : ℤ) * (mass cs + sig * Real.sqrt (es.map fun e => e * e).sum) < |cs.sum - sig * Real.sqrt (es.map fun e => e * e).sum|

/-- Counts whose sums do not overflow. -/
def Countable (c : ℝ) : Prop := Rep c ∧ |c| ≤ 2 ^ (900 : ℤ)

theorem test_same {F : Impl} (h : F.Legal) {n : ℕ} {sig : ℝ} {cs es : List ℝ} (hc : ∀ c ∈ cs, Countable c) (he : ∀ e ∈ es, Sigma e) (hn : n ≤ 2 ^ 40) (h1 : cs.length ≤ n)
    (h2 : es.length ≤ n) (hs : 2 ^ (-30 : ℤ) ≤ sig ∧ sig ≤ 2 ^ (30 : ℤ)) (hd : Decided n sig cs es) {tc tv : Tree} (hc' : tc.leaves.Perm cs ∨ tc.leaves = 0 :: cs)
    (hv' : tv.leaves.Perm (es.map fun e => F.rnd (e * e)) ∨ tv.leaves = 0 :: (es.map fun e => F.rnd (e * e))) :
    (0 ≤ F.excess sig (tc.value F.rnd) (tv.value F.rnd) ↔ sig * Real.sqrt (es.map fun e => e * e).sum ≤ cs.sum) ∧ 0 ≤ tv.value F.rnd ∧
      (tv.value F.rnd = 0 ↔ (es.map fun e => e * e).sum = 0) := by
  have hr : Nearest F.rnd := h.nearest
  have hlen : (n : ℝ) ≤ 2 ^ 40 := by exact_mod_cast hn
  have l1 : (cs.length : ℝ) ≤ n := by exact_mod_cast h1
  have l2 : (es.length : ℝ) ≤ n := by exact_mod_cast h2
  have sig0 : 0 < sig := (two_zpow_pos _).trans_le hs.1
  have hm : mass cs ≤ 2 ^ (940 : ℤ) := by
    refine (list_bound (f := fun x => |x|) cs fun c hx => (hc c hx).2).trans ?_
    refine (mul_le_mul_of_nonneg_right (l1.trans hlen) (two_zpow_pos _).le).trans ?_
    rw [show (2 : ℝ) ^ 40 = 2 ^ (40 : ℤ) by norm_num, ← zpow_add₀ (by norm_num)]
    exact zpow_le (by norm_num)
  obtain ⟨rc, ec⟩ := order_error hr (fun c hx => (hc c hx).1) (h1.trans hn) (hm.trans (zpow_le (by norm_num))) hc'
  obtain ⟨-, ev⟩ := variance_error hr he (h2.trans hn) hv'
  have hV2 : (es.map fun e => e * e).sum ≤ 2 ^ (640 : ℤ) := by
    refine (list_bound es fun e hx => (square_error hr (he e hx)).2.2.2).trans ?_
    refine (mul_le_mul_of_nonneg_right (l2.trans hlen) (two_zpow_pos _).le).trans ?_
    rw [show (2 : ℝ) ^ 40 = 2 ^ (40 : ℤ) by norm_num, ← zpow_add₀ (by norm_num)]
    exact zpow_le (by norm_num)
  have hV := list_pos he
  have V0 : 0 ≤ (es.map fun e => e * e).sum := List.sum_nonneg (by simp; intro a _; exact mul_self_nonneg a)
  have m0 := mass_nonneg cs
  have hcm := sum_le_mass cs
  unfold Decided at hd
  generalize (es.map fun e => e * e).sum = V at *
  generalize tc.value F.rnd = c at *
  generalize tv.value F.rnd = v at *
  have eu : (2 : ℝ) ^ (-52 : ℤ) = 2 * unit := by unfold unit; norm_num
  have hu := unit_pos
  have ku : ((n : ℝ) + 1) * 2 ^ (-52 : ℤ) ≤ 1 / 4 := by
    rw [eu]
    have e1 : ((2 : ℝ) ^ 40 + 1) * (2 * unit) ≤ 1 / 4 := by unfold unit; norm_num
    exact (mul_le_mul_of_nonneg_right (by linarith only [hlen]) (by positivity)).trans e1
  have ev' : |v - V| ≤ ((n : ℝ) + 1) * 2 ^ (-52 : ℤ) * V :=
    ev.trans (mul_le_mul_of_nonneg_right (mul_le_mul_of_nonneg_right (by linarith only [l2]) (two_zpow_pos _).le) V0)
  obtain ⟨rp, ep, bp⟩ := limit_error hr hs hV hV2 ku ev'
  have hvV := _root_.abs_le.1 (ev'.trans (mul_le_mul_of_nonneg_right ku V0))
  refine ⟨?_, by linarith only [hvV.1, V0], ?_⟩
  · unfold Impl.excess
    have T0 : 0 ≤ sig * Real.sqrt V := mul_nonneg sig0.le (Real.sqrt_nonneg _)
    have TV : V = 0 → sig * Real.sqrt V = 0 := by rintro rfl; rw [Real.sqrt_zero, mul_zero]
    have kk : ((n : ℝ) + 1) * 2 ^ (-52 : ℤ) + 3 * unit ≤ 1 := by
      have : unit ≤ 1 / 4 := by unfold unit; norm_num
      have := add_le_add ku (mul_le_mul_of_nonneg_left this (by norm_num : (0 : ℝ) ≤ 3))
      exact this.trans (by norm_num)
    have p0 : 0 ≤ F.rnd (sig * F.rnd (Real.sqrt v)) := by
      have := (_root_.abs_le.1 (ep.trans (mul_le_mul_of_nonneg_right kk T0))).1
      linarith only [this]
    generalize F.rnd (sig * F.rnd (Real.sqrt v)) = p at *
    have ec' : |c - cs.sum| ≤ (n : ℝ) * 2 ^ (-52 : ℤ) * mass cs :=
      ec.trans (mul_le_mul_of_nonneg_right (mul_le_mul_of_nonneg_right l1 (two_zpow_pos _).le) m0)
    have ku' : (n : ℝ) * 2 ^ (-52 : ℤ) ≤ 1 := le_trans (mul_le_mul_of_nonneg_right (by linarith only) (two_zpow_pos _).le) (ku.trans (by norm_num))
    have key : (0 ≤ c - p ↔ sig * Real.sqrt V ≤ cs.sum) := by
      generalize sig * Real.sqrt V = T at *
      have n0 : (0 : ℝ) ≤ n := Nat.cast_nonneg n
      refine compare (m := (n + 3) * 2 ^ (-52 : ℤ) * (mass cs + T)) ?_ ?_
      · have k1 : (n : ℝ) * 2 ^ (-52 : ℤ) * mass cs ≤ (n + 3) * 2 ^ (-52 : ℤ) * mass cs :=
          mul_le_mul_of_nonneg_right (mul_le_mul_of_nonneg_right (by linarith only) (two_zpow_pos _).le) m0
        have k2 : (((n : ℝ) + 1) * 2 ^ (-52 : ℤ) + 3 * unit) * T ≤ (n + 3) * 2 ^ (-52 : ℤ) * T := by
          refine mul_le_mul_of_nonneg_right ?_ T0
          rw [eu]
          linarith only [hu]
        rw [mul_add]
        exact (add_le_add ec' ep).trans (add_le_add k1 k2)
      · rcases hd with ⟨z1, z2⟩ | hd
        · right
          rw [z1, mul_zero] at ec'
          rw [TV z2, mul_zero] at ep
          rw [TV z2]
          exact ⟨sub_eq_zero.1 (abs_nonpos_iff.1 ec'), sub_eq_zero.1 (abs_nonpos_iff.1 ep)⟩
        · exact Or.inl hd
    rw [← key]
    have hb : |c + -p| ≤ 2 ^ 1023 := by
      have c1 : |c| ≤ 2 ^ (941 : ℤ) := by
        have d1 := ec'.trans (mul_le_mul_of_nonneg_right ku' m0)
        have d2 := abs_add_le (c - cs.sum) cs.sum
        rw [sub_add_cancel] at d2
        rw [show (941 : ℤ) = 940 + 1 by norm_num, zpow_add₀ (by norm_num), zpow_one]
        clear ku ku' kk
        generalize (2 : ℝ) ^ (940 : ℤ) = z at *
        linarith only [d1, d2, hm, hcm]
      have c2 : |-p| ≤ 2 ^ (1000 : ℤ) := by rw [abs_neg, abs_of_nonneg p0]; exact bp
      rw [nat1023]
      exact (add_abs (p := 941) (q := 1000) (r := 1001) c1 c2 (by norm_num) (by norm_num)).trans (zpow_le (by norm_num))
    obtain ⟨-, e1⟩ := plus_error hr rc (rep_neg rp) hb
    rw [← sub_eq_add_neg] at e1
    have e2 := _root_.abs_le.1 e1
    have hu1 : unit < 1 := by unfold unit; norm_num
    rcases le_or_gt 0 (c - p) with g | g
    · rw [abs_of_nonneg g] at e2
      have := mul_le_mul_of_nonneg_right hu1.le g
      exact iff_of_true (by linarith only [e2.1, this]) g
    · rw [abs_of_neg g] at e2
      have := mul_lt_mul_of_pos_right hu1 (neg_pos.2 g)
      exact iff_of_false (by linarith only [e2.2, this]) (not_le.2 g)
  · constructor
    · rintro rfl
      linarith only [hvV.2, hvV.1, V0]
    · rintro rfl
      rw [mul_zero, sub_zero] at ev'
      exact abs_nonpos_iff.1 ev'

/-! ## The loop and the final test -/

/-- The sum that the loop has computed. -/
noncomputable def running (rnd : ℝ → ℝ) (xs : List ℝ) : ℝ := xs.foldl (fun a x => rnd (a + x)) 0

theorem running_value (rnd : ℝ → ℝ) (xs : List ℝ) : running rnd xs = (leftTree (.leaf 0) xs).value rnd := (leftTree_value rnd xs (.leaf 0)).symm

theorem running_leaves (xs : List ℝ) : (leftTree (.leaf 0) xs).leaves = 0 :: xs := by rw [leftTree_leaves]; rfl

section
variable {F : Impl} {sig : ℝ} {count error : List ℝ}

theorem normalLoop_same (h : F.Legal) (hl : count.length = error.length) (hc : ∀ c ∈ count, Countable c) (he : ∀ e ∈ error, Sigma e) (hn : count.length ≤ 2 ^ 40)
    (hs : 2 ^ (-30 : ℤ) ≤ sig ∧ sig ≤ 2 ^ (30 : ℤ)) (hd : ∀ a b, a < b → b ≤ count.length → Decided count.length sig (channels count a b) (channels error a b)) :
    ∀ (rest : List (ℝ × ℝ)) (i start : ℕ) (gc gv : ℝ) (idx : List ℕ), start ≤ i → rest = (List.zip count error).drop i →
      gc = (channels count start i).sum → gv = ((channels error start i).map fun e => e * e).sum →
      F.normalLoop sig rest i (running F.rnd (channels count start i)) (running F.rnd ((channels error start i).map fun e => F.rnd (e * e))) idx
        = normalLoop sig rest i gc gv idx := by
  intro rest
  induction rest with
  | nil => intros; simp only [normalLoop, Impl.normalLoop]
  | cons p r ih =>
    obtain ⟨d, e⟩ := p
    intro i start gc gv idx h1 h3 h4 h5
    have hp : (List.zip count error)[i]? = some (d, e) := by
      have : ((List.zip count error).drop i)[0]? = some (d, e) := by rw [← h3]; rfl
      rwa [List.getElem?_drop, Nat.add_zero] at this
    rw [List.getElem?_zip_eq_some] at hp
    obtain ⟨b1, d1⟩ := List.getElem?_eq_some_iff.1 hp.1
    obtain ⟨b2, d2⟩ := List.getElem?_eq_some_iff.1 hp.2
    have hr : r = (List.zip count error).drop (i + 1) := by
      have := congrArg List.tail h3
      simpa [List.tail_drop] using this
    have c1 := channels_succ count h1 b1
    have c2 := channels_succ error h1 b2
    rw [d1] at c1
    rw [d2] at c2
    have f1 : F.rnd (running F.rnd (channels count start i) + d) = running F.rnd (channels count start (i + 1)) := by
      rw [c1]; unfold running; rw [List.foldl_append]; rfl
    have f2 : F.rnd (running F.rnd ((channels error start i).map fun e => F.rnd (e * e)) + F.rnd (e * e)) = running F.rnd ((channels error start (i + 1)).map fun e => F.rnd (e * e)) := by
      rw [c2]; unfold running; rw [List.map_append, List.foldl_append]; rfl
    have g1 : gc + d = (channels count start (i + 1)).sum := by rw [c1, List.sum_append, h4]; simp
    have g2 : gv + e * e = ((channels error start (i + 1)).map fun e => e * e).sum := by rw [c2, List.map_append, List.sum_append, h5]; simp
    have key := test_same h (n := count.length) (fun c hx => hc c ((channels_sub count start (i + 1)).subset hx)) (fun x hx => he x ((channels_sub error start (i + 1)).subset hx)) hn
      (channels_sub _ _ _).length_le ((channels_sub _ _ _).length_le.trans hl.ge) hs (hd start (i + 1) (by omega) (by omega))
      (Or.inr (running_leaves _)) (Or.inr (running_leaves _))
    rw [← running_value, ← running_value] at key
    obtain ⟨k1, k2, k3⟩ := key
    have V0 : 0 ≤ ((channels error start (i + 1)).map fun e => e * e).sum := List.sum_nonneg (by simp; intro a _; exact mul_self_nonneg a)
    cases r with
    | nil =>
      simp only [normalLoop, Impl.normalLoop, f1, f2, g1, g2]
      refine if_congr (and_congr (or_congr ?_ k3) Iff.rfl) rfl rfl
      rw [← not_le, ← not_le, k1, sub_nonneg]
    | cons q r =>
      simp only [normalLoop, Impl.normalLoop, f1, f2, g1, g2]
      have k4 : (0 < running F.rnd ((channels error start (i + 1)).map fun e => F.rnd (e * e)) ↔ 0 < ((channels error start (i + 1)).map fun e => e * e).sum) := by
        rw [lt_iff_le_and_ne, lt_iff_le_and_ne, ne_comm, ne_comm (a := (0 : ℝ)), ne_eq, ne_eq, k3]
        exact ⟨fun x => ⟨V0, x.2⟩, fun x => ⟨k2, x.2⟩⟩
      have z : ∀ xs : List ℝ, channels xs (i + 1) (i + 1) = [] := fun xs => by
        unfold channels; rw [List.drop_eq_nil_iff, List.length_take]; omega
      refine if_congr (and_congr (by rw [k1, sub_nonneg]) k4) ?_ ?_
      · have := ih (i + 1) (i + 1) 0 0 ((i + 1) :: idx) (le_refl _) hr (by rw [z]; rfl) (by rw [z]; rfl)
        rw [z, z] at this
        exact this
      · exact ih (i + 1) start _ _ idx (by omega) hr rfl rfl

theorem sum_tree (h : F.Legal) (t : ℕ) {xs : List ℝ} (hx : xs ≠ []) : ∃ T : Tree, F.sum t xs = T.value F.rnd ∧ T.leaves.Perm xs := by
  cases xs with
  | nil => exact absurd rfl hx
  | cons x xs => exact ⟨_, rfl, h.leaves t _ hx⟩

theorem reduceat_channels (F : Impl) (xs : List ℝ) : ∀ idx : List ℕ, idx.Pairwise (· < ·) → F.reduceat xs idx = (edges idx xs.length).map fun e => F.sum e.1 (channels xs e.1 e.2)
  | [], _ => rfl
  | [a], _ => by simp [Impl.reduceat, edges, channels]
  | a :: b :: r, hp => by
    have hab : a < b := (List.pairwise_cons.1 hp).1 b List.mem_cons_self
    rw [Impl.reduceat, if_pos hab, reduceat_channels F xs (b :: r) (List.pairwise_cons.1 hp).2]
    rfl

theorem normalSuccess_same (h : F.Legal) (hl : count.length = error.length) (hc : ∀ c ∈ count, Countable c) (he : ∀ e ∈ error, Sigma e) (hn : count.length ≤ 2 ^ 40)
    (hs : 2 ^ (-30 : ℤ) ≤ sig ∧ sig ≤ 2 ^ (30 : ℤ)) (hd : ∀ a b, a < b → b ≤ count.length → Decided count.length sig (channels count a b) (channels error a b))
    {r : List ℕ} (hr : Desc r count.length) : F.normalSuccess count error sig r.reverse = normalSuccess count error sig r.reverse := by
  rw [Bool.eq_iff_iff, normalSuccess_iff hl hr]
  have hp : r.reverse.Pairwise (· < ·) := by rw [List.pairwise_reverse]; exact hr.pw
  unfold Impl.normalSuccess
  rw [reduceat_channels F _ _ hp, reduceat_channels F _ _ hp, List.length_map, ← hl, List.zip_map', List.all_map, List.all_eq_true]
  simp only [mem_edges_reverse, Function.comp, decide_eq_true_eq]
  refine forall_congr' fun e => forall_congr' fun hm => ?_
  obtain ⟨a, b⟩ := e
  have hab := mem_revEdges_lt hr.pw hr.lt hm
  have ne : ∀ xs : List ℝ, xs.length = count.length → channels xs a b ≠ [] := by
    intro xs hx h0
    have := congrArg List.length h0
    unfold channels at this
    rw [List.length_drop, List.length_take, List.length_nil] at this
    omega
  obtain ⟨T1, t1, p1⟩ := sum_tree h a (ne count rfl)
  obtain ⟨T2, t2, p2⟩ := sum_tree h a (ne (error.map fun e => F.rnd (e * e)) (by rw [List.length_map, hl]))
  rw [channels_map (fun e => F.rnd (e * e))] at p2
  have key := test_same h (n := count.length) (fun c hx => hc c ((channels_sub count a b).subset hx)) (fun x hx => he x ((channels_sub error a b).subset hx)) hn
    (channels_sub _ _ _).length_le ((channels_sub _ _ _).length_le.trans hl.ge) hs (hd a b hab.1 hab.2) (Or.inl p1) (Or.inl p2)
  dsimp only
  rw [t1, t2, key.1, ← channels_sum, ← channels_sum, channels_map (fun e => e * e)]

end

/-! ## Specification -/

/-- The significance of the channels `a` to `b - 1` differs from the threshold by more than rounding: the counts and `sig` standard deviations
differ by more than `n + 3` units of `2 ^ -52` of the sum of both, where `n` is the number of channels; or there is nothing at all in these channels. -/
def ClearOf (count error : List ℝ) (sig : ℝ) (a b : ℕ) : Prop :=
  (total (count.map fun c => |c|) a b = 0 ∧ variance error a b = 0) ∨
    (count.length + 3) * 2 ^ (-52 : ℤ) * (total (count.map fun c => |c|) a b + sig * Real.sqrt (variance error a b))
      < |total count a b - sig * Real.sqrt (variance error a b)|

/-- **C156.**  If no interval of channels has a significance within rounding of the threshold, then the grouping computed in float64, in whatever order
NumPy adds, and the reported success are those of exact arithmetic (so C05 says what they are).  The counts are any numbers of the format up to
`2 ^ 900`, the errors are zero or between `2 ^ -300` and `2 ^ 300`, the threshold is between `2 ^ -30` and `2 ^ 30`.  What is missing: intervals at the threshold, see the
counterexamples below. -/
theorem C156_grouping_partial {F : Impl} (h : F.Legal) (count error : List ℝ) (sig : ℝ) (hc : ∀ c ∈ count, Rep c ∧ |c| ≤ 2 ^ (900 : ℤ))
    (he : ∀ e ∈ error, Rep e ∧ (e = 0 ∨ 2 ^ (-300 : ℤ) ≤ e ∧ e ≤ 2 ^ (300 : ℤ))) (hn : count.length ≤ 2 ^ 40) (hs : 2 ^ (-30 : ℤ) ≤ sig ∧ sig ≤ 2 ^ (30 : ℤ))
    (hd : ∀ a b, a < b → b ≤ count.length → ClearOf count error sig a b) :
    F.groupSigNormal count error sig = groupSigNormal count error sig := by
  unfold Impl.groupSigNormal groupSigNormal
  by_cases hl : count.length = error.length
  swap
  · rw [if_pos hl, if_pos hl]
  rw [if_neg (not_not.2 hl), if_neg (not_not.2 hl)]
  split
  · rfl
  split
  · rfl
  rename_i hne
  have hd' : ∀ a b, a < b → b ≤ count.length → Decided count.length sig (channels count a b) (channels error a b) := by
    intro a b hab hb
    have := hd a b hab hb
    unfold ClearOf variance at this
    unfold Decided mass
    rwa [← channels_sum, ← channels_sum, ← channels_sum, channels_map, channels_map] at this
  have hloop := normalLoop_same h hl hc he hn hs hd' (List.zip count error) 0 0 0 0 [0] (le_refl _) (by simp) (by simp [channels]) (by simp [channels])
  have z : running F.rnd (channels count 0 0) = 0 ∧ running F.rnd ((channels error 0 0).map fun e => F.rnd (e * e)) = 0 := by simp [channels, running]
  rw [z.1, z.2] at hloop
  have hz : (List.zip count error).length = count.length := by simp [hl]
  have hdesc : Desc (normalLoop sig (List.zip count error) 0 0 0 [0]) count.length := by
    rw [normalLoop_eq sig count error (List.zip count error) 0 0 0 0 [0] (le_refl _) (by simp) (by simp) (by simp), hz]
    exact (greedy_out _ (List.length_pos_of_ne_nil hne)).desc
  dsimp only
  rw [hloop, normalSuccess_same h hl hc he hn hs hd' hdesc]

/-! ## Examples -/

theorem rep_small {k : ℤ} (hk : |k| ≤ 2 ^ 10) : Rep (k : ℝ) := rep_int (hk.trans (by norm_num))

theorem sqrt_between {x a b : ℝ} (h1 : a * a ≤ x) (h2 : x ≤ b * b) (hb : 0 ≤ b) : a ≤ Real.sqrt x ∧ Real.sqrt x ≤ b :=
  ⟨Real.le_sqrt_of_sq_le (by rw [sq]; exact h1), Real.sqrt_le_iff.2 ⟨hb, by rw [sq]; exact h2⟩⟩

/-- The channels of the example of C05 are clear of the threshold. -/
theorem exClear : ∀ a b, a < b → b ≤ ([1, 3, 9] : List ℝ).length → ClearOf [1, 3, 9] [1, 1, 2] 2 a b := by
  intro a b hab hb
  have hb' : b ≤ 3 := hb
  right
  have r2 := sqrt_between (x := 2) (a := 1) (b := 3 / 2) (by norm_num) (by norm_num) (by norm_num)
  have r5 := sqrt_between (x := 5) (a := 2) (b := 9 / 4) (by norm_num) (by norm_num) (by norm_num)
  have r6 := sqrt_between (x := 6) (a := 2) (b := 5 / 2) (by norm_num) (by norm_num) (by norm_num)
  have r4 := sqrt_between (x := 4) (a := 2) (b := 2) (by norm_num) (by norm_num) (by norm_num)
  unfold variance
  rw [total_eq_sliceSum, total_eq_sliceSum, total_eq_sliceSum]
  have h01 : a = 0 ∧ b = 1 ∨ a = 0 ∧ b = 2 ∨ a = 0 ∧ b = 3 ∨ a = 1 ∧ b = 2 ∨ a = 1 ∧ b = 3 ∨ a = 2 ∧ b = 3 := by omega
  rcases h01 with ⟨rfl, rfl⟩ | ⟨rfl, rfl⟩ | ⟨rfl, rfl⟩ | ⟨rfl, rfl⟩ | ⟨rfl, rfl⟩ | ⟨rfl, rfl⟩ <;> norm_num [sliceSum]
  · rw [abs_of_nonneg (by linarith)]; linarith
  · rw [abs_of_nonneg (by linarith)]; linarith
  · rw [abs_of_nonneg (by linarith)]; linarith
  · rw [abs_of_nonneg (by linarith)]; linarith

theorem exCounts : ∀ c ∈ ([1, 3, 9] : List ℝ), Rep c ∧ |c| ≤ 2 ^ (900 : ℤ) := by
  have big : (9 : ℝ) ≤ 2 ^ (900 : ℤ) := le_trans (by norm_num) (zpow_le (p := 4) (by norm_num))
  have r1 := rep_small (k := 1) (by norm_num)
  have r3 := rep_small (k := 3) (by norm_num)
  have r9 := rep_small (k := 9) (by norm_num)
  push_cast at r1 r3 r9
  intro c hc
  simp only [List.mem_cons, List.not_mem_nil, or_false] at hc
  rcases hc with rfl | rfl | rfl
  · exact ⟨r1, by rw [abs_one]; exact le_trans (by norm_num) big⟩
  · exact ⟨r3, by rw [abs_of_pos (by norm_num)]; exact le_trans (by norm_num) big⟩
  · exact ⟨r9, by rw [abs_of_pos (by norm_num)]; exact big⟩

theorem exErrors : ∀ e ∈ ([1, 1, 2] : List ℝ), Rep e ∧ (e = 0 ∨ 2 ^ (-300 : ℤ) ≤ e ∧ e ≤ 2 ^ (300 : ℤ)) := by
  have big : (2 : ℝ) ≤ 2 ^ (300 : ℤ) := le_trans (by norm_num) (zpow_le (p := 1) (by norm_num))
  have low : (2 : ℝ) ^ (-300 : ℤ) ≤ 1 := (zpow_le (q := 0) (by norm_num)).trans (by norm_num)
  have r1 := rep_small (k := 1) (by norm_num)
  have r2 := rep_small (k := 2) (by norm_num)
  push_cast at r1 r2
  intro e he
  simp only [List.mem_cons, List.not_mem_nil, or_false] at he
  rcases he with rfl | rfl | rfl
  · exact ⟨r1, Or.inr ⟨low, le_trans (by norm_num) big⟩⟩
  · exact ⟨r1, Or.inr ⟨low, le_trans (by norm_num) big⟩⟩
  · exact ⟨r2, Or.inr ⟨low.trans (by norm_num), big⟩⟩

example := C156_grouping_partial leftImpl_legal [1, 3, 9] [1, 1, 2] 2 exCounts exErrors (by norm_num) ⟨by norm_num, by norm_num⟩ exClear

/-! ## At the threshold -/

/-- Square roots of the counts as errors: the two steps in float64. -/
theorem rounded_nine {rnd} (h : Nearest rnd) : rnd (rnd (1 * 1) + rnd (rnd (Real.sqrt 8) * rnd (Real.sqrt 8))) = 9 + 2 ^ (-49 : ℤ) := by
  have b8 := sqrt_between (x := 8) (a := 6369051672525772.55 / 2 ^ 51) (b := 6369051672525773 / 2 ^ 51) (by norm_num) (by norm_num) (by norm_num)
  have e1 : rnd (Real.sqrt 8) = 6369051672525773 / 2 ^ 51 :=
    h.eq 6369051672525773 (-51) (by norm_num) (by norm_num) (by norm_num) (by norm_num) (by norm_num) (by
      rw [abs_lt]
      constructor
      · have := b8.1
        norm_num at this ⊢
        linarith only [this]
      · have := b8.2
        norm_num at this ⊢
        linarith only [this])
  have e2 : rnd (6369051672525773 / 2 ^ 51 * (6369051672525773 / 2 ^ 51)) = 4503599627370497 / 2 ^ 49 :=
    h.eq 4503599627370497 (-49) (by norm_num) (by norm_num) (by norm_num) (by norm_num) (by norm_num) (by norm_num [abs_lt])
  have e3 : rnd (1 * 1) = 1 := by
    rw [mul_one]
    have r1 := rep_small (k := 1) (by norm_num)
    push_cast at r1
    exact h.fix r1 (by rw [abs_one]; exact le_trans (by norm_num) (zpow_le (p := 0) (by norm_num)))
  rw [e1, e2, e3]
  have e4 : (9 : ℝ) + 2 ^ (-49 : ℤ) = 5066549580791809 / 2 ^ 49 := by norm_num
  rw [e4]
  exact h.eq 5066549580791809 (-49) (by norm_num) (by norm_num) (by norm_num) (by norm_num) (by norm_num) (by norm_num [abs_lt])


theorem fix_small {rnd} (h : Nearest rnd) (k : ℤ) (hk : |k| ≤ 2 ^ 10) : rnd (k : ℝ) = k :=
  h.fix (rep_small hk) (by
    have : |(k : ℝ)| ≤ 2 ^ 10 := by exact_mod_cast hk
    refine this.trans ?_
    rw [show (2 : ℝ) ^ 10 = 2 ^ (10 : ℤ) by norm_num]
    exact zpow_le (by norm_num))

/-- The limit `3 * sqrt(variance)` for the first two channels. -/
theorem rounded_limit {rnd} (h : Nearest rnd) : rnd (3 * rnd (Real.sqrt (9 + 2 ^ (-49 : ℤ)))) = 9 + 2 ^ (-49 : ℤ) := by
  have b := sqrt_between (x := 9 + 2 ^ (-49 : ℤ)) (a := 6755399441055744.6 / 2 ^ 51) (b := 6755399441055745 / 2 ^ 51) (by norm_num) (by norm_num) (by norm_num)
  have e1 : rnd (Real.sqrt (9 + 2 ^ (-49 : ℤ))) = 6755399441055745 / 2 ^ 51 :=
    h.eq 6755399441055745 (-51) (by norm_num) (by norm_num) (by norm_num) (by norm_num) (by norm_num) (by
      generalize Real.sqrt (9 + 2 ^ (-49 : ℤ)) = z at b
      rw [abs_lt]
      constructor
      · have := b.1
        norm_num at this ⊢
        linarith only [this]
      · have := b.2
        norm_num at this ⊢
        linarith only [this])
  rw [e1, show (9 : ℝ) + 2 ^ (-49 : ℤ) = 5066549580791809 / 2 ^ 49 by norm_num]
  exact h.eq 5066549580791809 (-49) (by norm_num) (by norm_num) (by norm_num) (by norm_num) (by norm_num) (by norm_num [abs_lt])

/-- **C156 fails for Poisson counts.**  Channels with 1, 8 and 9 counts whose errors are the square roots of the counts, grouped to a significance of 3
(that is, 9 counts): exactly, the first two channels have a significance of 3 and are a group, and so is the third.  In float64 the computed variance of the first two is
`9 + 2 ^ -49`, so they are not, and all three channels end up in one group. -/
theorem C156_poisson_refuted {F : Impl} (h : F.Legal) :
    (∃ success, F.groupSigNormal [1, 8, 9] [F.rnd (Real.sqrt 1), F.rnd (Real.sqrt 8), F.rnd (Real.sqrt 9)] 3 = .ok ([1, -1, -1], success)) ∧
      groupSigNormal [1, 8, 9] [Real.sqrt 1, Real.sqrt 8, Real.sqrt 9] 3 = .ok ([1, -1, 1], true) := by
  have hr : Nearest F.rnd := h.nearest
  have s9 : Real.sqrt 9 = 3 := by rw [show (9 : ℝ) = 3 * 3 by norm_num]; exact Real.sqrt_mul_self (by norm_num)
  have k1 := fix_small hr 1 (by norm_num)
  have k3 := fix_small hr 3 (by norm_num)
  have k9 := fix_small hr 9 (by norm_num)
  have k0 := fix_small hr 0 (by norm_num)
  have km2 := fix_small hr (-2) (by norm_num)
  push_cast at k1 k3 k9 k0 km2
  constructor
  · unfold Impl.groupSigNormal
    rw [if_neg (by simp), if_neg (by norm_num), if_neg (by simp)]
    have loop : F.normalLoop 3 (List.zip [1, 8, 9] [F.rnd (Real.sqrt 1), F.rnd (Real.sqrt 8), F.rnd (Real.sqrt 9)]) 0 0 0 [0] = [0] := by
      have x1 : F.excess 3 (F.rnd (0 + 1)) (F.rnd (0 + F.rnd (F.rnd (Real.sqrt 1) * F.rnd (Real.sqrt 1)))) = -2 := by
        rw [Real.sqrt_one, zero_add, zero_add, k1, mul_one, k1, k1]
        unfold Impl.excess
        rw [Real.sqrt_one, k1, mul_one, k3, show (1 : ℝ) - 3 = -2 by norm_num, km2]
      have v1 : F.rnd (0 + F.rnd (F.rnd (Real.sqrt 1) * F.rnd (Real.sqrt 1))) = F.rnd (1 * 1) := by
        rw [Real.sqrt_one, zero_add, k1, mul_one, k1, k1]
      have c1 : F.rnd (0 + 1) = 1 := by rw [zero_add, k1]
      have c2 : F.rnd (1 + 8) = 9 := by rw [show (1 : ℝ) + 8 = 9 by norm_num, k9]
      have x2 : F.excess 3 9 (9 + 2 ^ (-49 : ℤ)) < 0 := by
        unfold Impl.excess
        rw [rounded_limit hr]
        have hp := rep_pow (p := -49) (by norm_num) (by norm_num)
        rw [show (9 : ℝ) - (9 + 2 ^ (-49 : ℤ)) = -2 ^ (-49 : ℤ) by ring, hr.fix (rep_neg hp) (by
          rw [abs_neg, abs_of_pos (two_zpow_pos _)]; exact zpow_le (by norm_num))]
        exact neg_neg_of_pos (two_zpow_pos _)
      simp only [List.zip_cons_cons, List.zip_nil_right, Impl.normalLoop]
      rw [if_neg (by rw [x1]; norm_num), v1, c1, c2, rounded_nine hr, if_neg (by rintro ⟨g, -⟩; exact absurd g (not_le.2 x2)), if_neg (by simp)]
    dsimp only
    rw [loop]
    exact ⟨_, by rw [show setFlags ([1, 8, 9] : List ℝ).length [0].reverse = [1, -1, -1] from rfl]⟩
  · unfold groupSigNormal
    rw [if_neg (by simp), if_neg (by norm_num), if_neg (by simp)]
    have q8 : Real.sqrt 8 * Real.sqrt 8 = 8 := Real.mul_self_sqrt (by norm_num)
    have loop : normalLoop 3 (List.zip [1, 8, 9] [Real.sqrt 1, Real.sqrt 8, Real.sqrt 9]) 0 0 0 [0] = [2, 0] := by
      simp only [List.zip_cons_cons, List.zip_nil_right, normalLoop]
      rw [q8, Real.sqrt_one, s9]
      norm_num [s9]
    dsimp only
    rw [loop]
    simp only [normalSuccess, List.reverse_cons, List.reverse_nil, List.nil_append, List.singleton_append, Elisa.reduceat, List.map_cons, List.map_nil, q8, Real.sqrt_one, s9]
    rw [show setFlags ([1, 8, 9] : List ℝ).length [0, 2] = [1, -1, 1] from rfl]
    norm_num [s9, sliceSum]

/-- **C156 fails at the threshold, whatever the errors.**  Three channels: exactly, the first two together are less significant than one standard deviation and all three
are one group; in float64 the first two are a group of their own. -/
theorem C156_grouping_refuted {F : Impl} (h : F.Legal) :
    (∃ success, F.groupSigNormal [2 ^ (-62 : ℤ), 3 / 2, 3] [2 ^ (-30 : ℤ), 3 / 2, 1] 1 = .ok ([1, -1, 1], success)) ∧
      (∃ success, groupSigNormal [2 ^ (-62 : ℤ), 3 / 2, 3] [2 ^ (-30 : ℤ), 3 / 2, 1] 1 = .ok ([1, -1, -1], success)) ∧
      ¬ NormalMeets [2 ^ (-62 : ℤ), 3 / 2, 3] [2 ^ (-30 : ℤ), 3 / 2, 1] 1 0 2 := by
  have hr : Nearest F.rnd := h.nearest
  have e60 : (2 : ℝ) ^ (-30 : ℤ) * 2 ^ (-30 : ℤ) = 2 ^ (-60 : ℤ) := by rw [← zpow_add₀ (by norm_num)]; norm_num
  have s60 : Real.sqrt (2 ^ (-60 : ℤ)) = 2 ^ (-30 : ℤ) := by rw [← e60]; exact Real.sqrt_mul_self (two_zpow_pos _).le
  have low : (2 : ℝ) ^ (-62 : ℤ) + 3 / 2 < Real.sqrt (2 ^ (-60 : ℤ) + 3 / 2 * (3 / 2)) := by
    refine Real.lt_sqrt_of_sq_lt ?_
    norm_num
  have fixp : ∀ p : ℤ, -1022 ≤ p → p ≤ 1023 → F.rnd (2 ^ p) = 2 ^ p := fun p h1 h2 =>
    hr.fix (rep_pow h1 h2) (by rw [abs_of_pos (two_zpow_pos _)]; exact zpow_le h2)
  have first : (2 : ℝ) ^ (-62 : ℤ) - 2 ^ (-30 : ℤ) ≤ -2 ^ (-31 : ℤ) := by norm_num
  refine ⟨?_, ?_, ?_⟩
  · unfold Impl.groupSigNormal
    rw [if_neg (by simp), if_neg (by norm_num), if_neg (by simp)]
    have loop : F.normalLoop 1 (List.zip [2 ^ (-62 : ℤ), 3 / 2, 3] [2 ^ (-30 : ℤ), 3 / 2, 1]) 0 0 0 [0] = [2, 0] := by
      have k0 := fix_small hr 0 (by norm_num)
      have k1 := fix_small hr 1 (by norm_num)
      have k2 := fix_small hr 2 (by norm_num)
      have k3 := fix_small hr 3 (by norm_num)
      push_cast at k0 k1 k2 k3
      have c1 : F.rnd (0 + 2 ^ (-62 : ℤ)) = 2 ^ (-62 : ℤ) := by rw [zero_add]; exact fixp _ (by norm_num) (by norm_num)
      have v1 : F.rnd (0 + F.rnd (2 ^ (-30 : ℤ) * 2 ^ (-30 : ℤ))) = 2 ^ (-60 : ℤ) := by
        rw [zero_add, e60, fixp _ (by norm_num) (by norm_num), fixp _ (by norm_num) (by norm_num)]
      have x1 : F.excess 1 (2 ^ (-62 : ℤ)) (2 ^ (-60 : ℤ)) < 0 := by
        unfold Impl.excess
        rw [s60, fixp _ (by norm_num) (by norm_num), one_mul, fixp _ (by norm_num) (by norm_num)]
        refine lt_of_le_of_lt (hr.le ?_ (rep_neg (rep_pow (p := -31) (by norm_num) (by norm_num))) first) (neg_neg_of_pos (two_zpow_pos _))
        refine le_trans ?_ (zpow_le (p := 0) (by norm_num))
        norm_num [abs_le]
      have q1 : F.rnd (3 / 2 * (3 / 2)) = 9 / 4 :=
        hr.eq 5066549580791808 (-51) (by norm_num) (by norm_num) (by norm_num) (by norm_num) (by norm_num) (by norm_num)
      have c2 : F.rnd (2 ^ (-62 : ℤ) + 3 / 2) = 3 / 2 :=
        hr.eq 6755399441055744 (-52) (by norm_num) (by norm_num) (by norm_num) (by norm_num) (by norm_num) (by norm_num [abs_lt])
      have v2 : F.rnd (2 ^ (-60 : ℤ) + F.rnd (3 / 2 * (3 / 2))) = 9 / 4 := by
        rw [q1]
        exact hr.eq 5066549580791808 (-51) (by norm_num) (by norm_num) (by norm_num) (by norm_num) (by norm_num) (by norm_num [abs_lt])
      have r2 : F.rnd (3 / 2) = 3 / 2 :=
        hr.eq 6755399441055744 (-52) (by norm_num) (by norm_num) (by norm_num) (by norm_num) (by norm_num) (by norm_num)
      have x2 : F.excess 1 (3 / 2) (9 / 4) = 0 := by
        unfold Impl.excess
        rw [show (9 / 4 : ℝ) = 3 / 2 * (3 / 2) by norm_num, Real.sqrt_mul_self (by norm_num), r2, one_mul, r2, sub_self, k0]
      have c3 : F.rnd (0 + 3) = 3 := by rw [zero_add, k3]
      have v3 : F.rnd (0 + F.rnd (1 * 1)) = 1 := by rw [zero_add, one_mul, k1, k1]
      have x3 : F.excess 1 3 1 = 2 := by
        unfold Impl.excess
        rw [Real.sqrt_one, k1, one_mul, k1, show (3 : ℝ) - 1 = 2 by norm_num, k2]
      simp only [List.zip_cons_cons, List.zip_nil_right, Impl.normalLoop]
      rw [c1, v1, if_neg (fun g => absurd g.1 (not_le.2 x1)), c2, v2, x2, if_pos ⟨le_refl _, by norm_num⟩, c3, v3, x3, if_neg (by norm_num)]
    dsimp only
    rw [loop]
    exact ⟨_, by rw [show setFlags ([2 ^ (-62 : ℤ), 3 / 2, 3] : List ℝ).length [2, 0].reverse = [1, -1, 1] from rfl]⟩
  · unfold groupSigNormal
    rw [if_neg (by simp), if_neg (by norm_num), if_neg (by simp)]
    have loop : normalLoop 1 (List.zip [2 ^ (-62 : ℤ), 3 / 2, 3] [2 ^ (-30 : ℤ), 3 / 2, 1]) 0 0 0 [0] = [0] := by
      simp only [List.zip_cons_cons, List.zip_nil_right, normalLoop]
      rw [zero_add, zero_add, e60, s60, one_mul, if_neg (fun g => absurd g.1 (not_le.2 (first.trans_lt (neg_neg_of_pos (two_zpow_pos _))))), one_mul,
        if_neg (fun g => absurd g.1 (not_le.2 (sub_neg.2 low))), if_neg (by simp)]
    dsimp only
    rw [loop]
    exact ⟨_, by rw [show setFlags ([2 ^ (-62 : ℤ), 3 / 2, 3] : List ℝ).length [0].reverse = [1, -1, -1] from rfl]⟩
  · unfold NormalMeets variance
    rw [total_eq_sliceSum, total_eq_sliceSum]
    have e1 : sliceSum ([2 ^ (-62 : ℤ), 3 / 2, 3] : List ℝ) 0 2 = 2 ^ (-62 : ℤ) + 3 / 2 := by simp [sliceSum]
    have e2 : sliceSum (([2 ^ (-30 : ℤ), 3 / 2, 1] : List ℝ).map fun e => e * e) 0 2 = 2 ^ (-60 : ℤ) + 3 / 2 * (3 / 2) := by rw [← e60]; simp [sliceSum]
    rw [e1, e2, one_mul]
    exact not_le.2 low

example := C156_poisson_refuted leftImpl_legal
example := C156_grouping_refuted leftImpl_legal

/-- **C156 (refused).** Unequal numbers of counts and errors and thresholds that are not positive are refused with an `AssertionError`, no channels with an `IndexError`, and
nothing else is refused, as in exact arithmetic. -/
theorem C156_refuses (F : Impl) (count error : List ℝ) (sig : ℝ) :
    (F.groupSigNormal count error sig = .error .assertionError ↔ count.length ≠ error.length ∨ sig ≤ 0) ∧
      (F.groupSigNormal count error sig = .error .indexError ↔ count = [] ∧ error = [] ∧ 0 < sig) ∧
      ((∃ r, F.groupSigNormal count error sig = .ok r) ↔ 0 < count.length ∧ count.length = error.length ∧ 0 < sig) := by
  unfold Impl.groupSigNormal
  by_cases h1 : count.length = error.length
  swap
  · rw [if_pos h1]
    refine ⟨by simp [h1], ?_, ?_⟩
    · simp only [Except.error.injEq, reduceCtorEq, false_iff]
      rintro ⟨rfl, rfl, -⟩
      exact h1 rfl
    · simp [h1]
  rw [if_neg (not_not.2 h1)]
  by_cases h2 : sig ≤ 0
  · rw [if_pos h2]
    simp [h2, not_lt.2 h2]
  rw [if_neg h2]
  have h2' := not_le.1 h2
  by_cases h3 : count = []
  · subst h3
    have : error = [] := List.length_eq_zero_iff.1 (by simpa using h1.symm)
    simp [h2', this]
  · rw [if_neg h3]
    have := List.length_pos_iff.2 h3
    simp [h1, h2', h3, h1 ▸ this]

example (F : Impl) : ∃ r, F.groupSigNormal [4] [1] 2 = .ok r := ((C156_refuses F [4] [1] 2).2.2).2 (by norm_num)

example (F : Impl) : F.groupSigNormal [4] [1] 0 = .error .assertionError := ((C156_refuses F [4] [1] 0).1).2 (.inr le_rfl)

end Elisa.Grouping.Fl
