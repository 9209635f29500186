import Verif.Grouping.Float
import Verif.Grouping.Props
import Verif.Data.Obs
import Mathlib.Tactic.NormNum.Pow
import Mathlib.Tactic.FieldSimp
import Mathlib.Tactic.Linarith
import Mathlib.Tactic.Positivity
import Mathlib.Data.Set.Finite.Lattice
import Mathlib.Data.Int.Interval
import Mathlib.Data.Rat.Floor

/-!
# C144: counts are grouped exactly in float64
-/

namespace Elisa.Grouping.Fl

open Elisa Elisa.Grouping

/-! ## Specification -/

/-- The finite numbers of the format binary64 of IEEE 754. -/
def Rep (y : ℝ) : Prop := ∃ m e : ℤ, |m| < 2 ^ 53 ∧ -1074 ≤ e ∧ e ≤ 971 ∧ y = m * (2 : ℝ) ^ e

/-- Rounding is to a nearest number (ties may go either way), and a sum adds up the numbers it is given, in some order. -/
structure Impl.Legal (F : Impl) : Prop where
  nearest : ∀ x : ℝ, |x| ≤ 2 ^ 1023 → Rep (F.rnd x) ∧ ∀ y, Rep y → |F.rnd x - x| ≤ |y - x|
  leaves : ∀ t xs, xs ≠ [] → (F.order t xs).leaves.Perm xs

/-! ## Rounding -/

theorem Impl.Legal.rnd_rep {F : Impl} (h : F.Legal) {x : ℝ} (hx : Rep x) (hb : |x| ≤ 2 ^ 1023) : F.rnd x = x := by
  have := (h.nearest x hb).2 x hx
  rw [sub_self, abs_zero] at this
  have h0 := abs_nonneg (F.rnd x - x)
  have : F.rnd x - x = 0 := abs_eq_zero.1 (le_antisymm this h0)
  linarith

theorem rep_int {k : ℤ} (hk : |k| ≤ 2 ^ 53) : Rep (k : ℝ) := by
  rcases lt_or_eq_of_le hk with h | h
  · exact ⟨k, 0, h, by norm_num, by norm_num, by simp⟩
  · rcases abs_eq (by norm_num : (0 : ℤ) ≤ 2 ^ 53) |>.1 h with h | h
    · exact ⟨2 ^ 52, 1, by norm_num, by norm_num, by norm_num, by rw [h]; norm_num⟩
    · exact ⟨-2 ^ 52, 1, by norm_num, by norm_num, by norm_num, by rw [h]; norm_num⟩

theorem big {k : ℤ} (hk : |k| ≤ 2 ^ 53) : |(k : ℝ)| ≤ 2 ^ 1023 := by
  have h1 : |(k : ℝ)| ≤ 2 ^ 53 := by exact_mod_cast hk
  exact h1.trans (pow_le_pow_right₀ (by norm_num) (by norm_num))

theorem Impl.Legal.rnd_int {F : Impl} (h : F.Legal) {k : ℤ} (hk : |k| ≤ 2 ^ 53) : F.rnd (k : ℝ) = k :=
  h.rnd_rep (rep_int hk) (big hk)

theorem Impl.Legal.rnd_nat {F : Impl} (h : F.Legal) {k : ℕ} (hk : k ≤ 2 ^ 53) : F.rnd (k : ℝ) = k := by
  have := h.rnd_int (k := (k : ℤ)) (by rw [abs_of_nonneg (by positivity)]; exact_mod_cast hk)
  simpa using this

/-! ## Sums -/

/-- The counts as floats, and as integers. -/
def asFloat (data : List ℕ) : List ℝ := data.map fun k : ℕ => (k : ℝ)

/-- See `asFloat`. -/
def asInt (data : List ℕ) : List ℤ := data.map fun k : ℕ => (k : ℤ)

theorem asInt_sum (data : List ℕ) : (asInt data).sum = (data.sum : ℤ) := by
  induction data with
  | nil => rfl
  | cons a t ih => simp only [asInt, List.map_cons, List.sum_cons] at ih ⊢; rw [ih]; push_cast; ring

theorem tree_exact {F : Impl} (h : F.Legal) : ∀ (t : Tree), (∀ x ∈ t.leaves, ∃ k : ℕ, x = k) → t.leaves.sum ≤ 2 ^ 53 →
    t.value F.rnd = t.leaves.sum ∧ ∃ k : ℕ, t.leaves.sum = k
  | .leaf x, hx, _ => by
    obtain ⟨k, hk⟩ := hx x (by simp [Tree.leaves])
    exact ⟨by simp [Tree.value, Tree.leaves], k, by simp [Tree.leaves, hk]⟩
  | .node l r, hx, hs => by
    simp only [Tree.leaves, List.mem_append, List.sum_append] at hx hs ⊢
    have hl0 : 0 ≤ l.leaves.sum := List.sum_nonneg fun x hm => by
      obtain ⟨k, hk⟩ := hx x (Or.inl hm); rw [hk]; positivity
    have hr0 : 0 ≤ r.leaves.sum := List.sum_nonneg fun x hm => by
      obtain ⟨k, hk⟩ := hx x (Or.inr hm); rw [hk]; positivity
    obtain ⟨hl, a, ha⟩ := tree_exact h l (fun x hm => hx x (Or.inl hm)) (by linarith)
    obtain ⟨hr, b, hb⟩ := tree_exact h r (fun x hm => hx x (Or.inr hm)) (by linarith)
    have hab : l.leaves.sum + r.leaves.sum = ((a + b : ℕ) : ℝ) := by rw [ha, hb]; push_cast; ring
    refine ⟨?_, a + b, hab⟩
    rw [Tree.value, hl, hr, hab]
    refine h.rnd_nat ?_
    rw [hab] at hs
    exact_mod_cast hs

theorem asFloat_sum (data : List ℕ) : (asFloat data).sum = ((data.sum : ℕ) : ℝ) := by rw [asFloat, Nat.cast_list_sum]

theorem sum_exact {F : Impl} (h : F.Legal) (t : ℕ) (data : List ℕ) (hs : data.sum ≤ 2 ^ 53) : F.sum t (asFloat data) = (data.sum : ℕ) := by
  cases hd : asFloat data with
  | nil =>
    have : data = [] := by simpa [asFloat] using hd
    simp [this, Impl.sum]
  | cons x xs =>
    have hp := h.leaves t (asFloat data) (by rw [hd]; simp)
    have hsum : (F.order t (asFloat data)).leaves.sum = (data.sum : ℝ) := by rw [hp.sum_eq, asFloat_sum]
    have := (tree_exact h (F.order t (asFloat data)) (fun x hx => by
      obtain ⟨k, _, rfl⟩ := List.mem_map.1 (hp.mem_iff.1 hx); exact ⟨k, rfl⟩) (by rw [hsum]; exact_mod_cast hs)).1
    rw [hd] at this hsum
    rw [Impl.sum, this, hsum]

theorem asFloat_drop (data : List ℕ) (a : ℕ) : (asFloat data).drop a = asFloat (data.drop a) := by simp [asFloat, List.map_drop]
theorem asFloat_take (data : List ℕ) (a : ℕ) : (asFloat data).take a = asFloat (data.take a) := by simp [asFloat, List.map_take]
theorem asInt_drop (data : List ℕ) (a : ℕ) : (asInt data).drop a = asInt (data.drop a) := by simp [asInt, List.map_drop]
theorem asInt_take (data : List ℕ) (a : ℕ) : (asInt data).take a = asInt (data.take a) := by simp [asInt, List.map_take]

theorem sublist_sum {a b : List ℕ} (h : List.Sublist a b) : a.sum ≤ b.sum := h.sum_le_sum fun _ _ => Nat.zero_le _

theorem reduceat_exact {F : Impl} (h : F.Legal) (data : List ℕ) (hs : data.sum ≤ 2 ^ 53) : ∀ idx : List ℕ,
    F.reduceat (asFloat data) idx = (reduceat (asInt data) idx).map fun z : ℤ => (z : ℝ)
  | [] => rfl
  | [a] => by
    simp only [Impl.reduceat, reduceat, List.map_cons, List.map_nil]
    rw [asFloat_drop, sum_exact h a _ ((sublist_sum (List.drop_sublist a data)).trans hs), asInt_drop, asInt_sum]
    rw [Int.cast_natCast]
  | a :: b :: r => by
    simp only [Impl.reduceat, reduceat, List.map_cons]
    rw [reduceat_exact h data hs (b :: r)]
    congr 1
    split
    · rw [asFloat_take, asFloat_drop,
        sum_exact h a _ ((sublist_sum ((List.drop_sublist _ _).trans (List.take_sublist _ _))).trans hs), sliceSum, asInt_take, asInt_drop, asInt_sum]
      rw [Int.cast_natCast]
    · simp only [asFloat, asInt, List.getD_eq_getElem?_getD, List.getElem?_map]
      cases data[a]? <;> simp

/-! ## `group_min` -/

theorem minLoop_exact {F : Impl} (h : F.Legal) (n : ℕ) : ∀ (data : List ℕ) (i gc : ℕ) (idx : List ℕ), gc + data.sum ≤ 2 ^ 53 →
    F.minLoop (n : ℝ) (asFloat data) i (gc : ℝ) idx = minLoop (n : ℤ) (asInt data) i (gc : ℤ) idx
  | [], _, _, _, _ => rfl
  | [d], i, gc, idx, hs => by
    have hr : F.rnd ((gc : ℝ) + d) = ((gc + d : ℕ) : ℝ) := by
      rw [← Nat.cast_add]; exact h.rnd_nat (by simpa using hs)
    simp only [asFloat, asInt, List.map_cons, List.map_nil, Impl.minLoop, minLoop, hr]
    have : ((gc + d : ℕ) : ℝ) < n ↔ (gc : ℤ) + d < n := by
      rw [Nat.cast_lt, ← Nat.cast_add, Nat.cast_lt]
    simp only [this]
  | d :: d' :: r, i, gc, idx, hs => by
    simp only [List.sum_cons] at hs
    have hr : F.rnd ((gc : ℝ) + d) = ((gc + d : ℕ) : ℝ) := by
      rw [← Nat.cast_add]; exact h.rnd_nat (by omega)
    have e1 := minLoop_exact h n (d' :: r) (i + 1) 0 ((i + 1) :: idx) (by simp only [List.sum_cons]; omega)
    have e2 := minLoop_exact h n (d' :: r) (i + 1) (gc + d) idx (by simp only [List.sum_cons]; omega)
    simp only [asFloat, asInt, List.map_cons, Nat.cast_zero] at e1 e2 ⊢
    simp only [Impl.minLoop, minLoop, hr, e1, e2]
    have : (n : ℝ) ≤ ((gc + d : ℕ) : ℝ) ↔ (n : ℤ) ≤ (gc : ℤ) + d := by
      rw [Nat.cast_le, ← Nat.cast_add, Nat.cast_le]
    simp only [this]
    simp only [Nat.cast_add]

/-- **C144 (group_min).** For Poisson counts (whole numbers) whose sum is at most `2 ^ 53`, `group_min` computes the same flags and the same report of
success in float64, whatever the order of the additions, as with exact integers. -/
theorem C144_group_min {F : Impl} (h : F.Legal) (data : List ℕ) (hs : data.sum ≤ 2 ^ 53) (n : ℕ) :
    F.groupMin (asFloat data) n = groupMin (asInt data) (n : ℤ) := by
  have e0 := minLoop_exact h n data 0 0 [0] (by omega)
  simp only [Nat.cast_zero] at e0
  have c1 : ((n : ℝ) ≤ 0) = ((n : ℤ) ≤ 0) := propext (by rw [Nat.cast_nonpos]; omega)
  have c2 : (asFloat data = []) = (asInt data = []) := propext (by simp [asFloat, asInt])
  simp only [Impl.groupMin, groupMin, c1, c2, e0]
  split
  · rfl
  · split
    · rfl
    · rw [reduceat_exact h data hs]
      congr 2
      · simp [asFloat, asInt]
      · rw [List.all_map]
        congr 1
        funext z
        have : ((n : ℝ) ≤ (z : ℝ)) = ((n : ℤ) ≤ z) := propext (by exact_mod_cast Iff.rfl)
        simp only [Function.comp, this]

/-! ## `group_opt` with a minimum number of counts -/

theorem cumsumFrom_exact {F : Impl} (h : F.Legal) : ∀ (data : List ℕ) (acc : ℕ), acc + data.sum ≤ 2 ^ 53 →
    F.cumsumFrom (acc : ℝ) (asFloat data) = (cumsumFrom (acc : ℤ) (asInt data)).map fun z : ℤ => (z : ℝ)
  | [], _, _ => rfl
  | d :: r, acc, hs => by
    simp only [List.sum_cons] at hs
    have hr : F.rnd ((acc : ℝ) + d) = ((acc + d : ℕ) : ℝ) := by
      rw [← Nat.cast_add]; exact h.rnd_nat (by omega)
    have e := cumsumFrom_exact h r (acc + d) (by omega)
    simp only [asFloat, asInt, List.map_cons] at e ⊢
    simp only [Impl.cumsumFrom, cumsumFrom, List.map_cons, hr, e]
    simp

theorem cumsum_exact {F : Impl} (h : F.Legal) (data : List ℕ) (hs : data.sum ≤ 2 ^ 53) :
    F.cumsum (asFloat data) = (cumsum (asInt data)).map fun z : ℤ => (z : ℝ) := by
  cases data with
  | nil => rfl
  | cons d r =>
    have e := cumsumFrom_exact h r d (by simpa using hs)
    simp only [asFloat, asInt, List.map_cons] at e ⊢
    simp only [Impl.cumsum, cumsum, cumsumFrom, List.map_cons, e, zero_add]
    simp

theorem optMinExtend_exact {F : Impl} (h : F.Legal) (data : List ℕ) (hs : data.sum ≤ 2 ^ 53) (n : ℕ) (hn : n ≤ 2 ^ 53) (i j : ℕ) :
    F.optMinExtend (asFloat data) n i j = optMinExtend (asInt data) (n : ℤ) i j := by
  have hsl : ((data.take (j + 1)).drop i).sum ≤ data.sum := sublist_sum ((List.drop_sublist _ _).trans (List.take_sublist _ _))
  have hsum := sum_exact h i ((data.take (j + 1)).drop i) (by omega)
  have hint : sliceSum (asInt data) i (j + 1) = ((((data.take (j + 1)).drop i).sum : ℕ) : ℤ) := by
    rw [sliceSum, asInt_take, asInt_drop, asInt_sum]
  simp only [Impl.optMinExtend, optMinExtend, asFloat_take, asFloat_drop, asInt_drop, hsum, hint]
  generalize ((data.take (j + 1)).drop i).sum = c at *
  have c1 : ((c : ℝ) < n) = ((c : ℤ) < n) := propext (by rw [Nat.cast_lt, Nat.cast_lt])
  simp only [c1]
  split
  · have hr : F.rnd ((n : ℝ) - c) = (((n : ℤ) - c : ℤ) : ℝ) := by
      rw [← h.rnd_int (k := (n : ℤ) - c) (by rw [abs_le]; constructor <;> omega)]; push_cast; rfl
    rw [hr]
    congr 1
    rw [Impl.firstReach, firstReach, cumsum_exact h _ ((sublist_sum (List.drop_sublist _ _)).trans hs), List.findIdx?_map]
    congr 2
    funext z
    simp only [Function.comp]
    congr 1
    exact propext (by exact_mod_cast Iff.rfl)
  · rfl

/-- **C144 (group_opt).** The same for optimal grouping with a minimum number of counts. -/
theorem C144_group_opt {F : Impl} (h : F.Legal) (bint data : List ℕ) (hs : data.sum ≤ 2 ^ 53) (n : ℕ) (hn : n ≤ 2 ^ 53) :
    F.groupOpt bint (asFloat data) n = groupOpt bint (some (asInt data)) (n : ℤ) := by
  have c1 : ((0 : ℝ) < n) = ((0 : ℤ) < n) := propext (by rw [Nat.cast_pos]; omega)
  have c2 : F.optMinExtend (asFloat data) (n : ℝ) = optMinExtend (asInt data) (n : ℤ) := by
    funext i j; exact optMinExtend_exact h data hs n hn i j
  simp only [Impl.groupOpt, groupOpt, c1, c2]
  split
  · rw [reduceat_exact h data hs]
    congr 2
    rw [List.any_map]
    congr 1
    funext z
    have : ((z : ℝ) < (n : ℝ)) = (z < (n : ℤ)) := propext (by exact_mod_cast Iff.rfl)
    simp only [Function.comp, this]
  · rfl

/-! ## The counts of the groups -/

theorem factor_exact {F : Impl} (h : F.Legal) (quality : Option (List Bool)) : ∀ (data : List ℕ) (q : List ℝ), (∀ x ∈ q, x = 0 ∨ x = 1) → data.sum ≤ 2 ^ 53 →
    ∃ kept : List ℕ, kept.sum ≤ data.sum ∧ List.zipWith (fun q c => F.rnd (q * c)) q (asFloat data) = asFloat kept ∧ mulArr q (asFloat data) = asFloat kept
  | [], q, _, _ => ⟨[], le_refl _, by cases q <;> rfl, by cases q <;> rfl⟩
  | d :: r, [], _, _ => ⟨[], by simp, rfl, rfl⟩
  | d :: r, x :: q, hq, hs => by
    simp only [List.sum_cons] at hs
    obtain ⟨kept, h1, h2, h3⟩ := factor_exact h quality r q (fun y hy => hq y (List.mem_cons_of_mem _ hy)) (by omega)
    have hd : F.rnd ((d : ℕ) : ℝ) = d := h.rnd_nat (by omega)
    have h0 : F.rnd 0 = 0 := by simpa using h.rnd_nat (k := 0) (by norm_num)
    rcases hq x (by simp) with hx | hx
    · refine ⟨0 :: kept, by simp; omega, ?_, ?_⟩
      · simp only [asFloat, List.map_cons, List.zipWith_cons_cons, hx, zero_mul, h0, Nat.cast_zero] at h2 ⊢
        rw [h2]
      · simp only [asFloat, mulArr, List.map_cons, List.zipWith_cons_cons, hx, zero_mul, Nat.cast_zero] at h3 ⊢
        rw [h3]
    · refine ⟨d :: kept, by simp; omega, ?_, ?_⟩
      · simp only [asFloat, List.map_cons, List.zipWith_cons_cons, hx, one_mul, hd] at h2 ⊢
        rw [h2]
      · simp only [asFloat, mulArr, List.map_cons, List.zipWith_cons_cons, hx, one_mul] at h3 ⊢
        rw [h3]

theorem reduceat_real (data : List ℕ) : ∀ idx : List ℕ,
    reduceat (asFloat data) idx = (reduceat (asInt data) idx).map fun z : ℤ => (z : ℝ)
  | [] => rfl
  | [a] => by
    simp only [reduceat, List.map_cons, List.map_nil, asFloat_drop, asInt_drop, asInt_sum, asFloat_sum, Int.cast_natCast]
  | a :: b :: r => by
    simp only [reduceat, List.map_cons]
    rw [reduceat_real data (b :: r)]
    congr 1
    split
    · simp only [sliceSum, asFloat_take, asFloat_drop, asInt_take, asInt_drop, asInt_sum, asFloat_sum, Int.cast_natCast]
    · simp only [asFloat, asInt, List.getD_eq_getElem?_getD, List.getElem?_map]
      cases data[a]? <;> simp

/-- **C144 (counts).** The counts of the groups of a Poisson spectrum are computed without rounding error: they are those of the model with real numbers
(`Data.Spectrum.group`, C12), with the same refusals. -/
theorem C144_group_counts {F : Impl} (h : F.Legal) (s : Data.Spectrum) (data : List ℕ) (hc : s.counts = asFloat data) (hs : data.sum ≤ 2 ^ 53)
    (flags : List Int) (quality : Option (List Bool)) : F.groupCounts s.counts flags quality = (s.group flags quality).map Prod.fst := by
  simp only [Impl.groupCounts, Data.Spectrum.group]
  split
  · rfl
  · split
    · rfl
    · obtain ⟨kept, h1, h2, h3⟩ := factor_exact h quality data (qualityFactor quality s.counts.length) (by
        intro x hx
        cases quality with
        | none => simp only [qualityFactor, List.mem_replicate] at hx; exact Or.inr hx.2
        | some q =>
          simp only [qualityFactor, List.mem_map] at hx
          obtain ⟨b, _, rfl⟩ := hx
          cases b <;> simp) hs
      show Except.ok _ = Except.ok _
      rw [hc] at h2 h3 ⊢
      rw [h2, h3, reduceat_exact h kept (by omega), reduceat_real]

end Elisa.Grouping.Fl
