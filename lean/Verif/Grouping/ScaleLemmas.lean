import Verif.Grouping.FlagLemmas
import Verif.Grouping.ScaleSpec
import Mathlib.Algebra.CharZero.Defs
import Mathlib.Data.Nat.Cast.Field
import Mathlib.Tactic.FieldSimp
import Mathlib.Tactic.Ring

/-! Helper lemmas: every array that the scale code produces is the image of a family of channel sets. -/

set_option linter.unusedSectionVars false

namespace Elisa.Grouping

open Elisa

variable {K : Type*} [Field K] [DecidableEq K]

/-- The grouped metadata of the list of channel sets `Ss`. -/
def describe (net : Bool) (c s : Nat → K) (Ss : List (Finset Nat)) : ScaleGroupData K where
  scale := Ss.map fun S => effScale net S c s
  counts := Ss.map fun S => ∑ i ∈ S, c i
  nChan := Ss.map fun S => (S.card : K)
  weightedInv := Ss.map fun S => ∑ i ∈ S, c i / s i
  reciprocal := Ss.map fun S => ∑ i ∈ S, 1 / s i
  scaleSum := Ss.map fun S => ∑ i ∈ S, s i

/-- Union of the sets number `a, ..., b-1` of the family. -/
def unionOf (Ss : List (Finset Nat)) (a b : Nat) : Finset Nat :=
  (Finset.Ico a b).biUnion fun k => Ss.getD k ∅

theorem guardedDiv_zero (a b : K) : guardedDiv 0 a b = a / b := by
  unfold guardedDiv
  by_cases h : b = 0 <;> simp [h]

theorem total_map_set {Ss : List (Finset Nat)} (hd : Ss.Pairwise Disjoint) (f : Nat → K) {a b : Nat}
    :
    total (Ss.map fun S => ∑ i ∈ S, f i) a b = ∑ i ∈ unionOf Ss a b, f i := by
  unfold total unionOf
  rw [Finset.sum_biUnion]
  · apply Finset.sum_congr rfl
    intro k _
    by_cases hk : k < Ss.length
    · simp [List.getD, hk]
    · simp [List.getD, hk]
  · intro i _ j _ hij
    simp only [Function.onFun]
    by_cases hi : i < Ss.length
    · by_cases hj : j < Ss.length
      · simp only [List.getD, List.getElem?_eq_getElem hi, List.getElem?_eq_getElem hj,
          Option.getD_some]
        rcases Nat.lt_or_gt_of_ne hij with h | h
        · exact List.pairwise_iff_getElem.1 hd i j hi hj h
        · exact (List.pairwise_iff_getElem.1 hd j i hj hi h).symm
      · simp [List.getD, hj]
    · simp [List.getD, hi]

theorem card_eq_sum (S : Finset Nat) : (S.card : K) = ∑ _i ∈ S, (1 : K) := by simp

theorem groupedScale_eq [CharZero K] (net : Bool) (S : Finset Nat) (c s : Nat → K) :
    groupedScale net (∑ i ∈ S, c i) (S.card : K) (∑ i ∈ S, c i / s i) (∑ i ∈ S, 1 / s i)
      (∑ i ∈ S, s i) = effScale net S c s := by
  unfold groupedScale effScale guardedDiv
  cases net
  · simp
  · by_cases h : S = ∅ <;> simp [h]

theorem mulArr_factor (quality : Option (List Bool)) (xs : List K)
    (hq : (quality.map List.length).getD xs.length = xs.length) :
    (mulArr (qualityFactor quality xs.length) xs).length = xs.length ∧
    ∀ i, (mulArr (qualityFactor quality xs.length) xs).getD i 0 =
      if ∀ q, quality = some q → q[i]? = some true then xs.getD i 0 else 0 := by
  cases quality with
  | none =>
    have : mulArr (qualityFactor none xs.length) xs = xs := by
      unfold mulArr qualityFactor
      apply List.ext_getElem <;> simp
    rw [this]; simp
  | some q =>
    have hq' : q.length = xs.length := by simpa using hq
    unfold mulArr qualityFactor
    refine ⟨by simp [hq'], fun i => ?_⟩
    by_cases hi : i < xs.length
    · have hi' : i < q.length := by omega
      by_cases hqi : q[i] = true <;> simp [List.getD, hi, hi', hqi]
    · have hi' : ¬ i < q.length := by omega
      simp [List.getD, hi, hi']

theorem total_mulArr (quality : Option (List Bool)) (xs : List K)
    (hq : (quality.map List.length).getD xs.length = xs.length) (a b : Nat) :
    total (mulArr (qualityFactor quality xs.length) xs) a b
      = ∑ i ∈ goodIn quality a b, xs.getD i 0 := by
  unfold total goodIn
  rw [Finset.sum_filter]
  apply Finset.sum_congr rfl
  intro i _
  exact (mulArr_factor quality xs hq).2 i

/-- reduceat over the flags as a map over the groups -/
theorem reduceat_flags {M : Type*} [AddCommMonoid M] {xs : List M} {flags : List Int}
    (hl : xs.length = flags.length) :
    reduceat xs (groupIdx flags) = (edges (groupIdx flags) flags.length).map
      fun e => total xs e.1 e.2 := by
  rw [reduceat_eq xs _ (pairwise_groupIdx flags), hl]

theorem total_congr {xs ys : List K} {a b : Nat} (h : ∀ i, xs.getD i 0 = ys.getD i 0) :
    total xs a b = total ys a b := by
  unfold total; exact Finset.sum_congr rfl fun i _ => h i

/-- groups as channel sets -/
def groupSets (flags : List Int) (quality : Option (List Bool)) : List (Finset Nat) :=
  (edges (groupIdx flags) flags.length).map fun e => goodIn quality e.1 e.2

theorem groupScaleData_first [CharZero K] {counts scale : List K} {flags : List Int}
    {quality : Option (List Bool)} (net : Bool)
    (hs : scale.length = counts.length) (hf : flags.length = counts.length)
    (hq : (quality.map List.length).getD counts.length = counts.length) :
    groupScaleData counts scale flags quality net none none none none =
      .ok (describe net (at0 counts) (at0 scale) (groupSets flags quality)) := by
  unfold groupScaleData
  simp only [hs, hf, hq, ne_eq, not_true_eq_false, if_false, Option.map_none, Option.getD_none]
  congr 1
  have key : ∀ (xs : List K), xs.length = counts.length →
      reduceat (mulArr (qualityFactor quality counts.length) xs) (groupIdx flags) =
        (groupSets flags quality).map fun S => ∑ i ∈ S, xs.getD i 0 := by
    intro xs hx
    rw [← hx] at hq ⊢
    rw [reduceat_flags (by rw [(mulArr_factor quality xs hq).1, hx, hf])]
    unfold groupSets
    rw [List.map_map]
    apply List.map_congr_left
    intro e _
    exact total_mulArr quality xs hq e.1 e.2
  have hsub : ∀ S ∈ groupSets flags quality, ∀ i ∈ S, i < counts.length := by
    intro S hS i hi
    unfold groupSets at hS
    obtain ⟨e, he, rfl⟩ := List.mem_map.1 hS
    have : e.2 ≤ flags.length := by
      have hp := pairwise_groupIdx flags
      have hr := edges_reverse (groupIdx flags).reverse flags.length
      rw [List.reverse_reverse] at hr
      rw [hr, List.mem_reverse] at he
      exact (mem_revEdges_lt (by rw [List.pairwise_reverse]; exact hp)
        (fun k hk => lt_of_mem_groupIdx (List.mem_reverse.1 hk)) he).2
    have h2 := (Finset.mem_filter.1 hi).1
    rw [Finset.mem_Ico] at h2
    omega
  have hc := key counts rfl
  have hn : reduceat (mulArr (qualityFactor quality counts.length) (List.replicate counts.length 1))
      (groupIdx flags) = (groupSets flags quality).map fun S => (S.card : K) := by
    rw [key _ (by simp)]
    apply List.map_congr_left
    intro S hS
    rw [card_eq_sum]
    apply Finset.sum_congr rfl
    intro i hi
    simp [List.getD, hsub S hS i hi]
  have hw : reduceat (mulArr (qualityFactor quality counts.length)
      (List.zipWith (guardedDiv 0) counts scale)) (groupIdx flags)
      = (groupSets flags quality).map fun S => ∑ i ∈ S, at0 counts i / at0 scale i := by
    rw [key _ (by simp [hs])]
    apply List.map_congr_left
    intro S hS
    apply Finset.sum_congr rfl
    intro i hi
    have := hsub S hS i hi
    simp [List.getD, at0, this, hs, guardedDiv_zero]
  have hr : reduceat (mulArr (qualityFactor quality counts.length)
      (scale.map (guardedDiv 0 1))) (groupIdx flags)
      = (groupSets flags quality).map fun S => ∑ i ∈ S, 1 / at0 scale i := by
    rw [key _ (by simp [hs])]
    apply List.map_congr_left
    intro S hS
    apply Finset.sum_congr rfl
    intro i hi
    have := hsub S hS i hi
    simp [List.getD, at0, this, hs, guardedDiv_zero]
  have hss := key scale hs
  rw [hc, hn, hw, hr, hss]
  unfold describe
  congr 1
  apply List.ext_getElem
  · simp
  · intro k h1 h2
    simp only [List.length_map, List.length_range] at h1 h2
    have h2' : k < (groupSets flags quality).length := by simpa using h2
    simp only [List.getElem_map, List.getElem_range, List.getD, List.getElem?_map,
      List.getElem?_eq_getElem h2', Option.map_some, Option.getD_some]
    exact groupedScale_eq net _ _ _

theorem total_card {Ss : List (Finset Nat)} (hd : Ss.Pairwise Disjoint) (a b : Nat) :
    total (Ss.map fun S => (S.card : K)) a b = ((unionOf Ss a b).card : K) := by
  have : (Ss.map fun S => (S.card : K)) = Ss.map fun S => ∑ _i ∈ S, (1 : K) := by
    apply List.map_congr_left; intro S _; exact card_eq_sum S
  rw [this, total_map_set hd, card_eq_sum]

/-- Merging the sets of a family along flags. -/
def mergeSets (Ss : List (Finset Nat)) (flags : List Int) : List (Finset Nat) :=
  (edges (groupIdx flags) flags.length).map fun e => unionOf Ss e.1 e.2

theorem groupScaleData_regroup [CharZero K] {net : Bool} {c s : Nat → K} {Ss : List (Finset Nat)}
    (hd : Ss.Pairwise Disjoint) {flags : List Int} (hf : flags.length = Ss.length) :
    let d := describe net c s Ss
    groupScaleData d.counts d.scale flags none net (some d.nChan) (some d.weightedInv)
        (some d.reciprocal) (some d.scaleSum) =
      .ok (describe net c s (mergeSets Ss flags)) := by
  intro d
  have hq : ∀ (xs : List K), ((none : Option (List Bool)).map List.length).getD xs.length = xs.length := by
    intro xs; rfl
  have key : ∀ (xs : List K), xs.length = Ss.length →
      reduceat (mulArr (qualityFactor none Ss.length) xs) (groupIdx flags) =
        (edges (groupIdx flags) flags.length).map fun e => total xs e.1 e.2 := by
    intro xs hx
    rw [← hx]
    have : mulArr (qualityFactor none xs.length) xs = xs := by
      unfold mulArr qualityFactor
      apply List.ext_getElem <;> simp
    rw [this, reduceat_flags (by rw [hx, hf])]
  unfold groupScaleData
  simp only [d, describe, List.length_map, hf, ne_eq, not_true_eq_false, if_false, Option.map_none,
    Option.getD_none, Option.map_some, Option.getD_some]
  congr 1
  rw [key _ (by simp), key _ (by simp), key _ (by simp), key _ (by simp), key _ (by simp)]
  simp only [total_map_set hd, total_card hd]
  unfold mergeSets
  simp only [List.map_map]
  congr 1
  apply List.ext_getElem
  · simp
  · intro k h1 h2
    simp only [List.length_map, List.length_range] at h1 h2
    simp only [List.getElem_map, List.getElem_range, List.getD, List.getElem?_map,
      List.getElem?_eq_getElem h2, Option.map_some, Option.getD_some]
    exact groupedScale_eq net _ _ _

theorem describe_length (net : Bool) (c s : Nat → K) (Ss : List (Finset Nat)) :
    (describe net c s Ss).scale.length = Ss.length := by simp [describe]

theorem getD_cumsumFrom (acc : K) (xs : List K) (k : Nat) (hk : k < xs.length) :
    (cumsumFrom acc xs).getD k 0 = acc + total xs 0 (k + 1) := by
  induction xs generalizing acc k with
  | nil => simp at hk
  | cons x xs ih =>
    cases k with
    | zero => simp [cumsumFrom, total]
    | succ k =>
      have := ih (acc + x) k (by simpa using hk)
      simp only [cumsumFrom, List.getD_cons_succ]
      rw [this]
      unfold total
      rw [← Finset.range_eq_Ico, ← Finset.range_eq_Ico, Finset.sum_range_succ' _ (k + 1)]
      simp [add_assoc, add_comm, add_left_comm]

theorem prefixSum_getD (xs : List K) (k : Nat) (hk : k ≤ xs.length) :
    (prefixSum xs).getD k 0 = total xs 0 k := by
  unfold prefixSum cumsum
  cases k with
  | zero => simp
  | succ k =>
    rw [List.getD_cons_succ, getD_cumsumFrom 0 xs k hk, zero_add]

theorem prefixSum_diff (xs : List K) {a b : Nat} (hab : a ≤ b) (hb : b ≤ xs.length) :
    (prefixSum xs).getD b 0 - (prefixSum xs).getD a 0 = total xs a b := by
  rw [prefixSum_getD xs b hb, prefixSum_getD xs a (le_trans hab hb),
    ← total_append xs (Nat.zero_le a) hab]
  ring

theorem scaleFromInterval_describe [CharZero K] {net : Bool} {c s : Nat → K}
    {Ss : List (Finset Nat)} (hd : Ss.Pairwise Disjoint) {a b : Nat} (hab : a ≤ b)
    (hb : b ≤ Ss.length) :
    scaleFromInterval (buildScalePrefix (describe net c s Ss) net) a b =
      effScale net (unionOf Ss a b) c s := by
  unfold scaleFromInterval buildScalePrefix describe
  simp only
  rw [prefixSum_diff _ hab (by simpa using hb), prefixSum_diff _ hab (by simpa using hb),
    prefixSum_diff _ hab (by simpa using hb), prefixSum_diff _ hab (by simpa using hb),
    prefixSum_diff _ hab (by simpa using hb)]
  simp only [total_map_set hd, total_card hd]
  unfold effScale
  cases net
  · by_cases h : unionOf Ss a b = ∅
    · simp [h]
    · simp [h]
  · by_cases h : unionOf Ss a b = ∅
    · simp [h]
    · simp [h]

theorem applyMask_map {α β : Type*} (f : α → β) (mask : List Bool) (xs : List α) :
    applyMask mask (xs.map f) = (applyMask mask xs).map f := by
  unfold applyMask
  induction mask generalizing xs with
  | nil => simp
  | cons m mask ih =>
    cases xs with
    | nil => simp
    | cons x xs => cases m <;> simpa using ih xs

theorem sliceScaleData_describe (net : Bool) (c s : Nat → K) (Ss : List (Finset Nat))
    (mask : List Bool) :
    sliceScaleData (describe net c s Ss) mask = describe net c s (applyMask mask Ss) := by
  unfold sliceScaleData describe
  simp [applyMask_map]

theorem applyMask_sublist {α : Type*} (mask : List Bool) (xs : List α) :
    (applyMask mask xs).Sublist xs := by
  unfold applyMask
  induction mask generalizing xs with
  | nil => simp
  | cons m mask ih =>
    cases xs with
    | nil => simp
    | cons x xs =>
      cases m
      · exact (by simpa using List.Sublist.cons x (ih xs))
      · simpa using ih xs

theorem groupSets_disjoint (flags : List Int) (quality : Option (List Bool)) :
    (groupSets flags quality).Pairwise Disjoint := by
  unfold groupSets
  have hr := edges_reverse (groupIdx flags).reverse flags.length
  rw [List.reverse_reverse] at hr
  rw [hr, List.map_reverse, List.pairwise_reverse]
  have hp : (groupIdx flags).reverse.Pairwise (· > ·) := by
    rw [List.pairwise_reverse]; exact pairwise_groupIdx flags
  have hl : ∀ k ∈ (groupIdx flags).reverse, k < flags.length :=
    fun k hk => lt_of_mem_groupIdx (List.mem_reverse.1 hk)
  generalize (groupIdx flags).reverse = r at hp hl
  generalize flags.length = hi at hl
  rw [List.pairwise_map]
  induction r generalizing hi with
  | nil => simp [revEdges]
  | cons x t ih =>
    have h1 := List.pairwise_cons.1 hp
    rw [revEdges, List.pairwise_cons]
    refine ⟨?_, ih h1.2 x h1.1⟩
    intro e he
    have h2 := mem_revEdges_lt h1.2 h1.1 he
    unfold goodIn
    rw [Finset.disjoint_left]
    intro i hi1 hi2
    have h3 := Finset.mem_Ico.1 (Finset.mem_filter.1 hi1).1
    have h4 := Finset.mem_Ico.1 (Finset.mem_filter.1 hi2).1
    simp only at h3 h4
    omega

theorem groupSets_getElem? {flags : List Int} {quality : Option (List Bool)} {k a b : Nat}
    (h : IsKthGroup flags k a b) : (groupSets flags quality)[k]? = some (goodIn quality a b) := by
  unfold groupSets
  rw [List.getElem?_map, edges_getElem?_of_kth h]; rfl

end Elisa.Grouping
