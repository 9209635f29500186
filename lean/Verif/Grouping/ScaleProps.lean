import Verif.Grouping.ScaleLemmas
import Mathlib.Algebra.Order.Field.Basic
import Mathlib.Algebra.Order.BigOperators.Ring.Finset
import Mathlib.Data.Rat.Defs
import Mathlib.Algebra.Order.Ring.Rat
import Mathlib.Tactic.Linarith
import Mathlib.Tactic.Positivity
import Mathlib.Tactic.NormNum

/-!
# Properties C07, C08, C09: effective scale factors of groups of channels

Specification vocabulary: `IsKthGroup` (`Spec.lean`), `effScale`, `goodIn`, `at0`
(`ScaleSpec.lean`).
-/

set_option linter.unusedSectionVars false

namespace Elisa.Grouping

open Elisa

variable {K : Type*} [Field K] [DecidableEq K]

/-! ## C09 -/

/-- **C09 (value).**  For every counts / scale / flag / quality arrays of one length the scale of the
`k`-th group is the mean `effScale` of the scales of its good channels, and there is exactly one
value per group. -/
theorem C09_group_scale [CharZero K] (counts scale : List K) (flags : List Int)
    (quality : Option (List Bool)) (net : Bool) (hs : scale.length = counts.length)
    (hf : flags.length = counts.length) (hq : ∀ q, quality = some q → q.length = counts.length) :
    ∃ d, groupScaleData counts scale flags quality net none none none none = .ok d ∧
      d.scale.length = (flags.filter (· ≠ -1)).length ∧
      ∀ k a b, IsKthGroup flags k a b →
        d.scale[k]? = some (effScale net (goodIn quality a b) (at0 counts) (at0 scale)) := by
  have hq' : (quality.map List.length).getD counts.length = counts.length := by
    cases quality with
    | none => rfl
    | some q => simpa using hq q rfl
  refine ⟨_, groupScaleData_first net hs hf hq', ?_, ?_⟩
  · simp [describe, groupSets, edges_length, length_groupIdx]
  · intro k a b h
    simp [describe, groupSets_getElem? h]

example := C09_group_scale ([2, 4, 6] : List ℚ) [1, 2, 3] [1, -1, 1] (some [true, false, true]) false rfl rfl (by rintro q ⟨⟩; rfl)

/-- **C09 (rejection).**  Arrays of different lengths are refused. -/
theorem C09_rejects (counts scale : List K) (flags : List Int) (quality : Option (List Bool))
    (net : Bool) (h : scale.length ≠ counts.length ∨ flags.length ≠ counts.length ∨
      ∃ q, quality = some q ∧ q.length ≠ counts.length) :
    groupScaleData counts scale flags quality net none none none none = .error .valueError := by
  unfold groupScaleData
  by_cases h1 : scale.length = counts.length
  · by_cases h2 : flags.length = counts.length
    · obtain ⟨q, rfl, h3⟩ : ∃ q, quality = some q ∧ q.length ≠ counts.length := by
        rcases h with h | h | h
        · exact absurd h1 h
        · exact absurd h2 h
        · exact h
      simp [h1, h2, h3]
    · simp [h1, h2]
  · simp [h1]

example := C09_rejects ([2, 4, 6] : List ℚ) [1, 2] [1, -1, 1] none false (by decide)

section order
variable [LinearOrder K] [IsStrictOrderedRing K]

/-- **C09 (mean).**  The effective scale of a non-empty set of channels lies between the smallest and
the largest scale in it: it is a mean. -/
theorem C09_scale_between (net : Bool) (S : Finset Nat) (c s : Nat → K) (lo hi : K)
    (hS : S.Nonempty) (hlo : 0 < lo) (hc : ∀ i ∈ S, 0 ≤ c i)
    (hs : ∀ i ∈ S, lo ≤ s i ∧ s i ≤ hi) :
    lo ≤ effScale net S c s ∧ effScale net S c s ≤ hi := by
  have hcard : (0 : K) < (S.card : K) := by exact_mod_cast hS.card_pos
  have hsp : ∀ i ∈ S, 0 < s i := fun i hi' => lt_of_lt_of_le hlo (hs i hi').1
  obtain ⟨i0, hi0⟩ := hS
  have hhi : 0 < hi := lt_of_lt_of_le (hsp i0 hi0) (hs i0 hi0).2
  unfold effScale
  cases net
  · simp only [Bool.false_eq_true, if_false]
    by_cases hw : ∑ i ∈ S, c i / s i ≠ 0
    · rw [if_pos hw]
      have hwp : 0 < ∑ i ∈ S, c i / s i :=
        lt_of_le_of_ne (Finset.sum_nonneg fun i hi' => div_nonneg (hc i hi') (hsp i hi').le) hw.symm
      rw [le_div_iff₀ hwp, div_le_iff₀ hwp, Finset.mul_sum, Finset.mul_sum]
      constructor
      · apply Finset.sum_le_sum
        intro i hi'
        have h1 := hsp i hi'
        calc lo * (c i / s i) ≤ s i * (c i / s i) :=
              mul_le_mul_of_nonneg_right (hs i hi').1 (div_nonneg (hc i hi') h1.le)
          _ = c i := by field_simp
      · apply Finset.sum_le_sum
        intro i hi'
        have h1 := hsp i hi'
        calc c i = s i * (c i / s i) := by field_simp
          _ ≤ hi * (c i / s i) :=
              mul_le_mul_of_nonneg_right (hs i hi').2 (div_nonneg (hc i hi') h1.le)
    · rw [if_neg hw]
      have hrp : 0 < ∑ i ∈ S, 1 / s i :=
        Finset.sum_pos (fun i hi' => one_div_pos.2 (hsp i hi')) ⟨i0, hi0⟩
      rw [if_pos hrp.ne', le_div_iff₀ hrp, div_le_iff₀ hrp, Finset.mul_sum, Finset.mul_sum,
        card_eq_sum]
      constructor
      · apply Finset.sum_le_sum
        intro i hi'
        rw [mul_one_div, div_le_one (hsp i hi')]
        exact (hs i hi').1
      · apply Finset.sum_le_sum
        intro i hi'
        rw [mul_one_div, one_le_div (hsp i hi')]
        exact (hs i hi').2
  · rw [if_pos rfl, if_neg (by rintro rfl; simp at hi0), le_div_iff₀ hcard, div_le_iff₀ hcard, card_eq_sum,
      Finset.mul_sum, Finset.mul_sum]
    constructor
    · exact Finset.sum_le_sum fun i hi' => by rw [mul_one]; exact (hs i hi').1
    · exact Finset.sum_le_sum fun i hi' => by rw [mul_one]; exact (hs i hi').2

example := C09_scale_between (K := ℚ) false {0, 2} (fun i => i) (fun i => i + 1) 1 3 (by simp) (by norm_num) (by simp)
  (by intro i hi; simp at hi; rcases hi with rfl | rfl <;> norm_num)

/-- **C09 (rate).**  Dividing the grouped counts by the effective scale gives exactly the sum of the
per-channel scaled counts: grouping does not change the scaled total. -/
theorem C09_scaled_counts (S : Finset Nat) (c s : Nat → K) (hc : ∀ i ∈ S, 0 ≤ c i)
    (hs : ∀ i ∈ S, 0 < s i) :
    (∑ i ∈ S, c i) / effScale false S c s = ∑ i ∈ S, c i / s i := by
  unfold effScale
  simp only [Bool.false_eq_true, if_false]
  by_cases hw : ∑ i ∈ S, c i / s i ≠ 0
  · rw [if_pos hw]
    have : ∑ i ∈ S, c i ≠ 0 := by
      intro h
      apply hw
      apply Finset.sum_eq_zero
      intro i hi
      rw [(Finset.sum_eq_zero_iff_of_nonneg hc).1 h i hi, zero_div]
    field_simp
  · rw [if_neg hw]
    push Not at hw
    have : ∑ i ∈ S, c i = 0 := by
      apply Finset.sum_eq_zero
      intro i hi
      have h1 := (Finset.sum_eq_zero_iff_of_nonneg
        (fun i hi => div_nonneg (hc i hi) (hs i hi).le)).1 hw i hi
      rcases div_eq_zero_iff.1 h1 with h | h
      · exact h
      · exact absurd h (hs i hi).ne'
    rw [hw, this, zero_div]

end order

/-- Non-vacuity of C09: two groups, the middle channel bad. -/
example : ∃ d, groupScaleData [2, 4, 6] [1, 2, (3 : ℚ)] [1, -1, 1] (some [true, false, true]) false
    none none none none = .ok d ∧ d.scale = [1, 3] := by
  refine ⟨_, rfl, ?_⟩
  decide +kernel

/-- Non-vacuity: a group with zero counts uses the harmonic mean, a net spectrum the arithmetic. -/
example : (∃ d, groupScaleData [0, 0] [1, (3 : ℚ)] [1, -1] none false none none none none = .ok d ∧
      d.scale = [3 / 2]) ∧
    ∃ d, groupScaleData [0, 0] [1, (3 : ℚ)] [1, -1] none true none none none none = .ok d ∧
      d.scale = [2] := by
  exact ⟨⟨_, rfl, by decide +kernel⟩, ⟨_, rfl, by decide +kernel⟩⟩

/-! ## C07 -/

/-- `flags` merges groups of `flags1` according to `flags2` (one entry per group of `flags1`):
a channel starts a merged group exactly when it starts a group of `flags1`, number `k` say, and `k`
starts a group of `flags2`. -/
def IsComposed (flags1 flags2 flags : List Int) : Prop :=
  flags.length = flags1.length ∧
    ∀ i, IsStart flags i ↔ ∃ k b, IsKthGroup flags1 k i b ∧ IsStart flags2 k

theorem kth_start_eq {flags : List Int} {k a b : Nat} (h : IsKthGroup flags k a b) :
    (groupIdx flags)[k]? = some a := by
  have h1 := edges_getElem?_of_kth h
  have : ∀ (l : List Nat) (n : Nat), (edges l n).map Prod.fst = l := by
    intro l n
    induction l with
    | nil => rfl
    | cons a t ih => cases t with
      | nil => rfl
      | cons b r => simpa [edges] using ih
  rw [← this (groupIdx flags) flags.length, List.getElem?_map, h1]; rfl

/-- start of group number `k`, or the number of channels for `k` past the end -/
def startPos (flags : List Int) (k : Nat) : Nat := (groupIdx flags).getD k flags.length

theorem startPos_kth {flags : List Int} {k a b : Nat} (h : IsKthGroup flags k a b) :
    startPos flags k = a ∧ startPos flags (k + 1) = b := by
  refine ⟨by simp [startPos, List.getD, kth_start_eq h], ?_⟩
  unfold startPos
  obtain ⟨B, hB, hB'⟩ := groupIdx_split h.1
  have hk := h.2
  rw [filter_take_length _ _ (by have := h.1.1; have := h.1.2.1; omega)] at hk
  have : (groupIdx flags)[k + 1]? = B[0]? := by
    rw [hB, List.getElem?_append_right (by omega), hk]
    simp
  rw [List.getD, this]
  rcases hB' with ⟨h1, rfl⟩ | ⟨B', rfl⟩
  · simpa using h1.symm
  · simp

theorem startPos_strictMono {flags : List Int} {k l : Nat} (hkl : k < l)
    (hl : l ≤ (groupIdx flags).length) : startPos flags k < startPos flags l := by
  unfold startPos
  have hk : k < (groupIdx flags).length := by omega
  by_cases h : l < (groupIdx flags).length
  · simp only [List.getD, List.getElem?_eq_getElem hk, List.getElem?_eq_getElem h, Option.getD_some]
    exact List.pairwise_iff_getElem.1 (pairwise_groupIdx flags) k l hk h hkl
  · simp only [List.getD, List.getElem?_eq_getElem hk, List.getElem?_eq_none (not_lt.1 h),
      Option.getD_some, Option.getD_none]
    exact lt_of_mem_groupIdx (List.getElem_mem hk)

theorem unionOf_groupSets {flags : List Int} (h0 : IsStart flags 0) (quality : Option (List Bool))
    {a b : Nat} (hab : a ≤ b) (hb : b ≤ (groupIdx flags).length) :
    unionOf (groupSets flags quality) a b
      = goodIn quality (startPos flags a) (startPos flags b) := by
  induction b with
  | zero =>
    have : a = 0 := by omega
    subst this
    simp [unionOf, goodIn]
  | succ b ih =>
    rcases Nat.lt_or_ge a (b + 1) with h | h
    · have h1 := ih (by omega) (by omega)
      obtain ⟨x, y, hxy⟩ := exists_kth h0 (k := b) (by omega)
      have h2 := startPos_kth hxy
      have hle : startPos flags a ≤ startPos flags b := by
        rcases Nat.lt_or_ge a b with h3 | h3
        · exact (startPos_strictMono h3 (by omega)).le
        · have : a = b := by omega
          rw [this]
      have h3 : unionOf (groupSets flags quality) a (b + 1)
          = unionOf (groupSets flags quality) a b ∪ goodIn quality x y := by
        unfold unionOf
        rw [← Finset.insert_Ico_right_eq_Ico_add_one (by omega : a ≤ b), Finset.biUnion_insert, Finset.union_comm]
        congr 1
        simp [List.getD, groupSets_getElem? hxy]
      rw [h3, h1, h2.1, h2.2]
      rw [h2.1] at hle
      unfold goodIn
      rw [← Finset.filter_union, Finset.Ico_union_Ico_eq_Ico hle hxy.1.1.le]
    · have : a = b + 1 := by omega
      subst this
      simp [unionOf, goodIn]

theorem groupIdx_composed {flags1 flags2 flags : List Int} (h : IsComposed flags1 flags2 flags)
    (h0 : IsStart flags1 0) (hl : flags2.length = (groupIdx flags1).length) :
    groupIdx flags = (groupIdx flags2).map (startPos flags1) := by
  apply List.Perm.eq_of_pairwise (le := (· < ·))
  · intro a b _ _ h1 h2; omega
  · exact pairwise_groupIdx flags
  · rw [List.pairwise_map]
    apply (pairwise_groupIdx flags2).imp_of_mem
    intro a b _ hb hab
    exact startPos_strictMono hab (by have := lt_of_mem_groupIdx hb; omega)
  · apply (List.perm_ext_iff_of_nodup ((pairwise_groupIdx flags).imp (fun h => Nat.ne_of_lt h)) ?_).2
    · intro i
      rw [mem_groupIdx, h.2 i, List.mem_map]
      constructor
      · rintro ⟨k, b, h1, h2⟩
        exact ⟨k, mem_groupIdx.2 h2, (startPos_kth h1).1⟩
      · rintro ⟨k, h1, rfl⟩
        have hk : k < (groupIdx flags1).length := by
          have := lt_of_mem_groupIdx h1; omega
        obtain ⟨x, y, hxy⟩ := exists_kth h0 hk
        refine ⟨k, y, ?_, mem_groupIdx.1 h1⟩
        rw [(startPos_kth hxy).1]; exact hxy
    · have : ((groupIdx flags2).map (startPos flags1)).Pairwise (· < ·) := by
        rw [List.pairwise_map]
        apply (pairwise_groupIdx flags2).imp_of_mem
        intro a b _ hb hab
        exact startPos_strictMono hab (by have := lt_of_mem_groupIdx hb; omega)
      exact this.imp (fun h => Nat.ne_of_lt h)

theorem edges_map (f : Nat → Nat) (l : List Nat) (n m : Nat) (h : f n = m) :
    edges (l.map f) m = (edges l n).map fun e => (f e.1, f e.2) := by
  induction l with
  | nil => rfl
  | cons a t ih => cases t with
    | nil => simp [edges, h]
    | cons b r => simpa [edges] using ih

theorem edges_le {flags : List Int} {e : Nat × Nat} (he : e ∈ edges (groupIdx flags) flags.length) :
    e.1 < e.2 ∧ e.2 ≤ flags.length := by
  have hr := edges_reverse (groupIdx flags).reverse flags.length
  rw [List.reverse_reverse] at hr
  rw [hr, List.mem_reverse] at he
  exact mem_revEdges_lt (by rw [List.pairwise_reverse]; exact pairwise_groupIdx flags)
    (fun k hk => lt_of_mem_groupIdx (List.mem_reverse.1 hk)) he

theorem mergeSets_composed {flags1 flags2 flags : List Int} (h : IsComposed flags1 flags2 flags)
    (h0 : IsStart flags1 0) (hl : flags2.length = (groupIdx flags1).length)
    (quality : Option (List Bool)) :
    mergeSets (groupSets flags1 quality) flags2 = groupSets flags quality := by
  unfold mergeSets
  have h1 : groupSets flags quality = (edges (groupIdx flags2) flags2.length).map
      fun e => goodIn quality (startPos flags1 e.1) (startPos flags1 e.2) := by
    unfold groupSets
    rw [groupIdx_composed h h0 hl, edges_map (startPos flags1) _ flags2.length, List.map_map]
    · rfl
    · rw [h.1, hl]; simp [startPos]
  rw [h1]
  apply List.map_congr_left
  intro e he
  have := edges_le he
  exact unionOf_groupSets h0 quality this.1.le (by omega)

/-- **C07.**  Grouping twice (channels by `flags1` with the quality mask, then the resulting groups by
`flags2` from the stored sums) yields exactly the same metadata — scales, counts, numbers of
channels and all sums — as grouping the channels once by the composed flags. -/
theorem C07_regroup [CharZero K] (counts scale : List K) (flags1 flags2 flags : List Int)
    (quality : Option (List Bool)) (net : Bool) (hs : scale.length = counts.length)
    (hf : flags1.length = counts.length) (hq : ∀ q, quality = some q → q.length = counts.length)
    (h0 : IsStart flags1 0) (hl : flags2.length = (flags1.filter (· ≠ -1)).length)
    (hcomp : IsComposed flags1 flags2 flags) :
    ∃ d1 d, groupScaleData counts scale flags1 quality net none none none none = .ok d1 ∧
      groupScaleData counts scale flags quality net none none none none = .ok d ∧
      groupScaleData d1.counts d1.scale flags2 none net (some d1.nChan) (some d1.weightedInv)
        (some d1.reciprocal) (some d1.scaleSum) = .ok d := by
  have hq' : (quality.map List.length).getD counts.length = counts.length := by
    cases quality with
    | none => rfl
    | some q => simpa using hq q rfl
  rw [← length_groupIdx] at hl
  refine ⟨_, _, groupScaleData_first net hs hf hq',
    groupScaleData_first net hs (by rw [hcomp.1, hf]) hq', ?_⟩
  rw [groupScaleData_regroup (groupSets_disjoint flags1 quality)
    (by rw [hl, groupSets, List.length_map, edges_length]), mergeSets_composed hcomp h0 hl]

/-- Non-vacuity of C07: five channels in three groups, the last two merged. -/
example : IsComposed [1, -1, 1, 1, -1] [1, 1, -1] [1, -1, 1, -1, -1] ∧
    ∃ d1 d, groupScaleData [1, 2, 3, 4, (5 : ℚ)] [1, 2, 3, 4, 5] [1, -1, 1, 1, -1]
        (some [true, true, false, true, true]) false none none none none = .ok d1 ∧
      groupScaleData d1.counts d1.scale [1, 1, -1] none false (some d1.nChan) (some d1.weightedInv)
        (some d1.reciprocal) (some d1.scaleSum) = .ok d ∧ d.scale = [3 / 2, 9 / 2] := by
  refine ⟨⟨rfl, ?_⟩, _, _, rfl, rfl, by decide +kernel⟩
  intro i
  constructor
  · intro h
    have hi : i < 5 := by simpa using lt_of_isStart h
    have hmem : i ∈ groupIdx [1, -1, 1, -1, -1] := mem_groupIdx.2 h
    have : groupIdx [1, -1, 1, -1, -1] = [0, 2] := by decide
    rw [this] at hmem
    simp only [List.mem_cons, List.not_mem_nil, or_false] at hmem
    rcases hmem with rfl | rfl
    · exact ⟨0, 2, kth_of_edges_getElem? (mem_groupIdx.1 (by decide)) (by decide),
        mem_groupIdx.1 (by decide)⟩
    · exact ⟨1, 3, kth_of_edges_getElem? (mem_groupIdx.1 (by decide)) (by decide),
        mem_groupIdx.1 (by decide)⟩
  · rintro ⟨k, b, h1, h2⟩
    have h3 := kth_start_eq h1
    have h4 : k ∈ groupIdx [1, 1, -1] := mem_groupIdx.2 h2
    have e1 : groupIdx [1, -1, 1, 1, -1] = [0, 2, 3] := by decide
    have e2 : groupIdx [1, 1, -1] = [0, 1] := by decide
    rw [e1] at h3
    rw [e2] at h4
    simp only [List.mem_cons, List.not_mem_nil, or_false] at h4
    rcases h4 with rfl | rfl
    · simp only [List.getElem?_cons_zero, Option.some.injEq] at h3
      subst h3; exact mem_groupIdx.1 (by decide)
    · simp only [List.getElem?_cons_succ, List.getElem?_cons_zero, Option.some.injEq] at h3
      subst h3; exact mem_groupIdx.1 (by decide)

/-! ## C08 -/

/-- Channel `i` is a good channel of one of the noticed pre-groups number `a, ..., b-1`: the noticed
pre-groups are those marked by `mask`, in increasing order. -/
def InInterval (flags0 : List Int) (quality : Option (List Bool)) (mask : List Bool) (a b i : Nat) :
    Prop :=
  ∃ j p x y, a ≤ j ∧ j < b ∧ (flatnonzero mask)[j]? = some p ∧ IsKthGroup flags0 p x y ∧
    i ∈ goodIn quality x y

theorem applyMask_eq_flatnonzero {α : Type*} (mask : List Bool) (xs : List α)
    (h : mask.length = xs.length) (dflt : α) :
    applyMask mask xs = (flatnonzero mask).map fun p => xs.getD p dflt := by
  unfold flatnonzero
  induction xs generalizing mask with
  | nil =>
    have : mask = [] := by simpa using h
    subst this; simp [applyMask]
  | cons x xs ih =>
    cases mask with
    | nil => simp at h
    | cons m mask =>
      have hm := ih mask (by simpa using h)
      rw [List.length_cons, List.range_succ_eq_map, List.filter_cons]
      have h2 : List.filter (fun k => (m :: mask).getD k false) (List.map Nat.succ (List.range mask.length))
          = (List.filter (fun k => mask.getD k false) (List.range mask.length)).map Nat.succ := by
        rw [List.filter_map]; rfl
      rw [h2]
      cases m
      · simp only [List.getD_cons_zero, Bool.false_eq_true, if_false, List.map_map]
        have : applyMask (false :: mask) (x :: xs) = applyMask mask xs := by simp [applyMask]
        rw [this, hm]; rfl
      · simp only [List.getD_cons_zero, if_true, List.map_cons, List.map_map]
        have : applyMask (true :: mask) (x :: xs) = x :: applyMask mask xs := by simp [applyMask]
        rw [this, hm]; rfl

theorem flatnonzero_lt {mask : List Bool} {p : Nat} (h : p ∈ flatnonzero mask) : p < mask.length := by
  unfold flatnonzero at h
  exact List.mem_range.1 (List.mem_filter.1 h).1

theorem mem_unionOf_masked {flags0 : List Int} (h0 : IsStart flags0 0) (quality : Option (List Bool))
    {mask : List Bool} (hm : mask.length = (groupIdx flags0).length) (a b i : Nat) :
    i ∈ unionOf (applyMask mask (groupSets flags0 quality)) a b ↔
      InInterval flags0 quality mask a b i := by
  have hlen : mask.length = (groupSets flags0 quality).length := by
    rw [hm, groupSets, List.length_map, edges_length]
  rw [applyMask_eq_flatnonzero mask _ hlen ∅]
  unfold unionOf InInterval
  rw [Finset.mem_biUnion]
  constructor
  · rintro ⟨j, hj, hi⟩
    rw [Finset.mem_Ico] at hj
    by_cases hjl : j < (flatnonzero mask).length
    · have hpm : (flatnonzero mask)[j] < mask.length := flatnonzero_lt (List.getElem_mem hjl)
      obtain ⟨x, y, hxy⟩ := exists_kth h0 (k := (flatnonzero mask)[j]) (by omega)
      refine ⟨j, (flatnonzero mask)[j], x, y, hj.1, hj.2, List.getElem?_eq_getElem hjl, hxy, ?_⟩
      have h2 := groupSets_getElem? (quality := quality) hxy
      simp only [List.getD, List.getElem?_map, List.getElem?_eq_getElem hjl, Option.map_some,
        Option.getD_some, h2] at hi
      exact hi
    · simp [List.getD, List.getElem?_eq_none (not_lt.1 hjl)] at hi
  · rintro ⟨j, p, x, y, h1, h2, h3, h4, h5⟩
    refine ⟨j, Finset.mem_Ico.2 ⟨h1, h2⟩, ?_⟩
    have h6 := groupSets_getElem? (quality := quality) h4
    simp only [List.getD, List.getElem?_map, h3, Option.map_some, Option.getD_some, h6]
    exact h5

theorem length_applyMask_groupSets {flags0 : List Int} (quality : Option (List Bool))
    {mask : List Bool} (hm : mask.length = (groupIdx flags0).length) :
    (applyMask mask (groupSets flags0 quality)).length = (flatnonzero mask).length := by
  rw [applyMask_eq_flatnonzero mask _ (by rw [hm, groupSets, List.length_map, edges_length]) ∅,
    List.length_map]

/-- The four scale arrays of an observation (`_group_scale_arrays`, base.py:142-190): source area and
back scale with the source counts, background area and back scale with the background counts. -/
structure ScaleInputs (K : Type*) where
  specCounts : List K
  specArea : List K
  specBack : List K
  backCounts : List K
  backArea : List K
  backBack : List K

/-- All six arrays have `n` entries. -/
structure ScaleInputs.OfLength (v : ScaleInputs K) (n : Nat) : Prop where
  sc : v.specCounts.length = n
  sa : v.specArea.length = n
  sb : v.specBack.length = n
  bc : v.backCounts.length = n
  ba : v.backArea.length = n
  bb : v.backBack.length = n

/-- The four calls of `_group_scale_data` in `_group_scale_arrays` when there is a background
(base.py:155-190; then `source_scale_net` is `False`, base.py:157). -/
def groupScaleArrays (v : ScaleInputs K) (flags : List Int) (quality : Option (List Bool)) :
    Except PyErr (ScaleGroupData K × ScaleGroupData K × ScaleGroupData K × ScaleGroupData K) := do
  let a ← groupScaleData v.specCounts v.specArea flags quality false none none none none
  let b ← groupScaleData v.specCounts v.specBack flags quality false none none none none
  let c ← groupScaleData v.backCounts v.backArea flags quality false none none none none
  let d ← groupScaleData v.backCounts v.backBack flags quality false none none none none
  return (a, b, c, d)

theorem groupScaleArrays_eq [CharZero K] {v : ScaleInputs K} {n : Nat} (hv : v.OfLength n)
    {flags : List Int} (hf : flags.length = n) {quality : Option (List Bool)}
    (hq : ∀ q, quality = some q → q.length = n) :
    groupScaleArrays v flags quality = .ok
      (describe false (at0 v.specCounts) (at0 v.specArea) (groupSets flags quality),
       describe false (at0 v.specCounts) (at0 v.specBack) (groupSets flags quality),
       describe false (at0 v.backCounts) (at0 v.backArea) (groupSets flags quality),
       describe false (at0 v.backCounts) (at0 v.backBack) (groupSets flags quality)) := by
  have hq' : (quality.map List.length).getD n = n := by
    cases quality with
    | none => rfl
    | some q => simpa using hq q rfl
  obtain ⟨h1, h2, h3, h4, h5, h6⟩ := hv
  unfold groupScaleArrays
  rw [groupScaleData_first (quality := quality) (flags := flags) false (by omega) (by omega)
      (by rw [h1]; exact hq'),
    groupScaleData_first (quality := quality) (flags := flags) false (by omega) (by omega)
      (by rw [h1]; exact hq'),
    groupScaleData_first (quality := quality) (flags := flags) false (by omega) (by omega)
      (by rw [h4]; exact hq'),
    groupScaleData_first (quality := quality) (flags := flags) false (by omega) (by omega)
      (by rw [h4]; exact hq')]
  rfl

/-- The scale ratio of a set of channels. -/
def setRatio (v : ScaleInputs K) (specExp backExp : K) (S : Finset Nat) : K :=
  specExp * effScale false S (at0 v.specCounts) (at0 v.specArea)
      * effScale false S (at0 v.specCounts) (at0 v.specBack)
    / (backExp * effScale false S (at0 v.backCounts) (at0 v.backArea)
      * effScale false S (at0 v.backCounts) (at0 v.backBack))

theorem groupBackRatio_describe {v : ScaleInputs K} (specExp backExp : K)
    {flags : List Int} {quality : Option (List Bool)} :
    groupBackRatio specExp backExp
      (describe false (at0 v.specCounts) (at0 v.specArea) (groupSets flags quality))
      (describe false (at0 v.specCounts) (at0 v.specBack) (groupSets flags quality))
      (describe false (at0 v.backCounts) (at0 v.backArea) (groupSets flags quality))
      (describe false (at0 v.backCounts) (at0 v.backBack) (groupSets flags quality))
    = (groupSets flags quality).map (setRatio v specExp backExp) := by
  unfold groupBackRatio
  apply List.ext_getElem
  · simp [describe]
  · intro k h1 h2
    have h2' : k < (groupSets flags quality).length := by simpa using h2
    simp [describe, List.getD, h2', setRatio, backRatio1]

theorem intervalBackRatio_describe [CharZero K] {v : ScaleInputs K} (specExp backExp : K)
    {Ss : List (Finset Nat)} (hd : Ss.Pairwise Disjoint) {a b : Nat} (hab : a ≤ b)
    (hb : b ≤ Ss.length) :
    intervalBackRatio a b specExp backExp
      (buildScalePrefix (describe false (at0 v.specCounts) (at0 v.specArea) Ss) false)
      (buildScalePrefix (describe false (at0 v.specCounts) (at0 v.specBack) Ss) false)
      (buildScalePrefix (describe false (at0 v.backCounts) (at0 v.backArea) Ss) false)
      (buildScalePrefix (describe false (at0 v.backCounts) (at0 v.backBack) Ss) false)
    = setRatio v specExp backExp (unionOf Ss a b) := by
  unfold intervalBackRatio setRatio
  rw [scaleFromInterval_describe hd hab hb, scaleFromInterval_describe hd hab hb,
    scaleFromInterval_describe hd hab hb, scaleFromInterval_describe hd hab hb]
  simp only [div_eq_mul_inv, mul_inv]
  ring

/-- **C08.**  The ratio the significance groupings use for the interval `[a, b)` of the noticed
pre-groups of a segment is the ratio the dataset reports for the final group `k` that ends up with
exactly those good channels. -/
theorem C08_interval_ratio [CharZero K] (v : ScaleInputs K) (n : Nat) (hv : v.OfLength n)
    (specExp backExp : K) (quality : Option (List Bool)) (hq : ∀ q, quality = some q → q.length = n)
    (flags0 flagsF : List Int) (h0 : IsStart flags0 0)
    (hl0 : flags0.length = n) (hlF : flagsF.length = n) (mask : List Bool)
    (hm : mask.length = (flags0.filter (· ≠ -1)).length) (a b : Nat) (hab : a ≤ b)
    (hb : b ≤ (flatnonzero mask).length) (k x y : Nat) (hk : IsKthGroup flagsF k x y)
    (hsame : ∀ i, i ∈ goodIn quality x y ↔ InInterval flags0 quality mask a b i) :
    ∃ d0 dF, groupScaleArrays v flags0 quality = .ok d0 ∧ groupScaleArrays v flagsF quality = .ok dF ∧
      (groupBackRatio specExp backExp dF.1 dF.2.1 dF.2.2.1 dF.2.2.2)[k]? =
        some (intervalBackRatio a b specExp backExp
          (buildScalePrefix (sliceScaleData d0.1 mask) false)
          (buildScalePrefix (sliceScaleData d0.2.1 mask) false)
          (buildScalePrefix (sliceScaleData d0.2.2.1 mask) false)
          (buildScalePrefix (sliceScaleData d0.2.2.2 mask) false)) := by
  rw [← length_groupIdx] at hm
  refine ⟨_, _, groupScaleArrays_eq hv hl0 hq, groupScaleArrays_eq hv hlF hq, ?_⟩
  simp only [sliceScaleData_describe]
  have hdis : (applyMask mask (groupSets flags0 quality)).Pairwise Disjoint :=
    (groupSets_disjoint flags0 quality).sublist (applyMask_sublist _ _)
  rw [groupBackRatio_describe, intervalBackRatio_describe specExp backExp hdis hab
    (by rw [length_applyMask_groupSets quality hm]; exact hb), List.getElem?_map,
    groupSets_getElem? hk, Option.map_some]
  congr 2
  ext i
  rw [hsame i, mem_unionOf_masked h0 quality hm]

/-- Non-vacuity of C08: four channels, channel 2 bad, every channel its own pre-group, the bad
one not noticed; the final flags put channels 0,1 in one group and 2,3 in another. -/
example : ∀ i, i ∈ goodIn (some [true, true, false, true]) 2 4 ↔
    InInterval [1, 1, 1, 1] (some [true, true, false, true]) [true, true, false, true] 2 3 i := by
  have hgood : goodIn (some [true, true, false, true]) 2 4 = {3} := by decide +kernel
  have hfl : flatnonzero [true, true, false, true] = [0, 1, 3] := by decide
  have hk3 : IsKthGroup [1, 1, 1, 1] 3 3 4 :=
    kth_of_edges_getElem? (mem_groupIdx.1 (by decide)) (by decide)
  have hg3 : goodIn (some [true, true, false, true]) 3 4 = {3} := by decide +kernel
  intro i
  rw [hgood]
  constructor
  · intro h
    have : i = 3 := by simpa using h
    subst this
    exact ⟨2, 3, 3, 4, le_refl _, by omega, by rw [hfl]; rfl, hk3, by rw [hg3]; simp⟩
  · rintro ⟨j, p, x, y, h1, h2, h3, h4, h5⟩
    have hj : j = 2 := by omega
    subst hj
    rw [hfl] at h3
    have hp : p = 3 := by simpa using h3.symm
    subst hp
    have e1 := edges_getElem?_of_kth h4
    have e2 := edges_getElem?_of_kth hk3
    rw [e1] at e2
    simp only [Option.some.injEq, Prod.mk.injEq] at e2
    obtain ⟨rfl, rfl⟩ := e2
    rw [hg3] at h5
    exact h5

end Elisa.Grouping
