import Verif.Grouping.Optimal
import Verif.Grouping.Scale
import Mathlib.Data.List.Sort

/-! Helper lemmas: arbitrary flags, the index array `groupIdx`, and `reduceat` over it. -/

namespace Elisa.Grouping

open Elisa

theorem mem_groupIdx {flags : List Int} {k : Nat} : k ∈ groupIdx flags ↔ IsStart flags k := by
  unfold groupIdx flatnonzero IsStart
  simp only [List.mem_filter, List.mem_range, List.length_map]
  constructor
  · rintro ⟨h1, h2⟩
    refine ⟨flags[k], List.getElem?_eq_getElem h1, ?_⟩
    simpa [List.getD, h1] using h2
  · rintro ⟨f, h1, h2⟩
    obtain ⟨hk, rfl⟩ := List.getElem?_eq_some_iff.1 h1
    exact ⟨hk, by simpa [List.getD, hk] using h2⟩

theorem pairwise_groupIdx (flags : List Int) : (groupIdx flags).Pairwise (· < ·) := by
  unfold groupIdx flatnonzero
  exact List.pairwise_lt_range.filter _

theorem lt_of_isStart {flags : List Int} {k : Nat} (h : IsStart flags k) : k < flags.length := by
  obtain ⟨f, h1, _⟩ := h
  exact (List.getElem?_eq_some_iff.1 h1).1

theorem lt_of_mem_groupIdx {flags : List Int} {k : Nat} (h : k ∈ groupIdx flags) :
    k < flags.length := lt_of_isStart (mem_groupIdx.1 h)

/-- The start test used by `groupIdx` as a Boolean function of the position. -/
def startB (flags : List Int) (k : Nat) : Bool := (flags.map (· != -1)).getD k false

theorem startB_iff {flags : List Int} {k : Nat} : startB flags k = true ↔ IsStart flags k := by
  rw [← mem_groupIdx]
  unfold groupIdx flatnonzero
  rw [List.mem_filter]
  constructor
  · intro h
    refine ⟨?_, h⟩
    by_contra hc
    have : (flags.map (· != -1)).length ≤ k := by simpa using hc
    unfold startB at h
    rw [List.getD_eq_default _ _ this] at h
    exact absurd h (by simp)
  · exact fun h => h.2

theorem groupIdx_eq (flags : List Int) :
    groupIdx flags = (List.range flags.length).filter (startB flags) := by
  unfold groupIdx flatnonzero startB; simp

theorem filter_take_length (flags : List Int) (a : Nat) (ha : a ≤ flags.length) :
    ((flags.take a).filter (· ≠ -1)).length = ((List.range a).filter (startB flags)).length := by
  induction a with
  | zero => simp
  | succ a ih =>
    have ha' : a < flags.length := by omega
    rw [List.take_succ_eq_append_getElem ha', List.range_succ, List.filter_append, List.filter_append,
      List.length_append, List.length_append, ih (by omega)]
    congr 1
    have hs : startB flags a = (flags[a] != -1) := by simp [startB, List.getD, ha']
    by_cases h : flags[a] = -1
    · simp [hs, h]
    · simp [hs, h]

theorem range_split {n a : Nat} (h : a < n) :
    List.range n = List.range a ++ a :: List.range' (a + 1) (n - (a + 1)) := by
  rw [List.range_eq_range', List.range_eq_range']
  have : n = a + ((n - (a + 1)) + 1) := by omega
  conv_lhs => rw [this, ← List.range'_append_1]
  simp only [Nat.zero_add]
  rw [List.range'_succ]

theorem groupIdx_split {flags : List Int} {a b : Nat} (h : IsGroup flags a b) :
    ∃ B, groupIdx flags = (List.range a).filter (startB flags) ++ a :: B ∧
      ((b = flags.length ∧ B = []) ∨ ∃ B', B = b :: B') := by
  obtain ⟨h1, h2, h3, h4, h5⟩ := h
  have ha : a < flags.length := by omega
  refine ⟨(List.range' (a + 1) (flags.length - (a + 1))).filter (startB flags), ?_, ?_⟩
  · rw [groupIdx_eq, range_split ha, List.filter_append]
    simp [List.filter_cons, startB_iff.2 h3]
  · have hsplit : flags.length - (a + 1) = (b - (a + 1)) + (flags.length - b) := by omega
    rw [hsplit, ← List.range'_append_1, List.filter_append]
    have hmid : (List.range' (a + 1) (b - (a + 1))).filter (startB flags) = [] := by
      rw [List.filter_eq_nil_iff]
      intro k hk hs
      rw [List.mem_range'_1] at hk
      obtain ⟨f, hf1, hf2⟩ := startB_iff.1 hs
      have := h4 k (by omega) (by omega)
      rw [this] at hf1
      simp only [Option.some.injEq] at hf1
      exact hf2 hf1.symm
    rw [hmid, List.nil_append]
    have hb : a + 1 + (b - (a + 1)) = b := by omega
    rw [hb]
    by_cases hbn : b < flags.length
    · right
      obtain ⟨m, hm⟩ : ∃ m, flags.length - b = m + 1 := ⟨flags.length - b - 1, by omega⟩
      rw [hm, List.range'_succ, List.filter_cons, startB_iff.2 (h5 hbn)]
      exact ⟨_, rfl⟩
    · left
      have : flags.length - b = 0 := by omega
      rw [this]
      exact ⟨by omega, rfl⟩

theorem edges_length (l : List Nat) (n : Nat) : (edges l n).length = l.length := by
  induction l with
  | nil => rfl
  | cons a t ih =>
    cases t with
    | nil => rfl
    | cons b r => simpa [edges] using ih

theorem edges_append_cons (A : List Nat) (a : Nat) (B : List Nat) (n : Nat) :
    edges (A ++ a :: B) n = edges A a ++ edges (a :: B) n := by
  induction A with
  | nil => simp [edges]
  | cons x A ih =>
    cases A with
    | nil => simp [edges]
    | cons y A => simpa [edges] using ih

theorem edges_getElem?_of_kth {flags : List Int} {k a b : Nat} (h : IsKthGroup flags k a b) :
    (edges (groupIdx flags) flags.length)[k]? = some (a, b) := by
  obtain ⟨B, hB, hB'⟩ := groupIdx_split h.1
  have hk := h.2
  rw [filter_take_length _ _ (by have := h.1.1; have := h.1.2.1; omega)] at hk
  rw [hB, edges_append_cons, List.getElem?_append_right (by rw [edges_length]; omega),
    edges_length, hk, Nat.sub_self]
  rcases hB' with ⟨rfl, rfl⟩ | ⟨B', rfl⟩
  · simp [edges]
  · simp [edges]

theorem desc_groupIdx {flags : List Int} (h : IsStart flags 0) :
    Desc (groupIdx flags).reverse flags.length := by
  refine ⟨?_, ?_, ?_⟩
  · rw [List.pairwise_reverse]; exact pairwise_groupIdx flags
  · rw [List.getLast?_reverse]
    have hn := lt_of_isStart h
    rw [groupIdx_eq, range_split hn]
    simp [List.filter_cons, startB_iff.2 h]
  · intro k hk
    exact lt_of_mem_groupIdx (List.mem_reverse.1 hk)

theorem mem_edges_groupIdx {flags : List Int} (h : IsStart flags 0) {a b : Nat} :
    (a, b) ∈ edges (groupIdx flags) flags.length ↔ IsGroup flags a b := by
  have hd := desc_groupIdx h
  have he := edges_reverse (groupIdx flags).reverse flags.length
  rw [List.reverse_reverse] at he
  rw [he, List.mem_reverse, mem_revEdges hd.pw hd.lt]
  unfold IsGroup
  simp only [List.mem_reverse, mem_groupIdx]
  constructor
  · rintro ⟨h1, h2, h3, h4⟩
    have hbl : b ≤ flags.length := by
      rcases h3 with h3 | h3
      · exact le_of_lt (lt_of_isStart h3)
      · omega
    refine ⟨h2, hbl, h1, ?_, ?_⟩
    · intro k hk1 hk2
      have hk : k < flags.length := by omega
      by_contra hc
      have hs : IsStart flags k := ⟨flags[k], List.getElem?_eq_getElem hk, fun h => by
        rw [List.getElem?_eq_getElem hk, h] at hc; exact hc rfl⟩
      rcases h4 k hs with h | h <;> omega
    · intro hb
      rcases h3 with h3 | h3
      · exact h3
      · omega
  · rintro ⟨h1, h2, h3, h4, h5⟩
    refine ⟨h3, h1, ?_, ?_⟩
    · by_cases hb : b < flags.length
      · left; exact h5 hb
      · right; omega
    · rintro c ⟨f, hc1, hc2⟩
      by_contra hcon
      push Not at hcon
      rw [h4 c hcon.1 hcon.2] at hc1
      simp only [Option.some.injEq] at hc1
      exact hc2 hc1.symm

theorem kth_of_edges_getElem? {flags : List Int} (h0 : IsStart flags 0) {k a b : Nat}
    (h : (edges (groupIdx flags) flags.length)[k]? = some (a, b)) : IsKthGroup flags k a b := by
  have hg := (mem_edges_groupIdx h0).1 (List.mem_of_getElem? h)
  refine ⟨hg, ?_⟩
  have h2 := edges_getElem?_of_kth (flags := flags) (k := _) ⟨hg, rfl⟩
  -- uniqueness of the index: `edges` has distinct first components
  have hnd : (edges (groupIdx flags) flags.length).Nodup := by
    have hd := desc_groupIdx h0
    have he := edges_reverse (groupIdx flags).reverse flags.length
    rw [List.reverse_reverse] at he
    rw [he, List.nodup_reverse]
    have : ∀ (r : List Nat) (hi : Nat), r.Pairwise (· > ·) → (∀ k ∈ r, k < hi) →
        (revEdges r hi).Nodup := by
      intro r
      induction r with
      | nil => intros; simp [revEdges]
      | cons s t ih =>
        intro hi hp hl
        have hp1 := List.pairwise_cons.1 hp
        simp only [revEdges, List.nodup_cons]
        refine ⟨?_, ih s hp1.2 hp1.1⟩
        intro hmem
        have := (mem_revEdges hp1.2 hp1.1).1 hmem
        have := hp1.1 s this.1
        omega
    exact this _ _ hd.pw hd.lt
  obtain ⟨hk1, hk2⟩ := List.getElem?_eq_some_iff.1 h
  obtain ⟨hk3, hk4⟩ := List.getElem?_eq_some_iff.1 h2
  exact (List.Nodup.getElem_inj_iff hnd).1 (by rw [hk2, hk4])

section
variable {K : Type*} [AddCommMonoid K]

theorem reduceat_kth {xs : List K} {flags : List Int} (hl : xs.length = flags.length) {k a b : Nat}
    (h : IsKthGroup flags k a b) : (reduceat xs (groupIdx flags))[k]? = some (total xs a b) := by
  rw [reduceat_eq xs _ (pairwise_groupIdx flags), hl, List.getElem?_map, edges_getElem?_of_kth h]
  rfl

theorem reduceat_length (xs : List K) (idx : List Nat) : (reduceat xs idx).length = idx.length := by
  induction idx with
  | nil => rfl
  | cons a t ih =>
    cases t with
    | nil => rfl
    | cons b r => simpa [reduceat] using ih

theorem length_groupIdx (flags : List Int) :
    (groupIdx flags).length = (flags.filter (· ≠ -1)).length := by
  rw [groupIdx_eq, ← filter_take_length flags flags.length (le_refl _), List.take_length]

theorem exists_kth {flags : List Int} (h0 : IsStart flags 0) {k : Nat}
    (hk : k < (groupIdx flags).length) : ∃ a b, IsKthGroup flags k a b := by
  have : k < (edges (groupIdx flags) flags.length).length := by rw [edges_length]; exact hk
  refine ⟨_, _, kth_of_edges_getElem? h0 (List.getElem?_eq_getElem this)⟩

theorem kth_lt {flags : List Int} {k a b : Nat} (h : IsKthGroup flags k a b) :
    k < (groupIdx flags).length := by
  have := (List.getElem?_eq_some_iff.1 (edges_getElem?_of_kth h)).1
  rwa [edges_length] at this

/-- Regrouping: totals over groups of groups are totals over the underlying channels. -/
theorem sum_reduceat {xs : List K} {flags : List Int} (h0 : IsStart flags 0)
    (hl : xs.length = flags.length) :
    (reduceat xs (groupIdx flags)).sum = total xs 0 flags.length := by
  have hd := desc_groupIdx h0
  have h := reduceat_reverse xs (groupIdx flags).reverse hd.pw
  rw [List.reverse_reverse] at h
  rw [h, List.sum_reverse, hl]
  exact sum_revEdges_total xs hd

end

end Elisa.Grouping
