import Verif.Grouping.Lemmas
import Mathlib.Algebra.Order.BigOperators.Group.Finset
import Mathlib.Data.List.GetD

/-! Helper lemmas for the greedy optimality of minimum-count grouping. -/

namespace Elisa.Grouping

open Elisa

theorem exists_desc_of_valid {flags : List Int} {nd : Nat} (h : ValidFlags flags nd) (hnd : 0 < nd) :
    ∃ r, Desc r nd ∧ flags = setFlags nd r.reverse := by
  refine ⟨((List.range nd).filter (fun k => decide (flags[k]? = some 1))).reverse, ⟨?_, ?_, ?_⟩, ?_⟩
  · rw [List.pairwise_reverse]
    exact (List.pairwise_lt_range).filter _
  · rw [List.getLast?_reverse]
    obtain ⟨m, rfl⟩ : ∃ m, nd = m + 1 := ⟨nd - 1, by omega⟩
    rw [List.range_succ_eq_map]
    simp only [List.filter_cons, h.first, decide_true, if_true, List.head?_cons]
  · intro k hk
    simp only [List.mem_reverse, List.mem_filter, List.mem_range] at hk
    exact hk.1
  · apply List.ext_getElem?
    intro k
    rw [getElem?_setFlags, List.reverse_reverse]
    by_cases hk : k < nd
    · have hk' : k < flags.length := by rw [h.length]; exact hk
      have hv := h.values flags[k] (List.getElem_mem hk')
      simp only [hk, if_true, List.mem_filter, List.mem_range, true_and, decide_eq_true_eq,
        List.getElem?_eq_getElem hk', Option.some.injEq]
      rcases hv with hv | hv <;> simp [hv]
    · have : flags.length ≤ k := by rw [h.length]; omega
      simp [hk, List.getElem?_eq_none this]

variable {K : Type*} [AddCommGroup K] [LinearOrder K] [IsOrderedAddMonoid K]

theorem total_nonneg {data : List K} (hpos : ∀ x ∈ data, 0 ≤ x) (a b : Nat) :
    0 ≤ total data a b := by
  apply Finset.sum_nonneg
  intro k _
  by_cases hk : k < data.length
  · rw [List.getD_eq_getElem _ _ hk]; exact hpos _ (List.getElem_mem hk)
  · rw [List.getD_eq_default _ _ (by omega)]

theorem total_mono {data : List K} (hpos : ∀ x ∈ data, 0 ≤ x) {a b a' b' : Nat}
    (h1 : a ≤ a') (h2 : b' ≤ b) : total data a' b' ≤ total data a b := by
  apply Finset.sum_le_sum_of_subset_of_nonneg
  · exact Finset.Ico_subset_Ico h1 h2
  · intro k _ _
    by_cases hk : k < data.length
    · rw [List.getD_eq_getElem _ _ hk]; exact hpos _ (List.getElem_mem hk)
    · rw [List.getD_eq_default _ _ (by omega)]

theorem head_le_head {data : List K} {n : K} (hpos : ∀ x ∈ data, 0 ≤ x) :
    ∀ (t t' : List Nat) (s s' hi hi' : Nat), Desc (s :: t) hi → Desc (s' :: t') hi' →
      t.length = t'.length →
      (∀ e ∈ revEdges t s, Closed (fun a b => decide (n ≤ total data a b)) e.1 e.2) →
      (∀ e ∈ revEdges t' s', n ≤ total data e.1 e.2) → s ≤ s' := by
  intro t
  induction t with
  | nil =>
    intro t' s s' hi hi' h h' _ _ _
    have : s = 0 := by simpa using h.last
    omega
  | cons u v ih =>
    intro t' s s' hi hi' h h' hl hc hg
    cases t' with
    | nil => simp at hl
    | cons u' v' =>
      have hu : u ≤ u' := ih v' u u' s s' (h.tail (by simp)) (h'.tail (by simp)) (by simpa using hl)
        (fun e he => hc e (by simp [revEdges, he])) (fun e he => hg e (by simp [revEdges, he]))
      have h1 := hc (u, s) (by simp [revEdges])
      have h2 := hg (u', s') (by simp [revEdges])
      have h3 : u' < s' := (List.pairwise_cons.1 h'.pw).1 u' (by simp)
      by_contra hcon
      have h4 := h1.2.2 s' (by simp only; omega) (by simp only; omega)
      simp only [decide_eq_false_iff_not] at h4
      exact h4 (le_trans h2 (total_mono hpos hu (le_refl _)))

theorem revEdges_suffix {l r : List Nat} {hi : Nat} (x : Nat) :
    ∀ e ∈ revEdges r x, e ∈ revEdges (l ++ x :: r) hi := by
  induction l generalizing hi with
  | nil => intro e he; simp [revEdges, he]
  | cons a l ih => intro e he; simp only [List.cons_append, revEdges, List.mem_cons]; right; exact ih e he

theorem desc_suffix {l r : List Nat} {hi : Nat} (h : Desc (l ++ r) hi) (hr : r ≠ []) : Desc r hi := by
  induction l generalizing hi with
  | nil => simpa using h
  | cons a l ih =>
    have := h.tail (by simp [hr])
    exact (ih this).mono (le_of_lt (h.lt a (by simp)))

theorem greedy_length_max {data : List K} {n : K} (hpos : ∀ x ∈ data, 0 ≤ x)
    {r r' : List Nat} (hr : GreedyOut (fun a b => decide (n ≤ total data a b)) data.length r)
    (hr' : Desc r' data.length) (hg : ∀ e ∈ revEdges r' data.length, n ≤ total data e.1 e.2) :
    r'.length ≤ r.length := by
  by_contra hcon
  push Not at hcon
  obtain ⟨s, t, rfl⟩ : ∃ s t, r = s :: t := by
    cases r with
    | nil => exact absurd hr.desc.last (by simp)
    | cons s t => exact ⟨s, t, rfl⟩
  -- split r' = l ++ x :: s' :: t' with t'.length = t.length
  obtain ⟨l, x, s', t', hsplit, hlen⟩ : ∃ l x s' t', r' = l ++ x :: s' :: t' ∧ t'.length = t.length := by
    have h1 : r'.length = (r'.take (r'.length - (t.length + 2))).length
        + (r'.drop (r'.length - (t.length + 2))).length := by
      rw [← List.length_append, List.take_append_drop]
    have h2 : (r'.drop (r'.length - (t.length + 2))).length = t.length + 2 := by
      rw [List.length_drop]
      simp only [List.length_cons] at hcon
      omega
    match hd : r'.drop (r'.length - (t.length + 2)), h2 with
    | x :: s' :: t', h2 =>
      refine ⟨r'.take (r'.length - (t.length + 2)), x, s', t', ?_, by simpa using h2⟩
      rw [← hd, List.take_append_drop]
  subst hsplit
  have hd1 : Desc (x :: s' :: t') data.length := desc_suffix hr' (by simp)
  have hd2 : Desc (s' :: t') x := hd1.tail (by simp)
  have hss : s ≤ s' := head_le_head hpos t t' s s' _ _ hr.desc hd2 hlen.symm
    (hr.closed s t rfl) (fun e he => by
      apply hg e
      apply revEdges_suffix x
      simp [revEdges, he])
  have hsx : s' < x := hd2.lt s' (by simp)
  have hx : x < data.length := hd1.lt x (by simp)
  have hgx : n ≤ total data s' x := hg (s', x) (revEdges_suffix x _ (by simp [revEdges]))
  have hgs : n ≤ total data s x := le_trans hgx (total_mono hpos hss (le_refl _))
  -- total from x to the end is at least n
  have hlast : n ≤ total data x data.length := by
    cases l with
    | nil => exact hg (x, data.length) (by simp [revEdges])
    | cons a l =>
      have hxa : x ≤ a := le_of_lt ((List.pairwise_cons.1 hr'.pw).1 x (by simp))
      exact le_trans (hg (a, data.length) (by simp [revEdges])) (total_mono hpos hxa (le_refl _))
  rcases hr.tail s t rfl with ⟨h1, _⟩ | ⟨b, h1, h2, h3, h4⟩
  · have := h1 x (by omega) hx
    simp only [decide_eq_false_iff_not] at this
    exact this hgs
  · have hbx : b ≤ x := by
      by_contra hc
      have := h3.2.2 x (by omega) (by omega)
      simp only [decide_eq_false_iff_not] at this
      exact this hgs
    have := h4 data.length h2 (le_refl _)
    simp only [decide_eq_false_iff_not] at this
    exact this (le_trans hlast (total_mono hpos hbx (le_refl _)))

end Elisa.Grouping
