import Verif.Grouping.Model
import Verif.Grouping.Spec
import Mathlib.Data.List.Basic
import Mathlib.Data.List.Nodup
import Mathlib.Order.Interval.Finset.Nat
import Mathlib.Tactic.Linarith

/-! Helper lemmas for the grouping theorems (no property is stated here). -/

namespace Elisa.Grouping

open Elisa

/-- Consecutive pairs of a list of starts held in reverse. -/
def revEdges : List Nat → Nat → List (Nat × Nat)
  | [], _ => []
  | s :: t, hi => (s, hi) :: revEdges t s

theorem edges_append_singleton (l : List Nat) (s hi : Nat) :
    edges (l ++ [s]) hi = edges l s ++ [(s, hi)] := by
  induction l with
  | nil => simp [edges]
  | cons a t ih =>
    cases t with
    | nil => simp [edges]
    | cons b r => simpa [edges] using ih

theorem edges_reverse (r : List Nat) (hi : Nat) :
    edges r.reverse hi = (revEdges r hi).reverse := by
  induction r generalizing hi with
  | nil => simp [edges, revEdges]
  | cons s t ih => simp [revEdges, edges_append_singleton, ih]

/-- The list (held in reverse) is strictly decreasing, ends with `0` and is below `nd`. -/
structure Desc (r : List Nat) (nd : Nat) : Prop where
  pw : r.Pairwise (· > ·)
  last : r.getLast? = some 0
  lt : ∀ k ∈ r, k < nd

theorem Desc.mono {r nd nd'} (h : Desc r nd) (hn : nd ≤ nd') : Desc r nd' :=
  ⟨h.pw, h.last, fun k hk => lt_of_lt_of_le (h.lt k hk) hn⟩

theorem Desc.cons {r i nd} (h : Desc r i) (hi : i < nd) : Desc (i :: r) nd := by
  refine ⟨List.pairwise_cons.2 ⟨fun a ha => h.lt a ha, h.pw⟩, ?_, ?_⟩
  · have := h.last
    cases r with
    | nil => simp at this
    | cons a t => simpa [List.getLast?_cons_cons] using this
  · intro k hk
    rcases List.mem_cons.1 hk with rfl | hk
    · exact hi
    · exact lt_trans (h.lt k hk) hi

theorem Desc.tail {s t nd} (h : Desc (s :: t) nd) (ht : t ≠ []) : Desc t s := by
  refine ⟨(List.pairwise_cons.1 h.pw).2, ?_, ?_⟩
  · have := h.last
    cases t with
    | nil => exact absurd rfl ht
    | cons a t => simpa [List.getLast?_cons_cons] using this
  · intro k hk
    exact (List.pairwise_cons.1 h.pw).1 k hk

theorem Desc.zero_mem {r nd} (h : Desc r nd) : 0 ∈ r := List.mem_of_getLast? h.last

theorem Desc.pos {r nd} (h : Desc r nd) : 0 < nd := h.lt 0 h.zero_mem

theorem desc_singleton {nd : Nat} (h : 0 < nd) : Desc [0] nd :=
  ⟨by simp, by simp, by simpa using h⟩

theorem Desc.nodup {r nd} (h : Desc r nd) : r.Nodup := h.pw.imp (fun h => Nat.ne_of_gt h)

theorem mem_revEdges {r : List Nat} {hi a b : Nat} (hp : r.Pairwise (· > ·)) (hl : ∀ k ∈ r, k < hi) :
    (a, b) ∈ revEdges r hi ↔
      a ∈ r ∧ a < b ∧ (b ∈ r ∨ b = hi) ∧ ∀ c ∈ r, c ≤ a ∨ b ≤ c := by
  induction r generalizing hi with
  | nil => simp [revEdges]
  | cons s t ih =>
    have hs := (List.pairwise_cons.1 hp).1
    have hp' := (List.pairwise_cons.1 hp).2
    have hsl : s < hi := hl s (by simp)
    simp only [revEdges, List.mem_cons, Prod.mk.injEq]
    rw [ih hp' hs]
    constructor
    · rintro (⟨rfl, rfl⟩ | ⟨h1, h2, h3, h4⟩)
      · refine ⟨Or.inl rfl, hsl, Or.inr rfl, ?_⟩
        rintro c (rfl | hc)
        · left; omega
        · left; have := hs c hc; omega
      · refine ⟨Or.inr h1, h2, ?_, ?_⟩
        · rcases h3 with h3 | h3
          · left; right; exact h3
          · left; left; exact h3
        · rintro c (rfl | hc)
          · right
            rcases h3 with h3 | h3
            · have := hs b h3; omega
            · omega
          · exact h4 c hc
    · rintro ⟨h1, h2, h3, h4⟩
      rcases h1 with rfl | h1
      · left
        refine ⟨rfl, ?_⟩
        rcases h3 with (h3 | h3) | h3
        · omega
        · have := hs b h3; omega
        · exact h3
      · right
        refine ⟨h1, h2, ?_, fun c hc => h4 c (Or.inr hc)⟩
        have h5 := h4 s (Or.inl rfl)
        have h6 := hs a h1
        rcases h3 with (h3 | h3) | h3
        · right; exact h3
        · left; exact h3
        · omega

theorem mem_revEdges_lt {r : List Nat} {hi a b : Nat} (hp : r.Pairwise (· > ·))
    (hl : ∀ k ∈ r, k < hi) (h : (a, b) ∈ revEdges r hi) : a < b ∧ b ≤ hi := by
  have := (mem_revEdges hp hl).1 h
  refine ⟨this.2.1, ?_⟩
  rcases this.2.2.1 with h | h
  · exact le_of_lt (hl b h)
  · omega

theorem getElem?_setFlags {nd : Nat} {idx : List Nat} {k : Nat} :
    (setFlags nd idx)[k]? = if k < nd then some (if k ∈ idx then 1 else -1) else none := by
  unfold setFlags
  by_cases h : k < nd <;> simp [h]

theorem length_setFlags {nd : Nat} {idx : List Nat} : (setFlags nd idx).length = nd := by
  simp [setFlags]

theorem isStart_setFlags {nd : Nat} {idx : List Nat} {k : Nat} :
    IsStart (setFlags nd idx) k ↔ k < nd ∧ k ∈ idx := by
  unfold IsStart
  rw [getElem?_setFlags]
  by_cases h : k < nd
  · by_cases hk : k ∈ idx <;> simp [h, hk]
  · simp [h]

theorem isGroup_setFlags {r : List Nat} {nd a b : Nat} (h : Desc r nd) :
    IsGroup (setFlags nd r.reverse) a b ↔ (a, b) ∈ revEdges r nd := by
  rw [mem_revEdges h.pw h.lt]
  unfold IsGroup
  simp only [isStart_setFlags, getElem?_setFlags, length_setFlags, List.mem_reverse]
  constructor
  · rintro ⟨h1, h2, h3, h4, h5⟩
    refine ⟨h3.2, h1, ?_, ?_⟩
    · by_cases hb : b < nd
      · left; exact (h5 hb).2
      · right; omega
    · intro c hc
      by_contra hcon
      push Not at hcon
      have := h4 c hcon.1 hcon.2
      have hcn := h.lt c hc
      simp [hcn, hc] at this
  · rintro ⟨h1, h2, h3, h4⟩
    have hb : b ≤ nd := by
      rcases h3 with h3 | h3
      · exact le_of_lt (h.lt b h3)
      · omega
    have ha : a < nd := h.lt a h1
    refine ⟨h2, hb, ⟨ha, h1⟩, ?_, ?_⟩
    · intro k hk1 hk2
      have hk : k ∉ r := fun hk => by
        rcases h4 k hk with h | h <;> omega
      have : k < nd := by omega
      simp [this, hk]
    · intro hbn
      rcases h3 with h3 | h3
      · exact ⟨hbn, h3⟩
      · omega

theorem validFlags_setFlags {r : List Nat} {nd : Nat} (h : Desc r nd) :
    ValidFlags (setFlags nd r.reverse) nd := by
  refine ⟨length_setFlags, ?_, ?_⟩
  · intro f hf
    unfold setFlags at hf
    obtain ⟨k, _, rfl⟩ := List.mem_map.1 hf
    split <;> simp
  · rw [getElem?_setFlags]
    simp [h.pos, h.zero_mem]

theorem numGroups_setFlags {r : List Nat} {nd : Nat} (h : Desc r nd) :
    numGroups (setFlags nd r.reverse) = r.length := by
  unfold numGroups setFlags
  rw [List.count_eq_length_filter, List.filter_map, List.length_map]
  have : ((List.range nd).filter ((fun x => x == 1) ∘ fun k => if k ∈ r.reverse then (1 : Int) else -1))
      = (List.range nd).filter (fun k => decide (k ∈ r)) := by
    apply List.filter_congr
    intro k _
    by_cases hk : k ∈ r <;> simp [hk]
  rw [this]
  have hperm : ((List.range nd).filter (fun k => decide (k ∈ r))).Perm r := by
    rw [List.perm_ext_iff_of_nodup (List.nodup_range.filter _) h.nodup]
    intro a
    simp only [List.mem_filter, List.mem_range, decide_eq_true_eq]
    exact ⟨fun h => h.2, fun ha => ⟨h.lt a ha, ha⟩⟩
  exact hperm.length_eq

section sums
variable {K : Type*} [AddCommMonoid K]

theorem total_eq_sliceSum (xs : List K) (a b : Nat) : total xs a b = sliceSum xs a b := by
  unfold total sliceSum
  induction xs generalizing a b with
  | nil => simp
  | cons x xs ih =>
    cases b with
    | zero => simp
    | succ b =>
      cases a with
      | zero =>
        simp only [List.take_succ_cons, List.drop_zero, List.sum_cons]
        rw [Finset.sum_Ico_eq_sum_range]
        simp only [Nat.sub_zero, Nat.zero_add]
        rw [Finset.sum_range_succ']
        have := ih 0 b
        rw [Finset.sum_Ico_eq_sum_range] at this
        simp only [Nat.sub_zero, Nat.zero_add, List.drop_zero] at this
        simp only [List.getD_cons_succ, List.getD_cons_zero, this, add_comm]
      | succ a =>
        simp only [List.take_succ_cons, List.drop_succ_cons]
        rw [← ih a b, Finset.sum_Ico_eq_sum_range, Finset.sum_Ico_eq_sum_range]
        have : b + 1 - (a + 1) = b - a := by omega
        rw [this]
        apply Finset.sum_congr rfl
        intro k _
        have : a + 1 + k = (a + k) + 1 := by omega
        rw [this, List.getD_cons_succ]

theorem total_eq_drop_sum (xs : List K) (a : Nat) : total xs a xs.length = (xs.drop a).sum := by
  rw [total_eq_sliceSum]; simp [sliceSum]

theorem reduceat_eq (xs : List K) (idx : List Nat) (hp : idx.Pairwise (· < ·)) :
    reduceat xs idx = (edges idx xs.length).map (fun e => total xs e.1 e.2) := by
  induction idx with
  | nil => simp [reduceat, edges]
  | cons a t ih =>
    cases t with
    | nil => simp [reduceat, edges, total_eq_drop_sum]
    | cons b r =>
      have hab : a < b := (List.pairwise_cons.1 hp).1 b (by simp)
      have := ih (List.pairwise_cons.1 hp).2
      simp [reduceat, edges, hab, total_eq_sliceSum] at this ⊢
      exact this

theorem reduceat_reverse (xs : List K) (r : List Nat) (h : r.Pairwise (· > ·)) :
    reduceat xs r.reverse = ((revEdges r xs.length).map (fun e => total xs e.1 e.2)).reverse := by
  rw [reduceat_eq _ _ (by rw [List.pairwise_reverse]; exact h), edges_reverse, List.map_reverse]

theorem total_append (xs : List K) {a b c : Nat} (h1 : a ≤ b) (h2 : b ≤ c) :
    total xs a b + total xs b c = total xs a c := by
  unfold total; exact Finset.sum_Ico_consecutive _ h1 h2

theorem total_succ (xs : List K) {a b : Nat} (h : a ≤ b) :
    total xs a (b + 1) = total xs a b + xs.getD b 0 := by
  unfold total; exact Finset.sum_Ico_succ_top h _

@[simp] theorem total_self (xs : List K) (a : Nat) : total xs a a = 0 := by simp [total]

theorem sum_revEdges_total (xs : List K) {r : List Nat} {hi : Nat} (h : Desc r hi) :
    ((revEdges r hi).map (fun e => total xs e.1 e.2)).sum = total xs 0 hi := by
  induction r generalizing hi with
  | nil => exact absurd h.last (by simp)
  | cons s t ih =>
    by_cases ht : t = []
    · subst ht
      have : s = 0 := by have := h.last; simpa using this
      subst this
      simp [revEdges]
    · have h' := h.tail ht
      simp only [revEdges, List.map_cons, List.sum_cons]
      rw [ih h', add_comm]
      exact total_append xs (Nat.zero_le _) (le_of_lt (h.lt s (by simp)))

end sums

/-! ### The greedy loop -/

/-- `[a, b)` was closed by the greedy rule: it satisfies `ok` and no shorter prefix does. -/
def Closed (ok : Nat → Nat → Bool) (a b : Nat) : Prop :=
  a < b ∧ ok a b = true ∧ ∀ c, a < c → c < b → ok a c = false

/-- What the greedy loop returns (list of starts in reverse, most recent first). -/
structure GreedyOut (ok : Nat → Nat → Bool) (nd : Nat) (r : List Nat) : Prop where
  desc : Desc r nd
  closed : ∀ s t, r = s :: t → ∀ e ∈ revEdges t s, Closed ok e.1 e.2
  tail : ∀ s t, r = s :: t →
    ((∀ c, s < c → c < nd → ok s c = false) ∧ (ok s nd = true ∨ t = [])) ∨
    (∃ b, s < b ∧ b < nd ∧ Closed ok s b ∧ ∀ c, b < c → c ≤ nd → ok b c = false)

theorem greedyLoop_out (ok : Nat → Nat → Bool) (nd : Nat) :
    ∀ (left i start : Nat) (t : List Nat), 0 < left → i + left = nd → start ≤ i →
      Desc (start :: t) (i + 1) →
      (∀ e ∈ revEdges t start, Closed ok e.1 e.2) →
      (∀ c, start < c → c ≤ i → ok start c = false) →
      GreedyOut ok nd (greedyLoop ok left i start (start :: t)) := by
  intro left
  induction left with
  | zero => intro i start t h; omega
  | succ left ih =>
    intro i start t _ hnd hsi hd hcl hno
    cases left with
    | zero =>
      have hn : i + 1 = nd := by omega
      subst hn
      unfold greedyLoop
      by_cases hc : (!(ok start (i + 1))) = true ∧ 1 < (start :: t).length
      · rw [if_pos hc]
        have ht : t ≠ [] := by rintro rfl; simp at hc
        obtain ⟨s', t', rfl⟩ := List.exists_cons_of_ne_nil ht
        simp only [List.tail_cons]
        refine ⟨(hd.tail ht).mono (by omega), ?_, ?_⟩
        · rintro s t rfl' e he
          cases rfl'
          exact hcl e (by simp [revEdges, he])
        · rintro s t rfl'
          cases rfl'
          right
          refine ⟨start, ?_, by omega, hcl (s', start) (by simp [revEdges]), ?_⟩
          · exact (List.pairwise_cons.1 hd.pw).1 s' (by simp)
          · intro c h1 h2
            by_cases h3 : c = i + 1
            · subst h3; simpa using hc.1
            · exact hno c h1 (by omega)
      · rw [if_neg hc]
        refine ⟨hd, ?_, ?_⟩
        · rintro s t rfl' e he
          cases rfl'
          exact hcl e he
        · rintro s t rfl'
          cases rfl'
          left
          refine ⟨fun c h1 h2 => hno c h1 (by omega), ?_⟩
          by_cases hk : ok start (i + 1) = true
          · left; exact hk
          · right
            simp only [Bool.not_eq_true] at hk
            simp only [hk, Bool.not_false, List.length_cons, true_and] at hc
            cases t with
            | nil => rfl
            | cons a b => simp at hc
    | succ left =>
      unfold greedyLoop
      by_cases hk : ok start (i + 1) = true
      · rw [if_pos hk]
        apply ih (i + 1) (i + 1) (start :: t) (by omega) (by omega) (le_refl _)
        · exact hd.cons (by omega)
        · intro e he
          simp only [revEdges, List.mem_cons] at he
          rcases he with rfl | he
          · exact ⟨by simp only; omega, hk, fun c h1 h2 => hno c h1 (by simp only at h2; omega)⟩
          · exact hcl e he
        · intro c h1 h2; omega
      · rw [if_neg hk]
        simp only [Bool.not_eq_true] at hk
        apply ih (i + 1) start t (by omega) (by omega) (by omega) (hd.mono (by omega)) hcl
        intro c h1 h2
        by_cases h3 : c = i + 1
        · subst h3; exact hk
        · exact hno c h1 (by omega)

theorem greedy_out (ok : Nat → Nat → Bool) {nd : Nat} (h : 0 < nd) :
    GreedyOut ok nd (greedyLoop ok nd 0 0 [0]) := by
  apply greedyLoop_out ok nd nd 0 0 [] h (by omega) (le_refl _) (desc_singleton (by omega))
  · simp [revEdges]
  · intro c h1 h2; omega

/-- `minLoop` is the greedy loop with "the total reaches `n`". -/
theorem minLoop_eq {K : Type*} [AddCommGroup K] [LinearOrder K] (n : K) (data : List K) :
    ∀ (rest : List K) (i start : Nat) (gc : K) (idx : List Nat), start ≤ i → i ≤ data.length →
      rest = data.drop i → gc = total data start i →
      minLoop n rest i gc idx
        = greedyLoop (fun a b => decide (n ≤ total data a b)) rest.length i start idx := by
  intro rest
  induction rest with
  | nil => intros; simp [minLoop, greedyLoop]
  | cons d r ih =>
    intro i start gc idx h1 h2 h3 h4
    have hd : data.getD i 0 = d := by
      have : (data.drop i)[0]? = some d := by rw [← h3]; rfl
      rw [List.getElem?_drop] at this
      simp only [Nat.add_zero] at this
      simp [List.getD, this]
    have hlt : i < data.length := by
      by_contra hc
      rw [List.drop_eq_nil_of_le (by omega)] at h3
      simp at h3
    have hr : r = data.drop (i + 1) := by
      have := congrArg List.tail h3
      simpa [List.tail_drop] using this
    have hsum : gc + d = total data start (i + 1) := by
      rw [total_succ data h1, ← h4, hd]
    cases r with
    | nil =>
      simp only [minLoop, List.length_cons, List.length_nil, Nat.zero_add, greedyLoop, hsum]
      congr 1
      simp [not_le]
    | cons d' r =>
      simp only [minLoop, List.length_cons, greedyLoop, hsum, decide_eq_true_eq]
      split
      · exact ih (i + 1) (i + 1) 0 _ (le_refl _) (by omega) hr (by simp)
      · exact ih (i + 1) start _ _ (by omega) (by omega) hr rfl

end Elisa.Grouping
