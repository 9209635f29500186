import Verif.Grouping.Optimal

/-! Helper lemmas for the `opt*` loops. -/

namespace Elisa.Grouping

open Elisa

theorem foldl_min_le_iff (f : Nat → Nat) (l : List Nat) (m x : Nat) :
    x ≤ l.foldl (fun m k => min m (f k)) m ↔ x ≤ m ∧ ∀ k ∈ l, x ≤ f k := by
  induction l generalizing m with
  | nil => simp
  | cons a l ih => simp [ih, and_assoc]

/-- Characterisation of `optWidth`: bounds for it. -/
theorem le_optWidth_iff (bint : List Nat) (imax i x : Nat) :
    x ≤ optWidth bint imax i ↔
      x ≤ imax ∧ x ≤ i + bint.getD i 0 - 1 ∧
      ∀ k, i < k → k ≤ min imax (i + bint.getD i 0 - 1) → x ≤ k + bint.getD k 0 - 1 := by
  unfold optWidth
  rw [foldl_min_le_iff (fun k => k + bint.getD k 0 - 1)]
  simp only [le_min_iff, and_assoc]
  apply and_congr_right; intro _
  apply and_congr_right; intro _
  simp only [List.mem_range'_1]
  constructor
  · intro h k h1 h2
    exact h k ⟨by omega, by omega⟩
  · rintro h k ⟨h1, h2⟩
    exact h k (by omega) (by omega)

theorem optWidth_le {bint : List Nat} {imax i : Nat} : optWidth bint imax i ≤ imax :=
  ((le_optWidth_iff bint imax i _).1 (le_refl _)).1

theorem le_optWidth {bint : List Nat} {imax i : Nat} (hi : i ≤ imax)
    (hb : ∀ k, k ≤ imax → 1 ≤ bint.getD k 0) : i ≤ optWidth bint imax i := by
  rw [le_optWidth_iff]
  refine ⟨hi, ?_, ?_⟩
  · have := hb i hi; omega
  · intro k h1 h2
    have : k ≤ imax := le_trans h2 (Nat.min_le_left _ _)
    have := hb k this; omega

theorem optWidth_prop {bint : List Nat} {imax i : Nat} {k : Nat} (h1 : i ≤ k)
    (h2 : k ≤ optWidth bint imax i) : optWidth bint imax i ≤ k + bint.getD k 0 - 1 := by
  have h := (le_optWidth_iff bint imax i _).1 (le_refl (optWidth bint imax i))
  by_cases hk : i = k
  · subst hk; exact h.2.1
  · exact h.2.2 k (by omega) (by rw [le_min_iff]; exact ⟨by omega, by omega⟩)

theorem optWidth_greatest {bint : List Nat} {imax i j : Nat} (h1 : i ≤ j) (h2 : j ≤ imax)
    (hb : ∀ k, k ≤ imax → 1 ≤ bint.getD k 0)
    (h3 : ∀ k, i ≤ k → k ≤ j → j ≤ k + bint.getD k 0 - 1) : j ≤ optWidth bint imax i := by
  rw [le_optWidth_iff]
  refine ⟨h2, h3 i (le_refl _) h1, ?_⟩
  intro k hk1 hk2
  by_cases hkj : k ≤ j
  · exact h3 k (by omega) hkj
  · have : k ≤ imax := le_trans hk2 (Nat.min_le_left _ _)
    have := hb k this; omega

/-- What the outer loop of the `opt*` functions returns. -/
structure OptOut (step : Nat → Option Nat) (nd : Nat) (r : List Nat) : Prop where
  desc : Desc r nd
  closed : ∀ s t, r = s :: t → ∀ e ∈ revEdges t s, step e.1 = some (e.2 - 1)
  tail : ∀ s t, r = s :: t →
    step s = some (nd - 1) ∨ (step s = none ∧ t = []) ∨
    (∃ b, s < b ∧ b < nd ∧ step s = some (b - 1) ∧ step b = none)

theorem optLoop_out (ext : Nat → Nat → Option Nat) (bint : List Nat) (nd : Nat)
    (hext : ∀ i j, i < nd → ext i (optWidth bint (nd - 1) i) = some j → i ≤ j ∧ j < nd) :
    ∀ (fuel i : Nat) (t : List Nat), i < nd → nd ≤ fuel + i →
      (t = [] → i = 0) → (t ≠ [] → Desc t i) →
      (∀ e ∈ revEdges t i, ext e.1 (optWidth bint (nd - 1) e.1) = some (e.2 - 1)) →
      OptOut (fun i => ext i (optWidth bint (nd - 1) i)) nd (optLoop ext bint nd fuel i t) := by
  intro fuel
  induction fuel with
  | zero => intro i t h1 h2; omega
  | succ fuel ih =>
    intro i t hi hf ht0 ht hcl
    have hd : Desc (i :: t) nd := by
      by_cases h : t = []
      · have := ht0 h; subst h; subst this; exact desc_singleton hi
      · exact (ht h).cons hi
    unfold optLoop
    rw [if_pos hi]
    cases hstep : ext i (optWidth bint (nd - 1) i) with
    | none =>
      simp only
      by_cases hl : 1 < (i :: t).length
      · rw [if_pos hl]
        have hne : t ≠ [] := by rintro rfl; simp at hl
        obtain ⟨s', t', rfl⟩ := List.exists_cons_of_ne_nil hne
        simp only [List.tail_cons]
        refine ⟨(hd.tail hne).mono (le_of_lt hi), ?_, ?_⟩
        · rintro s t h e he; cases h
          exact hcl e (by simp [revEdges, he])
        · rintro s t h; cases h
          right; right
          refine ⟨i, (List.pairwise_cons.1 hd.pw).1 s' (by simp), hi, ?_, hstep⟩
          exact hcl (s', i) (by simp [revEdges])
      · rw [if_neg hl]
        have hne : t = [] := by
          cases t with
          | nil => rfl
          | cons a b => simp at hl
        subst hne
        refine ⟨hd, ?_, ?_⟩
        · rintro s t h e he; cases h; simp [revEdges] at he
        · rintro s t h; cases h
          right; left; exact ⟨hstep, rfl⟩
    | some j =>
      have hj := hext i j hi hstep
      simp only
      rw [if_neg (by omega)]
      by_cases hend : j + 1 < nd
      · apply ih (j + 1) (i :: t) hend (by omega) (by simp)
        · intro _
          refine ⟨hd.pw, hd.last, ?_⟩
          intro k hk
          rcases List.mem_cons.1 hk with rfl | hk
          · omega
          · have := (List.pairwise_cons.1 hd.pw).1 k hk; omega
        · intro e he
          simp only [revEdges, List.mem_cons] at he
          rcases he with rfl | he
          · simpa using hstep
          · exact hcl e he
      · have hjn : j = nd - 1 := by omega
        have hres : optLoop ext bint nd fuel (j + 1) (i :: t) = i :: t := by
          cases fuel with
          | zero => rfl
          | succ f => simp [optLoop]; omega
        rw [hres]
        refine ⟨hd, ?_, ?_⟩
        · rintro s t h e he; cases h; exact hcl e he
        · rintro s t h; cases h
          left; rw [hstep, hjn]

theorem opt_out (ext : Nat → Nat → Option Nat) (bint : List Nat) {nd : Nat} (h : 0 < nd)
    (hext : ∀ i j, i < nd → ext i (optWidth bint (nd - 1) i) = some j → i ≤ j ∧ j < nd) :
    OptOut (fun i => ext i (optWidth bint (nd - 1) i)) nd (optLoop ext bint nd nd 0 []) :=
  optLoop_out ext bint nd hext nd 0 [] h (by omega) (fun _ => rfl) (fun h => absurd rfl h)
    (by simp [revEdges])

/-- `sigExtend` finds the first admissible end. -/
theorem sigExtend_some {ok : Nat → Nat → Bool} {left i j j' : Nat}
    (h : sigExtend ok left i j = some j') :
    j ≤ j' ∧ j' < j + left ∧ ok i (j' + 1) = true ∧ ∀ c, j ≤ c → c < j' → ok i (c + 1) = false := by
  induction left generalizing j with
  | zero => simp [sigExtend] at h
  | succ left ih =>
    unfold sigExtend at h
    split at h
    · rename_i hk
      cases h
      exact ⟨le_refl _, by omega, hk, fun c h1 h2 => by omega⟩
    · rename_i hk
      obtain ⟨h1, h2, h3, h4⟩ := ih h
      refine ⟨by omega, by omega, h3, ?_⟩
      intro c hc1 hc2
      by_cases hc : c = j
      · subst hc; simpa using hk
      · exact h4 c (by omega) hc2

theorem sigExtend_none {ok : Nat → Nat → Bool} {left i j : Nat}
    (h : sigExtend ok left i j = none) : ∀ c, j ≤ c → c < j + left → ok i (c + 1) = false := by
  induction left generalizing j with
  | zero => intro c h1 h2; omega
  | succ left ih =>
    unfold sigExtend at h
    split at h
    · simp at h
    · rename_i hk
      intro c hc1 hc2
      by_cases hc : c = j
      · subst hc; simpa using hk
      · exact ih h c (by omega) (by omega)

section
variable {K : Type*} [AddCommGroup K] [LinearOrder K] [IsOrderedAddMonoid K]

theorem findIdx?_cumsumFrom (thr acc : K) (xs : List K) (data : List K) (i j : Nat)
    (hij : i ≤ j + 1) (hxs : xs = data.drop (j + 1)) (hj : j < data.length)
    (thr0 : K) (hthr : thr - acc = thr0 - total data i (j + 1)) :
    ((cumsumFrom acc xs).findIdx? (fun c => decide (thr ≤ c))).map (fun m => j + (m + 1))
      = sigExtend (fun a b => decide (thr0 ≤ total data a b)) (data.length - (j + 1)) i (j + 1) := by
  induction xs generalizing acc j with
  | nil =>
    have : data.length - (j + 1) = 0 := by
      have := congrArg List.length hxs
      simp at this; omega
    rw [this]; simp [cumsumFrom, sigExtend]
  | cons x xs ih =>
    have hlt : j + 1 < data.length := by
      by_contra hc
      rw [List.drop_eq_nil_of_le (by omega)] at hxs
      simp at hxs
    obtain ⟨m, hm⟩ : ∃ m, data.length - (j + 1) = m + 1 := ⟨data.length - (j + 1) - 1, by omega⟩
    rw [hm]
    have hx : data.getD (j + 1) 0 = x := by
      have : (data.drop (j + 1))[0]? = some x := by rw [← hxs]; rfl
      rw [List.getElem?_drop] at this
      simp only [Nat.add_zero] at this
      simp [List.getD, this]
    have hxs' : xs = data.drop (j + 1 + 1) := by
      have := congrArg List.tail hxs
      simpa [List.tail_drop] using this
    have hsum : total data i (j + 1 + 1) = total data i (j + 1) + x := by
      rw [total_succ data hij, hx]
    have hiff : thr ≤ acc + x ↔ thr0 ≤ total data i (j + 1 + 1) := by
      rw [hsum, ← sub_le_iff_le_add', hthr, sub_le_iff_le_add']
    unfold cumsumFrom sigExtend
    rw [List.findIdx?_cons]
    by_cases hc : thr ≤ acc + x
    · simp [hc, hiff.1 hc]
    · have hc' : ¬ thr0 ≤ total data i (j + 1 + 1) := fun h => hc (hiff.2 h)
      simp only [hc, hc', decide_false, Bool.false_eq_true, if_false]
      have := ih (acc + x) (j + 1) (by omega) hxs' hlt (by
        rw [hsum, ← sub_sub, ← sub_sub, hthr])
      have hm' : data.length - (j + 1 + 1) = m := by omega
      rw [hm'] at this
      rw [← this, Option.map_map]
      congr 1
      funext k
      simp only [Function.comp]
      omega

theorem optMinExtend_eq (data : List K) (n : K) (i j : Nat) (hij : i ≤ j + 1) (hj : j < data.length) :
    optMinExtend data n i j
      = sigExtend (fun a b => decide (n ≤ total data a b)) (data.length - j) i j := by
  obtain ⟨m, hm⟩ : ∃ m, data.length - j = m + 1 := ⟨data.length - j - 1, by omega⟩
  unfold optMinExtend
  rw [hm]
  simp only [← total_eq_sliceSum, sigExtend, decide_eq_true_eq]
  by_cases hc : total data i (j + 1) < n
  · rw [if_pos hc, if_neg (not_le.2 hc)]
    unfold firstReach cumsum
    rw [Option.map_map]
    have := findIdx?_cumsumFrom (n - total data i (j + 1)) 0 (data.drop (j + 1)) data i j hij rfl hj n
      (by simp)
    have hm' : data.length - (j + 1) = m := by omega
    rw [hm'] at this
    rw [← this]
    rfl
  · rw [if_neg hc, if_pos (not_lt.1 hc)]

end

end Elisa.Grouping
