import Verif.Data.DropZeros
import Mathlib.Data.List.GetD
import Mathlib.Tactic

/-!
# C122: trimming empty rows keeps the folded counts
-/

namespace Elisa.Data.Trim

open Elisa

/-- The counts of channel `j` for a spectrum whose photons between two energies are `flux`: each row of the matrix is weighted with the photons of its energy bin. -/
noncomputable def folded (flux : ℝ → ℝ → ℝ) (j : Nat) : List ℝ → List (List ℝ) → ℝ
  | lo :: hi :: g, row :: rows => flux lo hi * row.getD j 0 + folded flux j (hi :: g) rows
  | _, _ => 0

/-- A row without response. -/
def Empty (row : List ℝ) : Prop := ∀ x ∈ row, x = 0

section Lemmas

theorem isZeroRow_iff (r : List ℝ) : isZeroRow r = true ↔ Empty r := by simp [isZeroRow, Empty]

theorem isZeroRow_false (r : List ℝ) : isZeroRow r = false ↔ ¬ Empty r := by rw [← isZeroRow_iff]; simp

/-- the first run starts with the first index -/
theorem runs_head (x : Nat) (t : List Nat) : ∃ r rs, runs (x :: t) = (x :: r) :: rs := by
  cases t with
  | nil => exact ⟨[], [], rfl⟩
  | cons y t =>
    cases hr : runs (y :: t) with
    | nil => exact ⟨[], [], by rw [runs, hr]; rfl⟩
    | cons r rs =>
      by_cases h : 1 < y - x
      · exact ⟨[], r :: rs, by rw [runs, hr]; exact if_pos h⟩
      · exact ⟨r, rs, by rw [runs, hr]; exact if_neg h⟩

theorem runs_cons (x y : Nat) (t : List Nat) : ∃ r rs, runs (y :: t) = (y :: r) :: rs ∧
    runs (x :: y :: t) = if 1 < y - x then [x] :: runs (y :: t) else (x :: y :: r) :: rs := by
  obtain ⟨r, rs, h⟩ := runs_head y t
  refine ⟨r, rs, h, ?_⟩
  rw [runs, h]
  rfl

theorem runs_range (s k : Nat) (l : List Nat) (hl : ∀ y ∈ l.head?, s + k + 1 < y) :
    runs (List.range' s (k + 1) ++ l) = List.range' s (k + 1) :: runs l := by
  induction k generalizing s with
  | zero =>
    cases l with
    | nil => rfl
    | cons y t =>
      have hy : s + 1 < y := by simpa using hl y (by simp)
      obtain ⟨r, rs, -, h2⟩ := runs_cons s y t
      show runs (s :: y :: t) = [s] :: runs (y :: t)
      rw [h2, if_pos (by omega)]
  | succ k ih =>
    have h := ih (s + 1) (fun y hy => by have := hl y hy; omega)
    rw [List.range'_succ (n := k + 1), List.cons_append]
    rw [List.range'_succ (n := k), List.cons_append] at h ⊢
    obtain ⟨r, rs, h1, h2⟩ := runs_cons s (s + 1) (List.range' (s + 1 + 1) k ++ l)
    rw [h2, if_neg (by omega)]
    rw [h1] at h
    have ha := (List.cons.inj h)
    have hb := (List.cons.inj ha.1)
    rw [hb.2, ha.2]

theorem runs_sub (l : List Nat) : ∀ s ∈ runs l, ∀ x ∈ s, x ∈ l := by
  induction l with
  | nil => simp [runs]
  | cons x t ih =>
    cases t with
    | nil => simp [runs, joinRun]
    | cons y t =>
      obtain ⟨r, rs, h1, h2⟩ := runs_cons x y t
      rw [h1] at ih
      rw [h2, h1]
      split
      · intro s hs z hz
        rcases List.mem_cons.1 hs with rfl | hs
        · simp at hz; simp [hz]
        · exact List.mem_cons_of_mem _ (ih s hs z hz)
      · intro s hs z hz
        rcases List.mem_cons.1 hs with rfl | hs
        · rcases List.mem_cons.1 hz with rfl | hz
          · simp
          · exact List.mem_cons_of_mem _ (ih _ (by simp) z hz)
        · exact List.mem_cons_of_mem _ (ih s (by simp [hs]) z hz)

/-- runs have no gaps -/
theorem runs_convex (l : List Nat) (hl : l.Pairwise (· < ·)) : ∀ s ∈ runs l, ∀ p ∈ s, ∀ q ∈ s, ∀ z, p ≤ z → z ≤ q → z ∈ s := by
  induction l with
  | nil => simp [runs]
  | cons x t ih =>
    cases t with
    | nil =>
      intro s hs p hp q hq z h1 h2
      simp [runs, joinRun] at hs
      subst hs
      simp at hp hq ⊢
      omega
    | cons y t =>
      obtain ⟨r, rs, h1, h2⟩ := runs_cons x y t
      have hxy : x < y := (List.pairwise_cons.1 hl).1 y (by simp)
      have ih := ih (List.pairwise_cons.1 hl).2
      rw [h1] at ih
      rw [h2, h1]
      have hin : ∀ w ∈ y :: r, w ∈ y :: t := runs_sub (y :: t) _ (by rw [h1]; simp)
      split
      · intro s hs p hp q hq z a1 a2
        rcases List.mem_cons.1 hs with rfl | hs
        · simp at hp hq ⊢
          omega
        · exact ih s hs p hp q hq z a1 a2
      · intro s hs p hp q hq z a1 a2
        rcases List.mem_cons.1 hs with rfl | hs
        · by_cases hz : z = x
          · simp [hz]
          · apply List.mem_cons_of_mem
            have hge : ∀ w ∈ y :: r, x < w := fun w hw => (List.pairwise_cons.1 hl).1 w (hin w hw)
            have hq' : q ∈ y :: r := by
              rcases List.mem_cons.1 hq with rfl | h
              · exfalso
                rcases List.mem_cons.1 hp with rfl | h
                · omega
                · have := hge p h; omega
              · exact h
            rcases List.mem_cons.1 hp with rfl | h
            · exact ih _ (by simp) y (by simp) q hq' z (by omega) a2
            · exact ih _ (by simp) p h q hq' z a1 a2
        · exact ih s (by simp [hs]) p hp q hq z a1 a2

theorem keepFrom_append {A : Type} (mask : Nat → Bool) (i : Nat) (l m : List A) : keepFrom mask i (l ++ m) = keepFrom mask i l ++ keepFrom mask (i + l.length) m := by
  induction l generalizing i with
  | nil => rfl
  | cons x t ih =>
    rw [List.cons_append, keepFrom, keepFrom, ih]
    have : i + 1 + t.length = i + (x :: t).length := by simp; omega
    rw [this]
    split <;> simp

theorem keepFrom_none {A : Type} (mask : Nat → Bool) (i : Nat) (l : List A) (h : ∀ k, i ≤ k → k < i + l.length → mask k = true) : keepFrom mask i l = [] := by
  induction l generalizing i with
  | nil => rfl
  | cons x t ih =>
    rw [keepFrom, if_pos (h i (le_refl _) (by simp)), ih]
    intro k h1 h2
    exact h k (by omega) (by simp; omega)

theorem keepFrom_all {A : Type} (mask : Nat → Bool) (i : Nat) (l : List A) (h : ∀ k, i ≤ k → k < i + l.length → mask k = false) : keepFrom mask i l = l := by
  induction l generalizing i with
  | nil => rfl
  | cons x t ih =>
    rw [keepFrom, if_neg (by rw [h i (le_refl _) (by simp)]; simp), ih]
    intro k h1 h2
    exact h k (by omega) (by simp; omega)

theorem keepFrom_length {A : Type} (mask : Nat → Bool) (i : Nat) (l : List A) :
    (keepFrom mask i l).length = ((List.range' i l.length).filter fun k => !mask k).length := by
  induction l generalizing i with
  | nil => rfl
  | cons x t ih =>
    rw [keepFrom, List.length_cons, List.range'_succ, List.filter_cons]
    cases mask i <;> simp [ih]

/-- the middle part is what is kept -/
theorem keepFrom_mid {A : Type} (mask : Nat → Bool) (a m b : Nat) (l : List A) (hl : l.length = a + m + b)
    (h : ∀ k, k < a + m + b → (mask k = true ↔ k < a ∨ a + m ≤ k)) : keepFrom mask 0 l = (l.drop a).take m := by
  have e : l = l.take a ++ ((l.drop a).take m ++ (l.drop a).drop m) := by rw [List.take_append_drop, List.take_append_drop]
  conv_lhs => rw [e]
  rw [keepFrom_append, keepFrom_append, keepFrom_none, keepFrom_all, keepFrom_none]
  · simp
  · intro k h1 h2
    simp at h1 h2
    exact (h k (by omega)).2 (Or.inr (by omega))
  · intro k h1 h2
    simp at h1 h2
    have := h k (by omega)
    rw [Bool.eq_false_iff]
    intro hk
    have := this.1 hk
    omega
  · intro k h1 h2
    simp at h1 h2
    exact (h k (by omega)).2 (Or.inl (by omega))

theorem zeroRows_split (A M B : List (List ℝ)) (hA : ∀ r ∈ A, Empty r) (hM : ∀ r ∈ M, ¬ Empty r) (hB : ∀ r ∈ B, Empty r) :
    zeroRows (A ++ M ++ B) = List.range' 0 A.length ++ List.range' (A.length + M.length) B.length := by
  unfold zeroRows
  have e : List.range (A ++ M ++ B).length = List.range' 0 A.length ++ (List.range' A.length M.length ++ List.range' (A.length + M.length) B.length) := by
    rw [List.range_eq_range', List.length_append, List.length_append]
    have := List.range'_append (s := 0) (m := A.length) (n := M.length + B.length) (step := 1)
    simp only [Nat.one_mul, Nat.zero_add] at this
    rw [Nat.add_assoc, ← this]
    have := List.range'_append (s := A.length) (m := M.length) (n := B.length) (step := 1)
    simp only [Nat.one_mul] at this
    rw [← this]
  rw [e, List.filter_append, List.filter_append]
  have f1 : (List.range' 0 A.length).filter (fun i => isZeroRow ((A ++ M ++ B).getD i [])) = List.range' 0 A.length := by
    apply List.filter_eq_self.2
    intro i hi
    have hi' : i < A.length := by simpa using hi
    rw [isZeroRow_iff, List.append_assoc, List.getD_append _ _ _ _ hi', List.getD_eq_getElem _ _ hi']
    exact hA _ (List.getElem_mem _)
  have f2 : (List.range' A.length M.length).filter (fun i => isZeroRow ((A ++ M ++ B).getD i [])) = [] := by
    apply List.filter_eq_nil_iff.2
    intro i hi
    have hi' : A.length ≤ i ∧ i < A.length + M.length := by simpa using hi
    rw [isZeroRow_iff, List.append_assoc, List.getD_append_right _ _ _ _ hi'.1, List.getD_append _ _ _ _ (by omega), List.getD_eq_getElem _ _ (by omega)]
    exact hM _ (List.getElem_mem _)
  have f3 : (List.range' (A.length + M.length) B.length).filter (fun i => isZeroRow ((A ++ M ++ B).getD i [])) = List.range' (A.length + M.length) B.length := by
    apply List.filter_eq_self.2
    intro i hi
    have hi' : A.length + M.length ≤ i ∧ i < A.length + M.length + B.length := by simpa using hi
    rw [isZeroRow_iff, List.getD_append_right _ _ _ _ (by simp; omega), List.getD_eq_getElem _ _ (by simp; omega)]
    exact hB _ (List.getElem_mem _)
  rw [f1, f2, f3, List.nil_append]

theorem ends_split (a m b : Nat) (hm : 0 < m) (hab : 0 < a + b) (k : Nat) (hk : k < a + m + b) :
    ends (runs (List.range' 0 a ++ List.range' (a + m) b)) (a + m + b - 1) k = true ↔ k < a ∨ a + m ≤ k := by
  have hr : runs (List.range' 0 a ++ List.range' (a + m) b) = (if a = 0 then [] else [List.range' 0 a]) ++ (if b = 0 then [] else [List.range' (a + m) b]) := by
    have hB : runs (List.range' (a + m) b) = if b = 0 then [] else [List.range' (a + m) b] := by
      cases b with
      | zero => rfl
      | succ b =>
        have := runs_range (a + m) b [] (by simp)
        rw [List.append_nil] at this
        rw [this]
        rfl
    cases a with
    | zero => simpa using hB
    | succ a =>
      rw [runs_range 0 a, hB]
      · rfl
      · intro y hy
        cases b with
        | zero => simp at hy
        | succ b => simp [List.range'_succ] at hy; omega
  rw [hr]
  unfold ends
  simp only [List.any_append, Bool.or_eq_true]
  by_cases ha : a = 0 <;> by_cases hb : b = 0 <;> simp [ha, hb] <;> omega

theorem kept_split (A M B : List (List ℝ)) (hA : ∀ r ∈ A, Empty r) (hM : ∀ r ∈ M, ¬ Empty r) (hB : ∀ r ∈ B, Empty r) :
    (A ++ M ++ B).filter (fun r => !isZeroRow r) = M := by
  rw [List.filter_append, List.filter_append]
  have f1 : A.filter (fun r => !isZeroRow r) = [] := List.filter_eq_nil_iff.2 fun r hr => by simp [(isZeroRow_iff r).2 (hA r hr)]
  have f2 : M.filter (fun r => !isZeroRow r) = M := List.filter_eq_self.2 fun r hr => by simp [(isZeroRow_false r).2 (hM r hr)]
  have f3 : B.filter (fun r => !isZeroRow r) = [] := List.filter_eq_nil_iff.2 fun r hr => by simp [(isZeroRow_iff r).2 (hB r hr)]
  rw [f1, f2, f3]
  simp

theorem dropZeros_many (grid : List ℝ) (rows : List (List ℝ)) (h : 2 ≤ (zeroRows rows).length) :
    dropZeros grid rows = (match (keepFrom (ends (runs (zeroRows rows)) (grid.length - 2)) 0 grid.tail).getLast? with
      | none => .error .indexError
      | some e => .ok (keepFrom (ends (runs (zeroRows rows)) (grid.length - 2)) 0 grid.dropLast ++ [e], rows.filter fun r => !isZeroRow r)) := by
  unfold dropZeros
  dsimp only
  cases hz : zeroRows rows with
  | nil => rw [hz] at h; simp at h
  | cons x t =>
    cases t with
    | nil => rw [hz] at h; simp at h
    | cons y t => rfl

theorem trim_eq (grid : List ℝ) (A M B : List (List ℝ)) (hA : ∀ r ∈ A, Empty r) (hM : ∀ r ∈ M, ¬ Empty r) (hB : ∀ r ∈ B, Empty r) (hne : M ≠ [])
    (hg : grid.length = (A ++ M ++ B).length + 1) : dropZeros grid (A ++ M ++ B) = .ok ((grid.drop A.length).take (M.length + 1), M) := by
  have hz := zeroRows_split A M B hA hM hB
  have hk := kept_split A M B hA hM hB
  have hm : 0 < M.length := List.length_pos_iff.2 hne
  have hg' : grid.length = A.length + M.length + B.length + 1 := by rw [hg]; simp; omega
  set a := A.length
  set m := M.length
  set b := B.length
  by_cases h2 : 2 ≤ a + b
  · have hl : 2 ≤ (zeroRows (A ++ M ++ B)).length := by rw [hz]; simpa using h2
    rw [dropZeros_many _ _ hl, hz, hk]
    have e1 : grid.length - 2 = a + m + b - 1 := by omega
    rw [e1, keepFrom_mid _ a m b _ (by rw [List.length_tail]; omega) (fun k hk' => ends_split a m b hm (by omega) k hk'),
      keepFrom_mid _ a m b _ (by rw [List.length_dropLast]; omega) (fun k hk' => ends_split a m b hm (by omega) k hk')]
    have e2 : ((grid.tail.drop a).take m).getLast? = grid[a + m]? := by
      rw [List.getLast?_eq_getElem?, List.length_take, List.length_drop, List.length_tail]
      rw [List.getElem?_take, if_pos (by omega), List.getElem?_drop, List.getElem?_tail]
      congr 1
      omega
    rw [e2, List.getElem?_eq_getElem (by omega)]
    dsimp only
    congr 2
    rw [List.take_add_one, List.getElem?_drop, List.getElem?_eq_getElem (by omega)]
    simp only [Option.toList_some]
    congr 1
    apply List.ext_getElem?
    intro i
    rw [List.getElem?_take, List.getElem?_take]
    split
    · rw [List.getElem?_drop, List.getElem?_drop, List.getElem?_dropLast, if_pos (by omega)]
    · rfl
  · unfold dropZeros
    dsimp only
    rw [hz, hk]
    have hcases : (a = 0 ∧ b = 0) ∨ (a = 1 ∧ b = 0) ∨ (a = 0 ∧ b = 1) := by omega
    rcases hcases with ⟨h1, h2⟩ | ⟨h1, h2⟩ | ⟨h1, h2⟩
    · rw [h1, h2]
      simp only [List.range'_zero, List.append_nil, List.drop_zero]
      rw [List.take_of_length_le (by omega)]
    · rw [h1, h2]
      simp only [List.range'_one, List.range'_zero, List.append_nil, if_true]
      rw [List.drop_one, List.take_of_length_le (by rw [List.length_tail]; omega)]
    · rw [h1, h2]
      simp only [List.range'_one, List.range'_zero, List.nil_append, Nat.zero_add]
      rw [if_neg (by omega), if_pos (by omega), List.dropLast_eq_take]
      congr 3
      omega

theorem folded_skip (flux : ℝ → ℝ → ℝ) (j : Nat) (A : List (List ℝ)) (hA : ∀ r ∈ A, Empty r) (R : List (List ℝ)) (g : List ℝ) :
    folded flux j g (A ++ R) = folded flux j (g.drop A.length) R := by
  induction A generalizing g with
  | nil => rfl
  | cons row t ih =>
    match g with
    | [] => simp [folded]
    | [x] => simp [folded]
    | lo :: hi :: g =>
      have h0 : row.getD j 0 = 0 := by
        rw [List.getD_eq_getElem?_getD]
        cases h : row[j]? with
        | none => rfl
        | some v => exact hA row (by simp) v (List.mem_of_getElem? h)
      rw [List.cons_append, folded, h0, mul_zero, zero_add, ih (fun r hr => hA r (by simp [hr])), List.length_cons, List.drop_succ_cons]

theorem folded_nil (flux : ℝ → ℝ → ℝ) (j : Nat) (g : List ℝ) : folded flux j g [] = 0 := by
  match g with
  | [] => rfl
  | [x] => rfl
  | _ :: _ :: _ => rfl

theorem folded_stop (flux : ℝ → ℝ → ℝ) (j : Nat) (B : List (List ℝ)) (hB : ∀ r ∈ B, Empty r) (M : List (List ℝ)) (g : List ℝ) :
    folded flux j g (M ++ B) = folded flux j (g.take (M.length + 1)) M := by
  induction M generalizing g with
  | nil =>
    have := folded_skip flux j B hB [] g
    rw [List.append_nil] at this
    rw [List.nil_append, this, folded_nil, folded_nil]
  | cons row t ih =>
    match g with
    | [] => simp [folded]
    | [x] => simp [folded]
    | lo :: hi :: g =>
      rw [List.cons_append, folded, ih (hi :: g), List.length_cons]
      simp only [List.take_succ_cons, folded]

end Lemmas

/-- **C122 (trimming).**  A matrix whose empty rows are at its beginning and at its end only, with some row that is not empty: trimming succeeds, leaves exactly the rows between, keeps
one more energy than there are rows, and the counts folded with the trimmed matrix over the trimmed energy bins are those folded before, for every spectrum and channel. -/
theorem C122_trim_partial (grid : List ℝ) (A M B : List (List ℝ)) (hA : ∀ r ∈ A, Empty r) (hM : ∀ r ∈ M, ¬ Empty r) (hB : ∀ r ∈ B, Empty r) (hne : M ≠ [])
    (hg : grid.length = (A ++ M ++ B).length + 1) :
    ∃ grid', dropZeros grid (A ++ M ++ B) = .ok (grid', M) ∧ grid'.length = M.length + 1 ∧ List.IsInfix grid' grid ∧
      ∀ flux j, folded flux j grid' M = folded flux j grid (A ++ M ++ B) := by
  refine ⟨_, trim_eq grid A M B hA hM hB hne hg, ?_, ?_, ?_⟩
  · rw [List.length_take, List.length_drop, hg]
    simp
    omega
  · exact (List.take_prefix _ _).isInfix.trans (List.drop_suffix _ _).isInfix
  · intro flux j
    rw [List.append_assoc, folded_skip flux j A hA, folded_stop flux j B hB]

/-- **C122 (gaps).**  With an empty row between two that are not, the matrix loses that row but the energy grid keeps its bin: what comes back does not belong together. -/
theorem C122_gap_refuted (grid : List ℝ) (rows : List (List ℝ)) (hg : grid.length = rows.length + 1) (i k l : Nat) (hik : i < k) (hkl : k < l) (hl : l < rows.length)
    (hi : ¬ Empty (rows.getD i [])) (hk : Empty (rows.getD k [])) (hl' : ¬ Empty (rows.getD l [])) :
    ∃ grid' rows', dropZeros grid rows = .ok (grid', rows') ∧ rows'.length + 1 < grid'.length := by
  have hkept : (rows.filter fun r => !isZeroRow r).length + (zeroRows rows).length = rows.length := by
    have e : ∀ (n : Nat), n ≤ rows.length → ((rows.take n).filter fun r => !isZeroRow r).length + ((List.range n).filter fun i => isZeroRow (rows.getD i [])).length = n := by
      intro n
      induction n with
      | zero => simp
      | succ n ih =>
        intro hn
        rw [List.take_add_one, List.range_succ, List.filter_append, List.filter_append, List.length_append, List.length_append, List.getElem?_eq_getElem (by omega)]
        have := ih (by omega)
        have e2 : rows.getD n [] = rows[n] := List.getD_eq_getElem _ _ (by omega)
        cases hz : isZeroRow rows[n]
        · simp [-List.getD_eq_getElem?_getD, e2, hz]; omega
        · simp [-List.getD_eq_getElem?_getD, e2, hz]; omega
    have := e rows.length (le_refl _)
    rw [List.take_length] at this
    exact this
  have hkz : k ∈ zeroRows rows := by
    unfold zeroRows
    rw [List.mem_filter, List.mem_range, isZeroRow_iff]
    exact ⟨by omega, hk⟩
  have hiz : i ∉ zeroRows rows := by
    unfold zeroRows
    rw [List.mem_filter, isZeroRow_iff]
    exact fun h => hi h.2
  have hlz : l ∉ zeroRows rows := by
    unfold zeroRows
    rw [List.mem_filter, isZeroRow_iff]
    exact fun h => hl' h.2
  have hzlen : ∀ x ∈ zeroRows rows, x < rows.length := by
    intro x hx
    exact List.mem_range.1 (List.mem_filter.1 hx).1
  have hpos : 0 < (zeroRows rows).length := List.length_pos_of_mem hkz
  by_cases h2 : 2 ≤ (zeroRows rows).length
  · rw [dropZeros_many _ _ h2]
    set mask := ends (runs (zeroRows rows)) (grid.length - 2) with hmask
    have hsort : (zeroRows rows).Pairwise (· < ·) := by
      unfold zeroRows
      exact List.pairwise_lt_range.sublist List.filter_sublist
    have hmsub : ∀ x, mask x = true → x ∈ zeroRows rows ∧ x ≠ k := by
      intro x hx
      simp only [hmask, ends, List.any_eq_true, Bool.and_eq_true, Bool.or_eq_true, List.contains_iff_mem] at hx
      obtain ⟨s, hs, h1, h3⟩ := hx
      refine ⟨runs_sub _ s hs x h1, ?_⟩
      rintro rfl
      rcases h3 with h3 | h3
      · exact hiz (runs_sub _ s hs i (runs_convex _ hsort s hs 0 h3 x h1 i (by omega) (by omega)))
      · exact hlz (runs_sub _ s hs l (runs_convex _ hsort s hs x h1 _ h3 l (by omega) (by omega)))
    -- the kept bins: at least the non-empty rows and `k`
    have hcount : ∀ g : List ℝ, g.length = rows.length → (rows.filter fun r => !isZeroRow r).length + 1 ≤ (keepFrom mask 0 g).length := by
      intro g hgl
      rw [keepFrom_length, hgl, ← List.range_eq_range']
      have h3 : ((List.range rows.length).filter fun x => !mask x).length + ((List.range rows.length).filter fun x => mask x).length = rows.length := by
        have := List.length_eq_length_filter_add (l := List.range rows.length) (fun x => mask x)
        rw [List.length_range] at this
        omega
      have h4 : ((List.range rows.length).filter fun x => mask x).length + 1 ≤ (zeroRows rows).length := by
        have hs : List.Subperm (k :: (List.range rows.length).filter fun x => mask x) (zeroRows rows) := by
          apply List.subperm_of_subset
          · refine List.nodup_cons.2 ⟨?_, List.nodup_range.filter _⟩
            intro h
            exact (hmsub k (List.mem_filter.1 h).2).2 rfl
          · intro x hx
            rcases List.mem_cons.1 hx with rfl | hx
            · exact hkz
            · exact (hmsub x (List.mem_filter.1 hx).2).1
        simpa using hs.length_le
      omega
    have htail := hcount grid.tail (by rw [List.length_tail]; omega)
    have hhead := hcount grid.dropLast (by rw [List.length_dropLast]; omega)
    cases hlast : (keepFrom mask 0 grid.tail).getLast? with
    | none =>
      rw [List.getLast?_eq_none_iff] at hlast
      rw [hlast] at htail
      simp at htail
    | some e =>
      refine ⟨_, _, rfl, ?_⟩
      rw [List.length_append]
      simp
      omega
  · have h1 : (zeroRows rows).length = 1 := by omega
    obtain ⟨x, hx⟩ := List.length_eq_one_iff.1 h1
    have hxk : x = k := by rw [hx] at hkz; exact (List.mem_singleton.1 hkz).symm
    subst hxk
    unfold dropZeros
    dsimp only
    rw [hx]
    dsimp only
    rw [if_neg (by omega), if_neg (by omega)]
    refine ⟨_, _, rfl, ?_⟩
    rw [hx] at hkept
    simp at hkept
    omega

/-- **C122 (no response at all).**  A matrix of two or more rows, all empty, cannot be trimmed: the code looks for the last of no energies. -/
theorem C122_empty (grid : List ℝ) (rows : List (List ℝ)) (hg : grid.length = rows.length + 1) (h2 : 2 ≤ rows.length) (h : ∀ r ∈ rows, Empty r) :
    dropZeros grid rows = .error .indexError := by
  have hz : zeroRows rows = List.range' 0 (rows.length - 1 + 1) := by
    unfold zeroRows
    rw [List.filter_eq_self.2, List.range_eq_range']
    · congr 1; omega
    · intro i hi
      have hi' : i < rows.length := List.mem_range.1 hi
      rw [isZeroRow_iff, List.getD_eq_getElem _ _ hi']
      exact h _ (List.getElem_mem _)
  rw [dropZeros_many _ _ (by rw [hz]; simp; omega), hz]
  have hr := runs_range 0 (rows.length - 1) [] (by simp)
  rw [List.append_nil] at hr
  rw [hr, keepFrom_none _ _ grid.tail]
  · rfl
  · intro k h1 h3
    rw [List.length_tail] at h3
    simp [ends, runs]
    omega

/-- The hypotheses are met: energies 1, 2, 3, 4, 5, the first two bins and the last without response. -/
example : ∃ grid', dropZeros [1, 2, 3, 4, 5] ([[0, 0], [0, 0]] ++ [[3, 1]] ++ [[0, 0]]) = .ok (grid', [[3, 1]]) ∧ grid'.length = 2 := by
  obtain ⟨g, h1, h2, -⟩ := C122_trim_partial [1, 2, 3, 4, 5] [[0, 0], [0, 0]] [[3, 1]] [[0, 0]] (by simp [Empty]) (by simp [Empty]) (by simp [Empty]) (by simp) rfl
  exact ⟨g, h1, h2⟩

/-- The second bin of three has no response. -/
example : ∃ grid' rows', dropZeros [1, 2, 3, 4] [[1], [0], [2]] = .ok (grid', rows') ∧ rows'.length + 1 < grid'.length :=
  C122_gap_refuted _ _ rfl 0 1 2 (by norm_num) (by norm_num) (by simp) (by simp [Empty]) (by simp [Empty]) (by simp [Empty])

end Elisa.Data.Trim
