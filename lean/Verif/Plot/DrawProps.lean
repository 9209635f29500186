import Verif.Plot.Draw
import Mathlib.Data.List.Chain
import Mathlib.Tactic.Linarith
import Mathlib.Tactic.NormNum
import Mathlib.Tactic.Push

/-!
# C92: spectra are drawn bin by bin
-/

namespace Elisa.Plot

open Elisa

/-! ## Specification -/

/-- What matplotlib shows of a curve drawn with `where='post'`: the value `ys[j]` from `xs[j]` to `xs[j + 1]`. -/
def Curve.pieces {α : Type} (c : Curve α) : List (ℝ × ℝ × α) := c.xs.zip (c.xs.tail.zip c.ys)

/-- The bins of a spectrum: from the left edge to the right edge, with the value. -/
def bins {α : Type} (xl xr : List ℝ) (y : List α) : List (ℝ × ℝ × α) := xl.zip (xr.zip y)

/-! ## Slices -/

theorem pySlice_getElem? {α : Type} (l : List α) (a b j : ℕ) : (pySlice l a b)[j]? = if a + j < b then l[a + j]? else none := by
  unfold pySlice
  rw [List.getElem?_drop, List.getElem?_take]

theorem pySlice_length {α : Type} (l : List α) (a b : ℕ) (hb : b ≤ l.length) : (pySlice l a b).length = b - a := by
  unfold pySlice
  simp
  omega

theorem pySlice_append {α : Type} (l : List α) (a b c : ℕ) (h1 : a ≤ b) (h2 : b ≤ c) : pySlice l a b ++ pySlice l b c = pySlice l a c := by
  unfold pySlice
  have e : l.take c = l.take b ++ (l.take c).drop b := by
    conv_lhs => rw [← List.take_append_drop b (l.take c)]
    rw [List.take_take, min_eq_left h2]
  by_cases hb : b ≤ l.length
  · conv_rhs => rw [e]
    rw [List.drop_append_of_le_length]
    simp
    omega
  · push Not at hb
    rw [List.take_of_length_le (by omega : l.length ≤ b), List.take_of_length_le (by omega : l.length ≤ c), List.drop_of_length_le (by omega : l.length ≤ b), List.append_nil]

theorem pySlice_last {α : Type} (l : List α) (a b : ℕ) (hab : a < b) (hb : b ≤ l.length) : (pySlice l a b).getLast? = l[b - 1]? := by
  rw [List.getLast?_eq_getElem?, pySlice_length l a b hb, pySlice_getElem?]
  have : a + (b - a - 1) < b := by omega
  rw [if_pos this]
  congr 1
  omega

theorem pySlice_full {α : Type} (l : List α) : pySlice l 0 l.length = l := by
  unfold pySlice
  simp

/-! ## One stretch -/

theorem segment_ok {α : Type} (xl xr : List ℝ) (y : List α) (h1 : y.length = xl.length) (h2 : xl.length = xr.length) (a b : ℕ) (hab : a < b)
    (hb : b ≤ y.length) (hin : ∀ j, a < j → j < b → xl[j]? = xr[j - 1]?) :
    ∃ c, segment xl xr y (a, b) = .ok c ∧ c.pieces = pySlice (bins xl xr y) a b ∧ c.xs.head? = xl[a]? ∧ c.xs.getLast? = xr[b - 1]? ∧
      c.xs.length = c.ys.length ∧ 2 ≤ c.xs.length := by
  have hr : (pySlice xr a b).getLast? = xr[b - 1]? := pySlice_last xr a b hab (by omega)
  have hv : (pySlice y a b).getLast? = y[b - 1]? := pySlice_last y a b hab hb
  have hrl : b - 1 < xr.length := by omega
  have hvl : b - 1 < y.length := by omega
  have hra : xr[b - 1]? = some xr[b - 1] := List.getElem?_eq_getElem hrl
  have hva : y[b - 1]? = some y[b - 1] := List.getElem?_eq_getElem hvl
  have lx : (pySlice xl a b).length = b - a := pySlice_length xl a b (by omega)
  have ly : (pySlice y a b).length = b - a := pySlice_length y a b hb
  refine ⟨⟨pySlice xl a b ++ [xr[b - 1]], pySlice y a b ++ [y[b - 1]]⟩, ?_, ?_, ?_, ?_, ?_, ?_⟩
  · simp only [segment, hr, hv, hra, hva]
  · apply List.ext_getElem?
    intro j
    rw [pySlice_getElem?]
    show ((pySlice xl a b ++ [xr[b - 1]]).zip ((pySlice xl a b ++ [xr[b - 1]]).tail.zip (pySlice y a b ++ [y[b - 1]])))[j]? = _
    have ht : ∀ k, (pySlice xl a b ++ [xr[b - 1]]).tail[k]? = if a + k < b then xr[a + k]? else none := by
      intro k
      rw [List.getElem?_tail]
      by_cases hk : k + 1 < b - a
      · rw [List.getElem?_append_left (by omega), pySlice_getElem?, if_pos (by omega), if_pos (by omega), hin (a + (k + 1)) (by omega) (by omega)]
        congr 1
      · rw [List.getElem?_append_right (by omega), lx]
        by_cases hk2 : k + 1 = b - a
        · rw [if_pos (by omega)]
          have e1 : k + 1 - (b - a) = 0 := by omega
          have e2 : a + k = b - 1 := by omega
          rw [e1, e2, hra]
          rfl
        · rw [if_neg (by omega), List.getElem?_eq_none (by simp; omega)]
    by_cases hj : a + j < b
    · rw [if_pos hj]
      have j1 : a + j < xl.length := by omega
      have j2 : a + j < xr.length := by omega
      have j3 : a + j < y.length := by omega
      have q1 : (pySlice xl a b ++ [xr[b - 1]])[j]? = some xl[a + j] := by
        rw [List.getElem?_append_left (by omega), pySlice_getElem?, if_pos hj]
        exact List.getElem?_eq_getElem j1
      have q2 : (pySlice xl a b ++ [xr[b - 1]]).tail[j]? = some xr[a + j] := by
        rw [ht, if_pos hj]
        exact List.getElem?_eq_getElem j2
      have q3 : (pySlice y a b ++ [y[b - 1]])[j]? = some y[a + j] := by
        rw [List.getElem?_append_left (by omega), pySlice_getElem?, if_pos hj]
        exact List.getElem?_eq_getElem j3
      have q4 : (xr.zip y)[a + j]? = some (xr[a + j], y[a + j]) := by
        rw [List.getElem?_zip_eq_some]
        exact ⟨List.getElem?_eq_getElem j2, List.getElem?_eq_getElem j3⟩
      have q5 : (bins xl xr y)[a + j]? = some (xl[a + j], xr[a + j], y[a + j]) := by
        unfold bins
        rw [List.getElem?_zip_eq_some]
        exact ⟨List.getElem?_eq_getElem j1, q4⟩
      rw [q5, List.getElem?_zip_eq_some]
      refine ⟨q1, ?_⟩
      rw [List.getElem?_zip_eq_some]
      exact ⟨q2, q3⟩
    · rw [if_neg hj, List.getElem?_eq_none]
      simp
      omega
  · show (pySlice xl a b ++ [xr[b - 1]]).head? = _
    rw [List.head?_eq_getElem?, List.getElem?_append_left (by omega), pySlice_getElem?, if_pos (by omega)]
    rfl
  · show (pySlice xl a b ++ [xr[b - 1]]).getLast? = _
    rw [List.getLast?_append, hra]
    rfl
  · show (pySlice xl a b ++ [xr[b - 1]]).length = (pySlice y a b ++ [y[b - 1]]).length
    simp [lx, ly]
  · show 2 ≤ (pySlice xl a b ++ [xr[b - 1]]).length
    simp [lx]
    omega

/-! ## All stretches -/

theorem stretches {α : Type} (xl xr : List ℝ) (y : List α) (h1 : y.length = xl.length) (h2 : xl.length = xr.length) (cs : List ℕ) (a n : ℕ)
    (hn : n ≤ y.length) (hchain : (a :: (cs ++ [n])).IsChain (· < ·))
    (hin : ∀ j, a < j → j < n → j ∉ cs → xl[j]? = xr[j - 1]?) (hgap : ∀ j ∈ cs, xl[j]? ≠ xr[j - 1]?) :
    ∃ crv, (pairs (a :: (cs ++ [n]))).mapM (segment xl xr y) = .ok crv ∧ crv.flatMap Curve.pieces = pySlice (bins xl xr y) a n ∧
      (∃ c ∈ crv.head?, c.xs.head? = xl[a]?) ∧ crv.IsChain (fun c d => c.xs.getLast? ≠ d.xs.head?) ∧
      ∀ c ∈ crv, c.xs.length = c.ys.length ∧ 2 ≤ c.xs.length := by
  induction cs generalizing a with
  | nil =>
    have han : a < n := by simpa using hchain
    obtain ⟨c, e1, e2, e3, -, e5, e6⟩ := segment_ok xl xr y h1 h2 a n han hn (fun j p q => hin j p q (by simp))
    refine ⟨[c], ?_, ?_, ⟨c, rfl, e3⟩, List.isChain_singleton c, ?_⟩
    · show (segment xl xr y (a, n) >>= fun v => _) = _
      rw [e1]
      rfl
    · simp [e2]
    · intro d hd
      rw [List.mem_singleton] at hd
      subst hd
      exact ⟨e5, e6⟩
  | cons b cs ih =>
    have hab : a < b := List.isChain_cons_cons.1 hchain |>.1
    have hch : (b :: (cs ++ [n])).IsChain (· < ·) := List.isChain_cons_cons.1 hchain |>.2
    have hp := List.isChain_iff_pairwise.1 hch
    have hbn : b < n := (List.pairwise_cons.1 hp).1 n (by simp)
    have hbcs : ∀ k ∈ cs, b < k := fun k hk => (List.pairwise_cons.1 hp).1 k (by simp [hk])
    obtain ⟨crv, f1, f2, ⟨d, hd, f3⟩, f4, f5⟩ := ih b hch
      (fun j p q r => hin j (by omega) q (by simp only [List.mem_cons, not_or]; exact ⟨by omega, r⟩)) (fun j hj => hgap j (by simp [hj]))
    obtain ⟨c, e1, e2, -, e4, e5, e6⟩ := segment_ok xl xr y h1 h2 a b hab (by omega)
      (fun j p q => hin j p (by omega) (by
        simp only [List.mem_cons, not_or]
        exact ⟨by omega, fun hj => by have := hbcs j hj; omega⟩))
    obtain ⟨c', e1', e3', e3''⟩ : ∃ c', segment xl xr y (a, b) = .ok c' ∧ c'.xs.head? = xl[a]? ∧ c' = c := by
      obtain ⟨c', q1, -, q3, -⟩ := segment_ok xl xr y h1 h2 a b hab (by omega)
        (fun j p q => hin j p (by omega) (by
          simp only [List.mem_cons, not_or]
          exact ⟨by omega, fun hj => by have := hbcs j hj; omega⟩))
      exact ⟨c', q1, q3, by rw [e1] at q1; exact (Except.ok.inj q1).symm⟩
    subst e3''
    refine ⟨c' :: crv, ?_, ?_, ⟨c', rfl, e3'⟩, ?_, ?_⟩
    · show ((a, b) :: pairs (b :: (cs ++ [n]))).mapM (segment xl xr y) = _
      rw [List.mapM_cons, e1, f1]
      rfl
    · rw [List.flatMap_cons, e2, f2, pySlice_append _ _ _ _ (by omega) (by omega)]
    · cases crv with
      | nil => simp at hd
      | cons d' crv =>
        have : d' = d := by simpa using hd
        subst this
        refine List.isChain_cons_cons.2 ⟨?_, f4⟩
        rw [e4, f3]
        exact fun h => hgap b (by simp) h.symm
    · intro e he
      rcases List.mem_cons.1 he with rfl | he
      · exact ⟨e5, e6⟩
      · exact f5 e he

theorem gapMask_length (xl xr : List ℝ) (h : xl.length = xr.length) : (gapMask xl xr).length = xl.length - 1 := by
  unfold gapMask
  simp
  omega

theorem gapMask_get (xl xr : List ℝ) (h : xl.length = xr.length) (k : ℕ) (hk : k + 1 < xl.length) :
    (gapMask xl xr).getD k false = true ↔ xl[k + 1]? ≠ xr[k]? := by
  unfold gapMask
  have a1 : xl.tail[k]? = some xl[k + 1] := by
    rw [List.getElem?_tail]
    exact List.getElem?_eq_getElem hk
  have kr : k < xr.length := by omega
  have a2 : xr.dropLast[k]? = some xr[k] := by
    rw [List.getElem?_dropLast, if_pos (by omega)]
    exact List.getElem?_eq_getElem kr
  rw [List.getD_eq_getElem?_getD, List.getElem?_zipWith_eq_some.2 ⟨_, _, a1, a2, rfl⟩, List.getElem?_eq_getElem hk, List.getElem?_eq_getElem kr]
  simp

theorem mem_cut (xl xr : List ℝ) (h : xl.length = xr.length) (j : ℕ) :
    j ∈ (flatnonzero (gapMask xl xr)).map (· + 1) ↔ 0 < j ∧ j < xl.length ∧ xl[j]? ≠ xr[j - 1]? := by
  simp only [List.mem_map, flatnonzero, List.mem_filter, List.mem_range, gapMask_length xl xr h]
  constructor
  · rintro ⟨k, ⟨hk, hm⟩, rfl⟩
    exact ⟨by omega, by omega, (gapMask_get xl xr h k (by omega)).1 hm⟩
  · rintro ⟨h0, hl, hne⟩
    refine ⟨j - 1, ⟨by omega, (gapMask_get xl xr h (j - 1) (by omega)).2 ?_⟩, by omega⟩
    have : j - 1 + 1 = j := by omega
    rw [this]
    exact hne

theorem cuts_chain (xl xr : List ℝ) (h : xl.length = xr.length) (h0 : 0 < xl.length) :
    (0 :: ((flatnonzero (gapMask xl xr)).map (· + 1) ++ [xl.length])).IsChain (· < ·) := by
  rw [List.isChain_iff_pairwise, List.pairwise_cons]
  have hlt : ∀ j ∈ (flatnonzero (gapMask xl xr)).map (· + 1), 0 < j ∧ j < xl.length := by
    intro j hj
    have := (mem_cut xl xr h j).1 hj
    exact ⟨this.1, this.2.1⟩
  constructor
  · intro j hj
    rcases List.mem_append.1 hj with hj | hj
    · exact (hlt j hj).1
    · rw [List.mem_singleton] at hj
      omega
  · rw [List.pairwise_append]
    refine ⟨?_, List.pairwise_singleton _ _, ?_⟩
    · rw [List.pairwise_map]
      unfold flatnonzero
      exact (List.Pairwise.filter _ List.pairwise_lt_range).imp (fun h => by omega)
    · intro j hj k hk
      rw [List.mem_singleton] at hk
      rw [hk]
      exact (hlt j hj).2

/-! ## Theorems -/

/-- **C92 (steps).**  A spectrum of one or more bins is drawn, and what is drawn is every bin once, in order, with its value from its left
edge to its right edge, and nothing else; the line is broken between two bins exactly when they do not touch (bins that touch are joined since
the pieces of one curve share their edges, curves that follow each other do not). -/
theorem C92_step {α : Type} (xl xr : List ℝ) (y : List α) (h1 : y.length = xl.length) (h2 : xl.length = xr.length) (h0 : y ≠ []) :
    ∃ crv, plotStep xl xr y = .ok crv ∧ crv.flatMap Curve.pieces = bins xl xr y ∧ crv.IsChain (fun c d => c.xs.getLast? ≠ d.xs.head?) ∧
      ∀ c ∈ crv, c.xs.length = c.ys.length ∧ 2 ≤ c.xs.length := by
  have hpos : 0 < xl.length := by rw [← h1]; exact List.length_pos_iff.2 h0
  obtain ⟨crv, e1, e2, -, e4, e5⟩ := stretches xl xr y h1 h2 ((flatnonzero (gapMask xl xr)).map (· + 1)) 0 y.length le_rfl
    (by rw [h1]; exact cuts_chain xl xr h2 hpos)
    (fun j p q r => by
      by_contra hne
      exact r ((mem_cut xl xr h2 j).2 ⟨p, by omega, hne⟩))
    (fun j hj => ((mem_cut xl xr h2 j).1 hj).2.2)
  refine ⟨crv, ?_, ?_, e4, e5⟩
  · unfold plotStep
    rw [if_pos ⟨h1, h2⟩]
    exact e1
  · rw [e2]
    have : (bins xl xr y).length = y.length := by
      unfold bins
      simp
      omega
    rw [← this]
    exact pySlice_full _

/-- A value is drawn at an energy if and only if a bin holding the energy has that value (whatever the order of the bins, and whether or not
they overlap). -/
theorem C92_value {α : Type} (xl xr : List ℝ) (y : List α) (crv : List (Curve α)) (h : plotStep xl xr y = .ok crv) (e : ℝ) (v : α) :
    (∃ c ∈ crv, ∃ (j : ℕ) (a b : ℝ), c.xs[j]? = some a ∧ c.xs[j + 1]? = some b ∧ c.ys[j]? = some v ∧ a ≤ e ∧ e < b) ↔
      ∃ (i : ℕ) (a b : ℝ), xl[i]? = some a ∧ xr[i]? = some b ∧ y[i]? = some v ∧ a ≤ e ∧ e < b := by
  have hl : y.length = xl.length ∧ xl.length = xr.length := by
    by_contra hc
    unfold plotStep at h
    rw [if_neg hc] at h
    exact absurd h (by simp)
  have h0 : y ≠ [] := by
    rintro rfl
    have : xl = [] := List.length_eq_zero_iff.1 hl.1.symm
    subst this
    have : xr = [] := List.length_eq_zero_iff.1 hl.2.symm
    subst this
    simp [plotStep, cuts, gapMask, flatnonzero, pairs, segment, pySlice, bind, Except.bind] at h
  obtain ⟨crv', e1, e2, -, -⟩ := C92_step xl xr y hl.1 hl.2 h0
  rw [h] at e1
  obtain rfl := Except.ok.inj e1
  have hpc : ∀ (c : Curve α) (j : ℕ) (a b : ℝ), (c.xs[j]? = some a ∧ c.xs[j + 1]? = some b ∧ c.ys[j]? = some v) ↔ c.pieces[j]? = some (a, b, v) := by
    intro c j a b
    unfold Curve.pieces
    rw [List.getElem?_zip_eq_some, List.getElem?_zip_eq_some, List.getElem?_tail]
  have hbn : ∀ (i : ℕ) (a b : ℝ), (xl[i]? = some a ∧ xr[i]? = some b ∧ y[i]? = some v) ↔ (bins xl xr y)[i]? = some (a, b, v) := by
    intro i a b
    unfold bins
    rw [List.getElem?_zip_eq_some, List.getElem?_zip_eq_some]
  constructor
  · rintro ⟨c, hc, j, a, b, q1, q2, q3, q4⟩
    have hm : (a, b, v) ∈ bins xl xr y := by
      rw [← e2, List.mem_flatMap]
      exact ⟨c, hc, List.mem_of_getElem? ((hpc c j a b).1 ⟨q1, q2, q3⟩)⟩
    obtain ⟨i, hi⟩ := List.mem_iff_getElem?.1 hm
    obtain ⟨r1, r2, r3⟩ := (hbn i a b).2 hi
    exact ⟨i, a, b, r1, r2, r3, q4⟩
  · rintro ⟨i, a, b, q1, q2, q3, q4⟩
    have hm : (a, b, v) ∈ crv.flatMap Curve.pieces := by
      rw [e2]
      exact List.mem_of_getElem? ((hbn i a b).1 ⟨q1, q2, q3⟩)
    obtain ⟨c, hc, hp⟩ := List.mem_flatMap.1 hm
    obtain ⟨j, hj⟩ := List.mem_iff_getElem?.1 hp
    obtain ⟨r1, r2, r3⟩ := (hpc c j a b).2 hj
    exact ⟨c, hc, j, a, b, r1, r2, r3, q4⟩

/-- Arrays of different lengths are refused, and so is a spectrum without bins. -/
theorem C92_errors {α : Type} (xl xr : List ℝ) (y : List α) :
    (¬ (y.length = xl.length ∧ xl.length = xr.length) → plotStep xl xr y = .error .assertionError) ∧
    plotStep ([] : List ℝ) [] ([] : List α) = .error .indexError := by
  constructor
  · intro h
    unfold plotStep
    rw [if_neg h]
  · simp [plotStep, cuts, gapMask, flatnonzero, pairs, segment, pySlice, bind, Except.bind]

theorem mapM_column {A : Type} {α : Type} (g : List α → A → Except PyErr (Curve α)) (ys : List (List α)) (ps : List A) (css : List (List (Curve α)))
    (h : ps.mapM (fun p => ys.mapM fun y => g y p) = .ok css) (k : ℕ) (y : List α) (hk : ys[k]? = some y) :
    ∃ cs, ps.mapM (g y) = .ok cs ∧ css.map (fun l => l[k]?) = cs.map some := by
  induction ps generalizing css with
  | nil =>
    have : css = [] := by simpa [pure, Except.pure] using h.symm
    exact ⟨[], rfl, by rw [this]; rfl⟩
  | cons p ps ih =>
    rw [List.mapM_cons] at h
    rcases hp : (ys.mapM fun y => g y p) with e | l
    · rw [hp] at h
      simp [bind, Except.bind] at h
    rcases hq : ps.mapM (fun p => ys.mapM fun y => g y p) with e | ls
    · rw [hp, hq] at h
      simp [bind, Except.bind] at h
    rw [hp, hq] at h
    have hcss : css = l :: ls := by
      simp only [bind, Except.bind, pure, Except.pure, Except.ok.injEq] at h
      exact h.symm
    obtain ⟨cs, e1, e2⟩ := ih ls hq
    have hl : ∃ c, g y p = .ok c ∧ l[k]? = some c := by
      clear ih h hcss hq e1 e2
      induction ys generalizing l k with
      | nil => simp at hk
      | cons z zs ih =>
        rw [List.mapM_cons] at hp
        rcases hz : g z p with e | c
        · rw [hz] at hp
          simp [bind, Except.bind] at hp
        rcases hzs : (zs.mapM fun y => g y p) with e | l'
        · rw [hz, hzs] at hp
          simp [bind, Except.bind] at hp
        rw [hz, hzs] at hp
        have : l = c :: l' := by
          simp only [bind, Except.bind, pure, Except.pure, Except.ok.injEq] at hp
          exact hp.symm
        subst this
        cases k with
        | zero =>
          have : z = y := by simpa using hk
          subst this
          exact ⟨c, hz, rfl⟩
        | succ k => exact ih k (by simpa using hk) l' hzs
    obtain ⟨c, c1, c2⟩ := hl
    refine ⟨c :: cs, ?_, ?_⟩
    · rw [List.mapM_cons, c1, e1]
      rfl
    · rw [hcss, List.map_cons, List.map_cons, c2, e2]

/-- **C92 (bands).**  Every band is drawn as a spectrum is: the `k`-th curves of all stretches are the curves of the `k`-th band. -/
theorem C92_ribbon {α : Type} (xl xr : List ℝ) (ribbons : List (List α)) (css : List (List (Curve α))) (h : plotRibbon xl xr ribbons = .ok css)
    (k : ℕ) (y : List α) (hk : ribbons[k]? = some y) :
    ∃ cs, plotStep xl xr y = .ok cs ∧ css.map (fun l => l[k]?) = cs.map some := by
  cases ribbons with
  | nil => simp at hk
  | cons y0 ys =>
    simp only [plotRibbon] at h
    split_ifs at h with hc
    obtain ⟨h1, h2, h3⟩ := hc
    have hy : y.length = y0.length := h3 y (List.mem_of_getElem? hk)
    obtain ⟨cs, e1, e2⟩ := mapM_column (segment xl xr) (y0 :: ys) _ css h k y hk
    refine ⟨cs, ?_, e2⟩
    unfold plotStep
    rw [if_pos ⟨by omega, h2⟩, hy]
    exact e1

/-- Bands of one or more bins that all have the shape of the spectrum are drawn. -/
theorem C92_ribbon_drawn {α : Type} (xl xr : List ℝ) (ribbons : List (List α)) (h2 : xl.length = xr.length) (hr : ribbons ≠ []) (hx : xl ≠ [])
    (h : ∀ y ∈ ribbons, y.length = xl.length) : ∃ css, plotRibbon xl xr ribbons = .ok css := by
  cases ribbons with
  | nil => exact absurd rfl hr
  | cons y0 ys =>
    have h0 : y0.length = xl.length := h y0 (by simp)
    simp only [plotRibbon]
    rw [if_pos ⟨h0, h2, fun z hz => by rw [h z hz, h0]⟩]
    have hseg : ∀ y ∈ y0 :: ys, ∀ ab ∈ pairs (cuts xl xr y0.length), ∃ c, segment xl xr y ab = .ok c := by
      intro y hy ab hab
      have hyl := h y hy
      have hyn : y ≠ [] := by
        rintro rfl
        exact hx (List.length_eq_zero_iff.1 (by simpa using hyl.symm))
      obtain ⟨crv, e1, -⟩ := C92_step xl xr y hyl h2 hyn
      unfold plotStep at e1
      rw [if_pos ⟨hyl, h2⟩, hyl, ← h0] at e1
      revert e1 hab
      generalize pairs (cuts xl xr y0.length) = ps
      intro hab e1
      induction ps generalizing crv with
      | nil => simp at hab
      | cons p ps ih =>
        rw [List.mapM_cons] at e1
        rcases hp : segment xl xr y p with e | c
        · rw [hp] at e1
          simp [bind, Except.bind] at e1
        rcases hps : ps.mapM (segment xl xr y) with e | l
        · rw [hp, hps] at e1
          simp [bind, Except.bind] at e1
        rcases List.mem_cons.1 hab with rfl | hab
        · exact ⟨c, hp⟩
        · exact ih l hab hps
    have hall : ∀ (A B : Type) (f : A → Except PyErr B) (l : List A), (∀ a ∈ l, ∃ b, f a = .ok b) → ∃ bs, l.mapM f = .ok bs := by
      intro A B f l hl
      induction l with
      | nil => exact ⟨[], rfl⟩
      | cons a l ih =>
        obtain ⟨b, hb⟩ := hl a (by simp)
        obtain ⟨bs, hbs⟩ := ih fun x hx => hl x (by simp [hx])
        exact ⟨b :: bs, by rw [List.mapM_cons, hb, hbs]; rfl⟩
    exact hall _ _ _ _ fun ab hab => hall _ _ _ _ fun y hy => hseg y hy ab hab

/-- Non-vacuity: two bins that touch and one that does not: two curves. -/
example : ∃ crv, plotStep [1, 2, 5] [2, 3, 6] ["a", "b", "c"] = .ok crv ∧ crv.flatMap Curve.pieces = [((1 : ℝ), (2 : ℝ), "a"), (2, 3, "b"), (5, 6, "c")] := by
  obtain ⟨crv, e1, e2, -⟩ := C92_step [1, 2, 5] [2, 3, 6] ["a", "b", "c"] rfl rfl (by simp)
  exact ⟨crv, e1, e2⟩

/-- The photon bins drawn are those of the photon grid that lie within the noticed energies. -/
theorem C92_egrid (lo hi : ℝ) (grid : List ℝ) (h : grid.IsChain (· < ·)) :
    (plotEgrid lo hi grid).zip (plotEgrid lo hi grid).tail = (grid.zip grid.tail).filter fun b => decide (lo ≤ b.1 ∧ b.2 ≤ hi) := by
  have hp := List.isChain_iff_pairwise.1 h
  clear h
  unfold plotEgrid
  induction grid with
  | nil => rfl
  | cons a g ih =>
    obtain ⟨ha, hg⟩ := List.pairwise_cons.1 hp
    have ih := ih hg
    cases g with
    | nil =>
      by_cases hc : lo ≤ a ∧ a ≤ hi
      · simp [hc]
      · rw [List.filter_cons_of_neg (by simpa using hc)]
        rfl
    | cons b g =>
      have hab : a < b := ha b (by simp)
      have hz : (a :: b :: g).zip (a :: b :: g).tail = (a, b) :: (b :: g).zip (b :: g).tail := rfl
      rw [hz]
      by_cases hlo : lo ≤ a
      · have hlob : lo ≤ b := hlo.trans hab.le
        by_cases hb : b ≤ hi
        · have f1 : ∀ l, List.filter (fun e => decide (lo ≤ e ∧ e ≤ hi)) (a :: l) = a :: List.filter (fun e => decide (lo ≤ e ∧ e ≤ hi)) l :=
            fun l => List.filter_cons_of_pos (decide_eq_true ⟨hlo, hab.le.trans hb⟩)
          have f2 : ∀ l, List.filter (fun b : ℝ × ℝ => decide (lo ≤ b.1 ∧ b.2 ≤ hi)) ((a, b) :: l) =
              (a, b) :: List.filter (fun b : ℝ × ℝ => decide (lo ≤ b.1 ∧ b.2 ≤ hi)) l :=
            fun l => List.filter_cons_of_pos (decide_eq_true ⟨hlo, hb⟩)
          have f3 : ∀ l, List.filter (fun e => decide (lo ≤ e ∧ e ≤ hi)) (b :: l) = b :: List.filter (fun e => decide (lo ≤ e ∧ e ≤ hi)) l :=
            fun l => List.filter_cons_of_pos (decide_eq_true ⟨hlob, hb⟩)
          rw [f1, f2, ← ih, f3]
          rfl
        · have f2 : ∀ l, List.filter (fun b : ℝ × ℝ => decide (lo ≤ b.1 ∧ b.2 ≤ hi)) ((a, b) :: l) =
              List.filter (fun b : ℝ × ℝ => decide (lo ≤ b.1 ∧ b.2 ≤ hi)) l :=
            fun l => List.filter_cons_of_neg (by simp only [decide_eq_true_eq]; exact fun h => hb h.2)
          have he : List.filter (fun e => decide (lo ≤ e ∧ e ≤ hi)) (b :: g) = [] := by
            rw [List.filter_eq_nil_iff]
            intro x hx
            have : b ≤ x := by
              rcases List.mem_cons.1 hx with rfl | hx
              · exact le_rfl
              · exact ((List.pairwise_cons.1 hg).1 x hx).le
            simp only [decide_eq_true_eq, not_and, not_le]
            intro _
            exact lt_of_lt_of_le (not_le.1 hb) this
          rw [f2, ← ih, List.filter_cons, he]
          split <;> rfl
      · have f1 : ∀ l, List.filter (fun e => decide (lo ≤ e ∧ e ≤ hi)) (a :: l) = List.filter (fun e => decide (lo ≤ e ∧ e ≤ hi)) l :=
          fun l => List.filter_cons_of_neg (by simp only [decide_eq_true_eq]; exact fun h => hlo h.1)
        have f2 : ∀ l, List.filter (fun b : ℝ × ℝ => decide (lo ≤ b.1 ∧ b.2 ≤ hi)) ((a, b) :: l) =
            List.filter (fun b : ℝ × ℝ => decide (lo ≤ b.1 ∧ b.2 ≤ hi)) l :=
          fun l => List.filter_cons_of_neg (by simp only [decide_eq_true_eq]; exact fun h => hlo h.1)
        rw [f1, f2, ih]

/-- **C92 (unfolded spectrum).**  The unfolded spectrum on a grid of two or more edges is one line without breaks whose pieces are the photon
bins with their values. -/
theorem C92_unfolded {α : Type} (egrid : List ℝ) (ne : List α) (h : ne.length + 1 = egrid.length) (h0 : ne ≠ []) :
    ∃ c, plotUnfolded egrid ne = .ok [c] ∧ c.pieces = egrid.zip (egrid.tail.zip ne) := by
  have hpos : 0 < ne.length := List.length_pos_iff.2 h0
  have l1 : egrid.dropLast.length = ne.length := by simp; omega
  have l2 : egrid.tail.length = ne.length := by simp; omega
  have hcut : ∀ j, j ∉ (flatnonzero (gapMask egrid.dropLast egrid.tail)).map (· + 1) := by
    intro j hj
    obtain ⟨p, q, r⟩ := (mem_cut _ _ (by omega) j).1 hj
    apply r
    rw [List.getElem?_dropLast, if_pos (by omega), List.getElem?_tail]
    congr 1
    omega
  have hnil : (flatnonzero (gapMask egrid.dropLast egrid.tail)).map (· + 1) = [] := List.eq_nil_iff_forall_not_mem.2 hcut
  obtain ⟨c, e1, e2, -⟩ := segment_ok egrid.dropLast egrid.tail ne (by omega) (by omega) 0 ne.length hpos le_rfl
    (fun j p q => by
      by_contra hne
      exact hcut j ((mem_cut _ _ (by omega) j).2 ⟨p, by omega, hne⟩))
  refine ⟨c, ?_, ?_⟩
  · unfold plotUnfolded plotStep cuts
    rw [if_pos ⟨by omega, by omega⟩, hnil]
    show (segment _ _ ne (0, ne.length) >>= fun v => _) = _
    rw [e1]
    rfl
  · have : (bins egrid.dropLast egrid.tail ne).length = ne.length := by
      unfold bins
      simp
      omega
    rw [e2, ← this, pySlice_full]
    unfold bins
    apply List.ext_getElem?
    intro j
    by_cases hj : j < ne.length
    · have j1 : j < egrid.length := by omega
      have j2 : j < (egrid.tail.zip ne).length := by simp; omega
      have q1 : egrid.dropLast[j]? = some egrid[j] := by
        rw [List.getElem?_dropLast, if_pos (by omega)]
        exact List.getElem?_eq_getElem j1
      have q2 : (egrid.dropLast.zip (egrid.tail.zip ne))[j]? = some (egrid[j], (egrid.tail.zip ne)[j]) :=
        List.getElem?_zip_eq_some.2 ⟨q1, List.getElem?_eq_getElem j2⟩
      have q3 : (egrid.zip (egrid.tail.zip ne))[j]? = some (egrid[j], (egrid.tail.zip ne)[j]) :=
        List.getElem?_zip_eq_some.2 ⟨List.getElem?_eq_getElem j1, List.getElem?_eq_getElem j2⟩
      rw [q2, q3]
    · rw [List.getElem?_eq_none (by simp; omega), List.getElem?_eq_none (by simp; omega)]

example : ∃ c, plotUnfolded [1, 2, 4] ["a", "b"] = .ok [c] ∧ c.pieces = [((1 : ℝ), (2 : ℝ), "a"), (2, 4, "b")] := by
  obtain ⟨c, e1, e2⟩ := C92_unfolded [1, 2, 4] ["a", "b"] rfl (by simp)
  exact ⟨c, e1, e2⟩

/-- Channels that all lie within one photon bin: no photon bin is left to draw, and the plot of the unfolded spectrum raises. -/
theorem C92_narrow_refuted : ∃ (lo hi : ℝ) (grid : List ℝ), grid.IsChain (· < ·) ∧ 2 ≤ grid.length ∧ lo < hi ∧ grid.head? = some 1 ∧ grid.getLast? = some 10 ∧ 1 < lo ∧ hi < 10 ∧
    plotUnfolded (plotEgrid lo hi grid) ([] : List ℝ) = .error .indexError := by
  refine ⟨2, 3, [1, 10], by norm_num, by simp, by norm_num, rfl, rfl, by norm_num, by norm_num, ?_⟩
  have : plotEgrid 2 3 [1, 10] = [] := by
    unfold plotEgrid
    norm_num
  rw [this]
  exact (C92_errors [] [] []).2

/-! ## Limits of a logarithmic axis -/

theorem logFloor_pos (vmin vmax : ℝ) (octave : ℕ) (hv : 0 < vmax) (h : 0 < vmin ∨ (10 : ℝ) ^ octave * 10 ^ (-30 : ℤ) < vmax) :
    0 < logFloor vmin vmax octave := by
  unfold logFloor
  split_ifs with hc
  · positivity
  · rcases h with h | h
    · exact h
    · by_contra hn
      push Not at hn
      apply hc
      have hm : max ((10 : ℝ) ^ (-30 : ℤ)) vmin = 10 ^ (-30 : ℤ) := max_eq_left (hn.trans (by positivity))
      rw [hm, gt_iff_lt, Real.lt_logb_iff_rpow_lt (by norm_num) (by positivity), Real.rpow_natCast, lt_div_iff₀ (by positivity)]
      exact h

/-- **C92 (limits).**  The limits set for positive data (or data whose maximum is not tiny) are positive and in order, the largest value is
inside, the axis spans at most the given number of decades and 0.15 more, and data that span no more than that are shown in full. -/
theorem C92_limits (vmin vmax : ℝ) (octave : ℕ) (hv : 0 < vmax) (hle : vmin ≤ vmax)
    (h : 0 < vmin ∨ (10 : ℝ) ^ octave * 10 ^ (-30 : ℤ) < vmax) :
    0 < (logRange vmin vmax octave).1 ∧ (logRange vmin vmax octave).1 < vmax ∧ vmax < (logRange vmin vmax octave).2 ∧
    ((10 : ℝ) ^ (-30 : ℤ) ≤ vmin ∨ vmin ≤ 0 → (logRange vmin vmax octave).2 ≤ (logRange vmin vmax octave).1 * (10 ^ octave * 10 ^ (0.15 : ℝ))) ∧
    ((10 : ℝ) ^ (-30 : ℤ) ≤ vmin → vmax ≤ vmin * 10 ^ octave → (logRange vmin vmax octave).1 < vmin) := by
  have hf := logFloor_pos vmin vmax octave hv h
  have e1 : (logRange vmin vmax octave).1 = logFloor vmin vmax octave * 10 ^ (-(0.05 : ℝ)) := by
    show (10 : ℝ) ^ (Real.logb 10 (logFloor vmin vmax octave) - 0.05) = _
    rw [sub_eq_add_neg, Real.rpow_add (by norm_num), Real.rpow_logb (by norm_num) (by norm_num) hf]
  have e2 : (logRange vmin vmax octave).2 = vmax * 10 ^ (0.1 : ℝ) := by
    show (10 : ℝ) ^ (Real.logb 10 vmax + 0.1) = _
    rw [Real.rpow_add (by norm_num), Real.rpow_logb (by norm_num) (by norm_num) hv]
  have hs : (10 : ℝ) ^ (-(0.05 : ℝ)) < 1 := Real.rpow_lt_one_of_one_lt_of_neg (by norm_num) (by norm_num)
  have hs0 : (0 : ℝ) < 10 ^ (-(0.05 : ℝ)) := by positivity
  have hb : (1 : ℝ) < 10 ^ (0.1 : ℝ) := Real.one_lt_rpow (by norm_num) (by norm_num)
  have hfle : logFloor vmin vmax octave ≤ vmax := by
    unfold logFloor
    split_ifs
    · exact div_le_self hv.le (one_le_pow₀ (by norm_num))
    · exact hle
  refine ⟨?_, ?_, ?_, ?_, ?_⟩
  · rw [e1]
    positivity
  · rw [e1]
    nlinarith
  · rw [e2]
    nlinarith
  · intro hm
    have hx : vmax ≤ logFloor vmin vmax octave * 10 ^ octave := by
      unfold logFloor
      split_ifs with hc
      · rw [div_mul_cancel₀]
        positivity
      · rcases hm with hm | hm
        · rw [gt_iff_lt, not_lt, max_eq_right hm, Real.logb_le_iff_le_rpow (by norm_num) (by have := lt_of_lt_of_le (by positivity : (0 : ℝ) < 10 ^ (-30 : ℤ)) hm; positivity),
            Real.rpow_natCast, div_le_iff₀ (lt_of_lt_of_le (by positivity : (0 : ℝ) < 10 ^ (-30 : ℤ)) hm)] at hc
          linarith
        · unfold logFloor at hf
          rw [if_neg hc] at hf
          linarith
    have e3 : (10 : ℝ) ^ (0.1 : ℝ) = 10 ^ (-(0.05 : ℝ)) * 10 ^ (0.15 : ℝ) := by
      rw [← Real.rpow_add (by norm_num)]
      norm_num
    rw [e1, e2, e3]
    calc vmax * (10 ^ (-(0.05 : ℝ)) * 10 ^ (0.15 : ℝ)) ≤ (logFloor vmin vmax octave * 10 ^ octave) * (10 ^ (-(0.05 : ℝ)) * 10 ^ (0.15 : ℝ)) :=
          mul_le_mul_of_nonneg_right hx (by positivity)
      _ = _ := by ring
  · intro hm hspan
    have hvm : 0 < vmin := lt_of_lt_of_le (by positivity) hm
    have hfl : logFloor vmin vmax octave = vmin := by
      unfold logFloor
      rw [if_neg]
      rw [gt_iff_lt, not_lt, max_eq_right hm, Real.logb_le_iff_le_rpow (by norm_num) (by positivity), Real.rpow_natCast, div_le_iff₀ hvm]
      linarith
    rw [e1, hfl]
    nlinarith

example : 0 < (logRange 0 1 4).1 ∧ (logRange 0 1 4).2 ≤ (logRange 0 1 4).1 * (10 ^ 4 * 10 ^ (0.15 : ℝ)) := by
  have := C92_limits 0 1 4 (by norm_num) (by norm_num) (Or.inr (by norm_num))
  exact ⟨this.1, this.2.2.2.1 (Or.inr le_rfl)⟩

/-- Data with a zero whose maximum is below `1e-26` (energy fluxes in erg can be that small): the lower limit is the logarithm of zero. -/
theorem C92_limits_refuted : ∃ vmin vmax : ℝ, 0 < vmax ∧ logFloor vmin vmax 4 = 0 := by
  refine ⟨0, 10 ^ (-27 : ℤ), by positivity, ?_⟩
  unfold logFloor
  rw [if_neg]
  rw [max_eq_left (by positivity), ← zpow_sub₀ (by norm_num), ← Real.rpow_intCast, Real.logb_rpow (by norm_num) (by norm_num)]
  norm_num

end Elisa.Plot
