import Verif.Data.Ogip

/-!
# C19 (systematic errors), C20 (response decoding), C58 (OGIP conventions)
-/

namespace Elisa.Data

open Elisa Elisa.Grouping

/-! ## C20 -/

/-- A channel subset of one row: first channel (from 0) and the values. -/
abbrev Subset := Nat × List ℝ

/-- `c` lies in the subset. -/
def Subset.Has (g : Subset) (c : Nat) : Prop := g.1 ≤ c ∧ c < g.1 + g.2.length

/-- The row `r` is an encoding, by channel subsets, of the values `m 0, …, m (nc-1)`: the subsets are disjoint, lie
inside the `nc` channels, hold the values of `m`, and `m` vanishes elsewhere; channels are numbered from `first`;
all three arrays may be followed by arbitrary padding. -/
def Encodes (first : Int) (nc : Nat) (r : RmfRow) (m : Nat → ℝ) : Prop :=
  ∃ (gs : List Subset) (padF padN : List Int) (padM : List ℝ),
    r.nGrp = gs.length ∧
    r.fChan = gs.map (fun g => first + ((g.1 : Nat) : Int)) ++ padF ∧
    r.nChan = gs.map (fun g => ((g.2.length : Nat) : Int)) ++ padN ∧
    r.matrix = (gs.map (·.2)).flatten ++ padM ∧
    (∀ g ∈ gs, g.1 + g.2.length ≤ nc) ∧
    gs.Pairwise (fun g h => ∀ c, ¬ (Subset.Has g c ∧ Subset.Has h c)) ∧
    (∀ g ∈ gs, ∀ (k : Nat) v, g.2[k]? = some v → m (g.1 + k) = v) ∧
    (∀ c < nc, (∀ g ∈ gs, ¬ Subset.Has g c) → m c = 0)

/-- sum of the values whose column is `c` -/
def colSum (cols : List Int) (vals : List ℝ) (c : Int) : ℝ :=
  (((List.zip cols vals).filter fun e => e.1 == c).map (·.2)).sum

theorem colSum_append {c1 c2 : List Int} {v1 v2 : List ℝ} (h : c1.length = v1.length) (c : Int) :
    colSum (c1 ++ c2) (v1 ++ v2) c = colSum c1 v1 c + colSum c2 v2 c := by
  unfold colSum
  rw [List.zip_append h, List.filter_append, List.map_append, List.sum_append]

theorem arange_length (s : Int) (w : Nat) : (arange s ((w : Nat) : Int)).length = w := by simp [arange]

theorem arange_succ (s : Int) (w : Nat) : arange s ((w + 1 : Nat) : Int) = s :: arange (s + 1) ((w : Nat) : Int) := by
  unfold arange
  simp only [Int.toNat_natCast]
  rw [List.range_succ_eq_map, List.map_cons, List.map_map]
  simp only [Nat.cast_zero, add_zero, List.cons.injEq, true_and]
  apply List.map_congr_left
  intro k _
  simp only [Function.comp_apply, Nat.cast_succ]; ring

theorem mem_arange {s : Int} {w : Nat} {c : Int} : c ∈ arange s ((w : Nat) : Int) ↔ s ≤ c ∧ c < s + w := by
  unfold arange
  simp only [Int.toNat_natCast, List.mem_map, List.mem_range]
  constructor
  · rintro ⟨k, hk, rfl⟩; omega
  · rintro ⟨h1, h2⟩; exact ⟨(c - s).toNat, by omega, by omega⟩

theorem colSum_arange (vals : List ℝ) (s c : Int) :
    colSum (arange s ((vals.length : Nat) : Int)) vals c =
      if s ≤ c ∧ c < s + vals.length then vals.getD (c - s).toNat 0 else 0 := by
  induction vals generalizing s with
  | nil => simp [colSum]
  | cons v vs ih =>
    rw [List.length_cons, arange_succ]
    have hc : colSum (s :: arange (s + 1) ((vs.length : Nat) : Int)) (v :: vs) c =
        (if s = c then v else 0) + colSum (arange (s + 1) ((vs.length : Nat) : Int)) vs c := by
      unfold colSum
      rw [List.zip_cons_cons, List.filter_cons]
      by_cases h : s = c
      · simp [h]
      · simp [h]
    rw [hc, ih]
    by_cases h : s = c
    · subst h
      rw [if_pos rfl, if_neg (by omega), if_pos (by push_cast; omega)]
      simp
    · rw [if_neg h, zero_add]
      by_cases h2 : s + 1 ≤ c ∧ c < s + 1 + vs.length
      · rw [if_pos h2, if_pos (by push_cast; omega)]
        have : (c - s).toNat = (c - (s + 1)).toNat + 1 := by omega
        rw [this, List.getD_cons_succ]
      · rw [if_neg h2, if_neg (by push_cast; omega)]

/-- columns and values of the subsets of a row -/
def gCols (gs : List Subset) : List Int := (gs.map fun g => arange ((g.1 : Nat) : Int) ((g.2.length : Nat) : Int)).flatten

theorem gCols_length (gs : List Subset) : (gCols gs).length = ((gs.map (·.2)).flatten).length := by
  induction gs with
  | nil => rfl
  | cons g gs ih =>
    unfold gCols at ih ⊢
    rw [List.map_cons, List.flatten_cons, List.map_cons, List.flatten_cons, List.length_append, List.length_append, ih,
      arange_length]

theorem gCols_sum (gs : List Subset) (c : Nat) (m : Nat → ℝ)
    (hd : gs.Pairwise (fun g h => ∀ c, ¬ (Subset.Has g c ∧ Subset.Has h c)))
    (hv : ∀ g ∈ gs, ∀ (k : Nat) v, g.2[k]? = some v → m (g.1 + k) = v) :
    ((∃ g ∈ gs, Subset.Has g c) → colSum (gCols gs) (gs.map (·.2)).flatten ((c : Nat) : Int) = m c) ∧
    ((∀ g ∈ gs, ¬ Subset.Has g c) → colSum (gCols gs) (gs.map (·.2)).flatten ((c : Nat) : Int) = 0) := by
  induction gs with
  | nil => simp [gCols, colSum]
  | cons g gs ih =>
    rw [List.pairwise_cons] at hd
    obtain ⟨ih1, ih2⟩ := ih hd.2 (fun g hg => hv g (List.mem_cons_of_mem _ hg))
    have hsplit : colSum (gCols (g :: gs)) ((g :: gs).map (·.2)).flatten ((c : Nat) : Int) =
        colSum (arange ((g.1 : Nat) : Int) ((g.2.length : Nat) : Int)) g.2 ((c : Nat) : Int) +
          colSum (gCols gs) (gs.map (·.2)).flatten ((c : Nat) : Int) := by
      rw [← colSum_append (arange_length _ _)]
      simp [gCols]
    rw [hsplit, colSum_arange]
    by_cases hg : Subset.Has g c
    · have hrest : ∀ g' ∈ gs, ¬ Subset.Has g' c := fun g' hg' h => hd.1 g' hg' c ⟨hg, h⟩
      rw [ih2 hrest, add_zero]
      refine ⟨fun _ => ?_, fun h => absurd hg (h g List.mem_cons_self)⟩
      have hg' := hg
      unfold Subset.Has at hg'
      rw [if_pos (by omega)]
      have hlt : c - g.1 < g.2.length := by omega
      have := hv g List.mem_cons_self (c - g.1) _ (List.getElem?_eq_getElem hlt)
      rw [show g.1 + (c - g.1) = c by omega] at this
      rw [this]
      have e : ((c : Int) - (g.1 : Int)).toNat = c - g.1 := by omega
      rw [e]
      simp [List.getD, List.getElem?_eq_getElem hlt]
    · have hg' := hg
      unfold Subset.Has at hg'
      rw [if_neg (by omega), zero_add]
      constructor
      · rintro ⟨g', hm, h⟩
        rcases List.mem_cons.1 hm with rfl | hm
        · exact absurd h hg
        · exact ih1 ⟨g', hm, h⟩
      · intro h
        exact ih2 fun g' hg' => h g' (List.mem_cons_of_mem _ hg')

theorem sum_lengths (gs : List Subset) :
    (gs.map (fun g => ((g.2.length : Nat) : Int))).sum = (((gs.map (·.2)).flatten.length : Nat) : Int) := by
  induction gs with
  | nil => rfl
  | cons g gs ih => rw [List.map_cons, List.sum_cons, ih, List.map_cons, List.flatten_cons, List.length_append]; push_cast; rfl

theorem zip_arange (gs : List Subset) :
    ((List.zip (gs.map fun g => ((g.1 : Nat) : Int)) (gs.map fun g => ((g.2.length : Nat) : Int))).map
      fun p => arange p.1 p.2) = gs.map fun g => arange ((g.1 : Nat) : Int) ((g.2.length : Nat) : Int) := by
  induction gs with
  | nil => rfl
  | cons g gs ih => simp only [List.map_cons, List.zip_cons_cons, ih]

/-- one encoded row -/
theorem rmfRow_encodes {first : Int} {nc : Nat} {r : RmfRow} {m : Nat → ℝ} (h : Encodes first nc r m) (i : Nat) :
    ∃ cols vals, rmfRow first i r = .ok ⟨List.replicate vals.length i, cols, vals⟩ ∧ cols.length = vals.length ∧
      (∀ c ∈ cols, 0 ≤ c ∧ c < (nc : Int)) ∧ ∀ c < nc, colSum cols vals ((c : Nat) : Int) = m c := by
  obtain ⟨gs, padF, padN, padM, h1, h2, h3, h4, h5, h6, h7, h8⟩ := h
  refine ⟨gCols gs, (gs.map (·.2)).flatten, ?_, gCols_length gs, ?_, ?_⟩
  · unfold rmfRow
    by_cases h0 : gs.length = 0
    · have hgs : gs = [] := List.length_eq_zero_iff.1 h0
      subst hgs
      rw [if_pos (by rw [h1]; simp)]
      simp [gCols]
    · rw [if_neg (by rw [h1]; omega)]
      have hn : r.nGrp.toNat = gs.length := by rw [h1]; simp
      have hf : (r.fChan.map (· - first)).take r.nGrp.toNat = gs.map fun g => ((g.1 : Nat) : Int) := by
        rw [hn, h2, List.map_append, List.map_map, List.take_append_of_le_length (by simp)]
        rw [List.take_of_length_le (by simp)]
        apply List.map_congr_left
        intro g _; simp
      have hw : r.nChan.take r.nGrp.toNat = gs.map fun g => ((g.2.length : Nat) : Int) := by
        rw [hn, h3, List.take_append_of_le_length (by simp), List.take_of_length_le (by simp)]
      simp only [hf, hw]
      rw [if_neg (by simp [hn]), sum_lengths]
      by_cases hz : (gs.map (·.2)).flatten.length = 0
      · rw [if_pos (by omega)]
        have hv0 : (gs.map (·.2)).flatten = [] := List.length_eq_zero_iff.1 hz
        have hc0 : gCols gs = [] := List.length_eq_zero_iff.1 (by rw [gCols_length, hz])
        rw [hv0, hc0]; rfl
      · rw [if_neg (by omega), if_neg (by rw [h4, List.length_append]; push_cast; omega)]
        rw [zip_arange, Int.toNat_natCast, h4, List.take_append_of_le_length (le_refl _), List.take_of_length_le (le_refl _)]
        rfl
  · intro c hc
    unfold gCols at hc
    rw [List.mem_flatten] at hc
    obtain ⟨l, hl, hc⟩ := hc
    rw [List.mem_map] at hl
    obtain ⟨g, hg, rfl⟩ := hl
    rw [mem_arange] at hc
    have := h5 g hg
    omega
  · intro c hc
    obtain ⟨k1, k2⟩ := gCols_sum gs c m h6 h7
    by_cases hx : ∃ g ∈ gs, Subset.Has g c
    · exact k1 hx
    · push Not at hx
      rw [k2 hx, h8 c hc hx]

theorem at_append {a b : Coo} (h1 : a.rows.length = a.vals.length) (h2 : a.cols.length = a.vals.length) (i : Nat)
    (c : Int) :
    Coo.at ⟨a.rows ++ b.rows, a.cols ++ b.cols, a.vals ++ b.vals⟩ i c = a.at i c + b.at i c := by
  unfold Coo.at
  simp only
  rw [List.zip_append h2, List.zip_append (by rw [List.length_zip, h1, h2, min_self]), List.filter_append,
    List.map_append, List.sum_append]

theorem at_row (i j : Nat) (cols : List Int) (vals : List ℝ) (c : Int) (h : cols.length = vals.length) :
    Coo.at ⟨List.replicate vals.length i, cols, vals⟩ j c = if j = i then colSum cols vals c else 0 := by
  unfold Coo.at colSum
  induction vals generalizing cols with
  | nil => simp
  | cons v vs ih =>
    cases cols with
    | nil => simp at h
    | cons c0 cs =>
      have := ih cs (by simpa using h)
      simp only [List.length_cons, List.replicate_succ, List.zip_cons_cons, List.filter_cons] at this ⊢
      by_cases hj : j = i
      · subst hj
        rw [if_pos rfl] at this ⊢
        by_cases hc : c0 = c
        · simp [hc]; simpa using this
        · simp [hc]; simpa using this
      · rw [if_neg hj] at this ⊢
        have hji : (i == j) = false := by simp; omega
        simp only [hji, Bool.false_and, Bool.false_eq_true, if_false] at this ⊢
        exact this

theorem rmfRows_encodes {first : Int} {nc : Nat} (rows : List RmfRow) (m : Nat → Nat → ℝ) (i : Nat)
    (h : ∀ (k : Nat) r, rows[k]? = some r → Encodes first nc r (m k)) :
    ∃ coo, rmfRows first i rows = .ok coo ∧ coo.rows.length = coo.vals.length ∧ coo.cols.length = coo.vals.length ∧
      (∀ x ∈ coo.rows, i ≤ x ∧ x < i + rows.length) ∧ (∀ c ∈ coo.cols, 0 ≤ c ∧ c < (nc : Int)) ∧
      (∀ k < rows.length, ∀ c < nc, coo.at (i + k) ((c : Nat) : Int) = m k c) ∧
      (∀ j < i, ∀ c, coo.at j c = 0) := by
  induction rows generalizing i m with
  | nil =>
    refine ⟨⟨[], [], []⟩, rfl, rfl, rfl, by simp, by simp, fun k hk => absurd hk (Nat.not_lt_zero _), ?_⟩
    intro j _ c; simp [Coo.at]
  | cons r rs ih =>
    obtain ⟨cols, vals, e1, e2, e3, e4⟩ := rmfRow_encodes (h 0 r rfl) i
    obtain ⟨b, b1, b2, b3, b4, b5, b6, b7⟩ := ih (fun k => m (k + 1)) (i + 1) (fun k r' hk => h (k + 1) r' (by simpa using hk))
    refine ⟨⟨List.replicate vals.length i ++ b.rows, cols ++ b.cols, vals ++ b.vals⟩, ?_, ?_, ?_, ?_, ?_, ?_, ?_⟩
    · simp only [rmfRows, e1, b1, bind, Except.bind, pure, Except.pure]
    · simp [b2]
    · simp [b3, e2]
    · intro x hx
      rw [List.mem_append] at hx
      rcases hx with hx | hx
      · rw [List.mem_replicate] at hx; rw [hx.2, List.length_cons]; omega
      · have := b4 x hx; rw [List.length_cons]; omega
    · intro c hc
      rw [List.mem_append] at hc
      rcases hc with hc | hc
      · exact e3 c hc
      · exact b5 c hc
    · intro k hk c hc
      have hs := at_append (a := ⟨List.replicate vals.length i, cols, vals⟩) (b := b) (by simp) e2 (i + k) ((c : Nat) : Int)
      simp only at hs
      rw [hs, at_row _ _ _ _ _ e2]
      cases k with
      | zero =>
        rw [if_pos (by omega), e4 c hc, b7 _ (by omega), add_zero]
      | succ k =>
        rw [if_neg (by omega), zero_add]
        have := b6 k (by simpa using hk) c hc
        rw [show i + 1 + k = i + (k + 1) by omega] at this
        exact this
    · intro j hj c
      have hs := at_append (a := ⟨List.replicate vals.length i, cols, vals⟩) (b := b) (by simp) e2 j c
      simp only at hs
      rw [hs, at_row _ _ _ _ _ e2, if_neg (by omega), zero_add]
      exact b7 j (by omega) c

/-- **C20** (decoding).  For every redistribution matrix `m`, however its rows are encoded in channel subsets and
padded, reading the rows gives back the matrix entry by entry. -/
theorem C20_decode (nc : Nat) (tlmin : Option Int) (rows : List RmfRow) (m : Nat → Nat → ℝ)
    (h : ∀ (k : Nat) r, rows[k]? = some r → Encodes (tlmin.getD 1) nc r (m k)) :
    readMatrix (some nc) tlmin rows =
      .ok ((List.range rows.length).map fun k => (List.range nc).map fun c => m k c) := by
  obtain ⟨coo, h1, h2, h3, h4, h5, h6, _⟩ := rmfRows_encodes rows m 0 h
  simp only [readMatrix, h1, bind, Except.bind]
  unfold cooArray
  rw [if_neg (by rw [h2, h3]; simp), if_neg, if_neg]
  · congr 1
    apply List.map_congr_left
    intro k hk
    apply List.map_congr_left
    intro c hc
    have := h6 k (List.mem_range.1 hk) c (List.mem_range.1 hc)
    rw [Nat.zero_add] at this
    exact this
  · simp only [List.any_eq_true, Bool.or_eq_true, decide_eq_true_eq, not_exists, not_and]
    intro c hc
    have := h5 c hc
    omega
  · simp only [List.any_eq_true, decide_eq_true_eq, not_exists, not_and]
    intro c hc
    have := h4 c hc
    omega

/-- **C20** (every matrix has such an encoding: for instance one subset with all channels, padded by anything). -/
theorem C20_encodable (first : Int) (row : List ℝ) (padF padN : List Int) (padM : List ℝ) :
    Encodes first row.length ⟨1, first :: padF, ((row.length : Nat) : Int) :: padN, row ++ padM⟩ (fun c => row.getD c 0) := by
  refine ⟨[(0, row)], padF, padN, padM, by simp, by simp, by simp, by simp, by simp, by simp, ?_, ?_⟩
  · intro g hg k v hv
    simp only [List.mem_singleton] at hg
    subst hg
    simp only at hv
    simp [List.getD, hv]
  · intro c hc h
    exact absurd ⟨Nat.zero_le _, by simpa using hc⟩ (h (0, row) (by simp))

/-- a row with two separated subsets, padding, and channels numbered from 0 -/
example : readMatrix (some 5) (some 0) [⟨2, [1, 4, 0], [2, 1, 7], [10, 20, 30, 99]⟩, ⟨0, [0], [0], [0]⟩] =
    .ok [[0, 10, 20, 0, 30], [0, 0, 0, 0, 0]] := by
  have h := C20_decode 5 (some 0) [⟨2, [1, 4, 0], [2, 1, 7], [10, 20, 30, 99]⟩, ⟨0, [0], [0], [0]⟩]
    (fun k c => if k = 0 then (([0, 10, 20, 0, 30] : List ℝ).getD c 0) else 0) (by
      intro k r hr
      match k, hr with
      | 0, hr =>
        simp only [List.getElem?_cons_zero, Option.some.injEq] at hr
        subst hr
        refine ⟨[(1, [10, 20]), (4, [30])], [0], [7], [99], by simp, by simp, by simp, by simp, by simp, ?_, ?_, ?_⟩
        · simp only [List.pairwise_cons, List.mem_singleton, forall_eq, Subset.Has, List.length_cons, List.length_nil,
            List.not_mem_nil, false_implies, implies_true, List.Pairwise.nil, and_true]
          intro c; omega
        · intro g hg k v hv
          simp only [List.mem_cons, List.not_mem_nil, or_false] at hg
          rcases hg with rfl | rfl
          · match k, hv with
            | 0, hv => simpa using hv
            | 1, hv => simpa using hv
          · match k, hv with
            | 0, hv => simpa using hv
        · intro c hc hg
          have h1 := hg (1, [10, 20]) (by simp)
          have h2 := hg (4, [30]) (by simp)
          simp only [Subset.Has, List.length_cons, List.length_nil] at h1 h2
          have : c = 0 ∨ c = 3 := by omega
          rcases this with rfl | rfl <;> simp
      | 1, hr =>
        simp only [List.getElem?_cons_succ, List.getElem?_cons_zero, Option.some.injEq] at hr
        subst hr
        exact ⟨[], [0], [0], [0], by simp, by simp, by simp, by simp, by simp, by simp, by simp, by simp⟩)
  rw [h]
  simp [List.range_succ]

theorem rmfRows_error {first : Int} (rows : List RmfRow) (i k : Nat) (r : RmfRow) (hk : rows[k]? = some r)
    (h : ∀ j, rmfRow first j r = .error .valueError) (hall : ∀ j r', rmfRow first j r' = .error .valueError ∨
      ∃ c, rmfRow first j r' = .ok c) : rmfRows first i rows = .error .valueError := by
  induction rows generalizing i k with
  | nil => simp at hk
  | cons r' rs ih =>
    simp only [rmfRows]
    cases k with
    | zero =>
      simp only [List.getElem?_cons_zero, Option.some.injEq] at hk
      rw [hk, h i]; rfl
    | succ k =>
      have := ih (i + 1) k (by simpa using hk)
      rcases hall i r' with e | ⟨c, e⟩
      · rw [e]; rfl
      · rw [e, this]; rfl

theorem rmfRow_cases (first : Int) (j : Nat) (r : RmfRow) :
    rmfRow first j r = .error .valueError ∨ ∃ c, rmfRow first j r = .ok c := by
  unfold rmfRow
  simp only
  split
  · right; exact ⟨_, rfl⟩
  · split
    · left; rfl
    · split
      · right; exact ⟨_, rfl⟩
      · split
        · left; rfl
        · right; exact ⟨_, rfl⟩

/-- **C20** (truncated rows are rejected): a response in which some row announces more subsets than it lists, or more
matrix elements than it holds, is refused with a `ValueError`. -/
theorem C20_truncated (nc : Nat) (tlmin : Option Int) (rows : List RmfRow) (k : Nat) (r : RmfRow)
    (hk : rows[k]? = some r) (hpos : 0 < r.nGrp)
    (h : (r.fChan.length : Int) < r.nGrp ∨ (r.nChan.length : Int) < r.nGrp ∨
      (r.matrix.length : Int) < (r.nChan.take r.nGrp.toNat).sum) :
    readMatrix (some nc) tlmin rows = .error .valueError := by
  have hr : ∀ j, rmfRow (tlmin.getD 1) j r = .error .valueError := by
    intro j
    unfold rmfRow
    rw [if_neg (by omega)]
    simp only
    split
    · rfl
    · rename_i hne
      simp only [List.length_take, List.length_map] at hne
      push Not at hne
      have h3 : (r.matrix.length : Int) < (r.nChan.take r.nGrp.toNat).sum := by
        rcases h with h | h | h
        · omega
        · omega
        · exact h
      rw [if_neg (by omega), if_pos h3]
  simp only [readMatrix, rmfRows_error rows 0 k r hk hr (rmfRow_cases _), bind, Except.bind]

example : readMatrix (some 3) none [⟨1, [1], [2], [5]⟩] = .error .valueError :=
  C20_truncated 3 none _ 0 _ rfl (by norm_num) (by right; right; norm_num)

/-- **C20** (effective area): the product with an ancillary response multiplies row `k` by its `k`-th entry; a
response and an ancillary response of different sizes are refused. -/
theorem C20_arf (M : List (List ℝ)) (arf : List ℝ) :
    (arf.length ≠ M.length → applyArf M (some arf) = .error .valueError) ∧
    (arf.length = M.length → ∃ M', applyArf M (some arf) = .ok M' ∧ M'.length = M.length ∧
      ∀ (k : Nat) row a, M[k]? = some row → arf[k]? = some a → M'[k]? = some (row.map (· * a))) ∧
    applyArf M none = .ok M := by
  refine ⟨fun h => by simp only [applyArf]; rw [if_pos h], fun h => ?_, rfl⟩
  refine ⟨_, by simp only [applyArf]; rw [if_neg (by simpa using h)], by simp [h], ?_⟩
  intro k row a h1 h2
  rw [List.getElem?_zipWith, h1, h2]

end Elisa.Data
