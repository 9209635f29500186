import Verif.Data.Fwhm
import Verif.Grouping.Binning
import Mathlib.Tactic.Linarith
import Mathlib.Tactic.IntervalCases
import Mathlib.Tactic.NormNum

/-!
# C85: the resolution of a response
-/

namespace Elisa.Data

open Elisa

section Spec

/-- `a` is the first channel at which the row is largest. -/
def PeakAt (row : List ℝ) (a : Nat) : Prop :=
  a < row.length ∧ (∀ c, c < row.length → row.getD c 0 ≤ row.getD a 0) ∧ ∀ c, c < a → row.getD c 0 < row.getD a 0

/-- `lo` is the nearest channel before `a` at or below the level `h`. -/
def LeftEdge (row : List ℝ) (h : ℝ) (a lo : Nat) : Prop :=
  lo < a ∧ row.getD lo 0 ≤ h ∧ ∀ c, lo < c → c < a → h < row.getD c 0

/-- `hi` is the nearest channel after `a` at or below the level `h`. -/
def RightEdge (row : List ℝ) (h : ℝ) (a hi : Nat) : Prop :=
  a < hi ∧ hi < row.length ∧ row.getD hi 0 ≤ h ∧ ∀ c, a < c → c < hi → h < row.getD c 0

end Spec

section Lemmas

theorem last_filter_range (p : Nat → Bool) (a : Nat) (h : (List.range a).filter p ≠ []) :
    ∃ lo, ((List.range a).filter p).getD (((List.range a).filter p).length - 1) 0 = lo ∧ lo < a ∧ p lo = true ∧
      ∀ c, lo < c → c < a → p c = false := by
  induction a with
  | zero => simp at h
  | succ a ih =>
    rw [List.range_succ, List.filter_append] at *
    cases hp : p a with
    | true =>
      refine ⟨a, ?_, by omega, hp, fun c h1 h2 => by omega⟩
      simp [hp, List.getD]
    | false =>
      have e : [a].filter p = [] := by simp [hp]
      rw [e, List.append_nil] at h ⊢
      obtain ⟨lo, h1, h2, h3, h4⟩ := ih h
      refine ⟨lo, h1, by omega, h3, fun c hc hc' => ?_⟩
      rcases Nat.lt_or_ge c a with h | h
      · exact h4 c hc h
      · rw [show c = a by omega]; exact hp

theorem head_filter_range' (p : Nat → Bool) (m a : Nat) (h : (List.range' a m).filter p ≠ []) :
    ∃ hi, ((List.range' a m).filter p).getD 0 0 = hi ∧ a ≤ hi ∧ hi < a + m ∧ p hi = true ∧ ∀ c, a ≤ c → c < hi → p c = false := by
  induction m generalizing a with
  | zero => simp at h
  | succ m ih =>
    rw [List.range'_succ] at *
    cases hp : p a with
    | true =>
      rw [List.filter_cons_of_pos hp]
      exact ⟨a, by simp, le_refl _, by omega, hp, fun c h1 h2 => by omega⟩
    | false =>
      rw [List.filter_cons_of_neg (by simp [hp])] at *
      obtain ⟨hi, h1, h2, h3, h4, h5⟩ := ih (a + 1) h
      refine ⟨hi, h1, by omega, by omega, h4, fun c hc hc' => ?_⟩
      rcases Nat.lt_or_ge a c with h | h
      · exact h5 c h hc'
      · rw [show c = a by omega]; exact hp

theorem range_split (n a : Nat) (h : a ≤ n) : List.range n = List.range a ++ List.range' a (n - a) := by
  obtain ⟨m, rfl⟩ := Nat.exists_eq_add_of_le h
  rw [List.range_eq_range', List.range_eq_range', Nat.add_sub_cancel_left, ← List.range'_append_1, Nat.zero_add]

theorem searchLeft_eq (p : Nat → Bool) (n a : Nat) (h : a ≤ n) :
    searchLeft ((List.range n).filter p) a = ((List.range a).filter p).length := by
  unfold searchLeft
  rw [range_split n a h, List.filter_append, List.countP_append]
  rw [List.countP_eq_length.2, List.countP_eq_zero.2]
  · rfl
  · intro x hx
    have := (List.mem_filter.1 hx).1
    rw [List.mem_range'_1] at this
    simp; omega
  · intro x hx
    have := (List.mem_filter.1 hx).1
    rw [List.mem_range] at this
    simpa using this

theorem lowHigh_left (row : List ℝ) (half : ℝ) (a : Nat) (ha : rowArgmax row = a) (hlen : a < row.length)
    (h0 : row.getD 0 0 ≤ half) (hpos : 0 < a) : ∃ lo : Nat, (lowHigh row half).1 = lo ∧ LeftEdge row half a lo := by
  set p : Nat → Bool := fun c => decide (row.getD c 0 ≤ half) with hp
  have hidx : belowHalf row half = (List.range row.length).filter p := rfl
  have hk := searchLeft_eq p row.length a hlen.le
  have hne : (List.range a).filter p ≠ [] := by
    intro he
    have : (0 : Nat) ∈ (List.range a).filter p := List.mem_filter.2 ⟨List.mem_range.2 hpos, by simpa [hp] using h0⟩
    rw [he] at this; simp at this
  have hlpos : 0 < ((List.range a).filter p).length := List.length_pos_iff.2 hne
  obtain ⟨lo, h1, h2, h3, h4⟩ := last_filter_range p a hne
  refine ⟨lo, ?_, h2, by simpa [hp] using h3, fun c hc hc' => by simpa [hp] using h4 c hc hc'⟩
  unfold lowHigh
  simp only [ha, hidx, hk, hlpos, if_true]
  rw [range_split row.length a hlen.le, List.filter_append, List.getD_append _ _ _ _ (by omega), h1]

theorem lowHigh_right (row : List ℝ) (half : ℝ) (a : Nat) (ha : rowArgmax row = a) (hlen : a < row.length) (hpa : half < row.getD a 0)
    (h0 : row.getD (row.length - 1) 0 ≤ half) : ∃ hi : Nat, (lowHigh row half).2 = hi ∧ RightEdge row half a hi := by
  set p : Nat → Bool := fun c => decide (row.getD c 0 ≤ half) with hp
  have hidx : belowHalf row half = (List.range row.length).filter p := rfl
  have hk := searchLeft_eq p row.length a hlen.le
  have hsplit : (List.range row.length).filter p = (List.range a).filter p ++ (List.range' a (row.length - a)).filter p := by
    rw [range_split row.length a hlen.le, List.filter_append]
  have hne : (List.range' a (row.length - a)).filter p ≠ [] := by
    intro he
    have : (row.length - 1) ∈ (List.range' a (row.length - a)).filter p :=
      List.mem_filter.2 ⟨List.mem_range'_1.2 ⟨by omega, by omega⟩, by simpa [hp] using h0⟩
    rw [he] at this; simp at this
  obtain ⟨hi, h1, h2, h3, h4, h5⟩ := head_filter_range' p _ a hne
  have hlt : ((List.range a).filter p).length < ((List.range row.length).filter p).length := by
    rw [hsplit, List.length_append]
    have := List.length_pos_iff.2 hne
    omega
  have hne' : a ≠ hi := by
    rintro rfl
    have : row.getD a 0 ≤ half := by simpa [hp] using h4
    linarith
  refine ⟨hi, ?_, by omega, by omega, by simpa [hp] using h4, fun c hc hc' => by simpa [hp] using h5 c hc.le hc'⟩
  unfold lowHigh
  simp only [ha, hidx, hk, hlt, if_true]
  rw [hsplit, List.getD_append_right _ _ _ _ (le_refl _), Nat.sub_self, h1]

theorem argmax_spec (row : List ℝ) (h : row ≠ []) : PeakAt row (rowArgmax row) := by
  have hex : ∃ x ∈ row, decide (∀ y ∈ row, y ≤ x) = true := by
    obtain ⟨x, hx, hm⟩ : ∃ x ∈ row, ∀ y ∈ row, y ≤ x := by
      induction row with
      | nil => exact absurd rfl h
      | cons a l ih =>
        by_cases hl : l = []
        · subst hl; exact ⟨a, by simp, by simp⟩
        · obtain ⟨x, hx, hm⟩ := ih hl
          rcases le_total a x with hax | hax
          · exact ⟨x, List.mem_cons_of_mem _ hx, fun y hy => by
              rcases List.mem_cons.1 hy with rfl | hy
              · exact hax
              · exact hm y hy⟩
          · exact ⟨a, by simp, fun y hy => by
              rcases List.mem_cons.1 hy with rfl | hy
              · exact le_refl _
              · exact (hm y hy).trans hax⟩
    exact ⟨x, hx, by simpa using hm⟩
  have hlt : rowArgmax row < row.length := List.findIdx_lt_length_of_exists hex
  have hmax : ∀ y ∈ row, y ≤ row[rowArgmax row]'hlt := by
    have := List.findIdx_getElem (xs := row) (p := fun x => decide (∀ y ∈ row, y ≤ x)) (w := hlt)
    rw [decide_eq_true_eq] at this
    exact this
  have hg : ∀ c (hc : c < row.length), row.getD c 0 = row[c] := fun c hc => by simp [List.getD, hc]
  refine ⟨hlt, fun c hc => ?_, fun c hc => ?_⟩
  · rw [hg c hc, hg _ hlt]
    exact hmax _ (List.getElem_mem hc)
  · have hcl : c < row.length := by omega
    have hn := List.not_of_lt_findIdx (xs := row) (p := fun x => decide (∀ y ∈ row, y ≤ x)) hc
    rw [hg c hcl, hg _ hlt]
    refine lt_of_le_of_ne (hmax _ (List.getElem_mem hcl)) fun he => ?_
    have : decide (∀ y ∈ row, y ≤ row[c]) = true := by
      simp only [decide_eq_true_eq]
      rw [he]; exact hmax
    rw [this] at hn; exact absurd hn (by simp)

theorem peak_unique {row : List ℝ} {a b : Nat} (ha : PeakAt row a) (hb : PeakAt row b) : a = b := by
  rcases Nat.lt_trichotomy a b with h | h | h
  · exact absurd (hb.2.2 a h) (not_lt.2 (ha.2.1 b hb.1))
  · exact h
  · exact absurd (ha.2.2 b h) (not_lt.2 (hb.2.1 a ha.1))

end Lemmas

/-- **C85 (FWHM of a photon energy).**  For a row whose peak (the first largest element) is positive: if the response falls to half the maximum on both sides,
the FWHM is the distance between the nearest channels at or below half the maximum on the two sides; if it does so at one end of the channels only,
twice the distance on that side; if at neither end, it is undefined (`-1`). -/
theorem C85_fwhm (row : List ℝ) (a : Nat) (hp : PeakAt row a) (hpos : 0 < row.getD a 0) :
    (row.getD 0 0 ≤ row.getD a 0 / 2 → row.getD (row.length - 1) 0 ≤ row.getD a 0 / 2 →
      ∃ lo hi, LeftEdge row (row.getD a 0 / 2) a lo ∧ RightEdge row (row.getD a 0 / 2) a hi ∧ rowFwhm row = (hi : Int) - lo) ∧
    (¬ row.getD 0 0 ≤ row.getD a 0 / 2 → row.getD (row.length - 1) 0 ≤ row.getD a 0 / 2 →
      ∃ hi, RightEdge row (row.getD a 0 / 2) a hi ∧ rowFwhm row = 2 * ((hi : Int) - a)) ∧
    (row.getD 0 0 ≤ row.getD a 0 / 2 → ¬ row.getD (row.length - 1) 0 ≤ row.getD a 0 / 2 →
      ∃ lo, LeftEdge row (row.getD a 0 / 2) a lo ∧ rowFwhm row = 2 * ((a : Int) - lo)) ∧
    (¬ row.getD 0 0 ≤ row.getD a 0 / 2 → ¬ row.getD (row.length - 1) 0 ≤ row.getD a 0 / 2 → rowFwhm row = -1) := by
  have hlen := hp.1
  have hne : row ≠ [] := by rintro rfl; simp at hlen
  have ha : rowArgmax row = a := peak_unique (argmax_spec row hne) hp
  have hhalf : (0.5 : ℝ) * row.getD a 0 = row.getD a 0 / 2 := by norm_num; ring
  set half := row.getD a 0 / 2 with hh
  have hpa : half < row.getD a 0 := by rw [hh]; linarith
  have hapos : row.getD 0 0 ≤ half → 0 < a := by
    intro h
    rcases Nat.eq_zero_or_pos a with rfl | h'
    · linarith
    · exact h'
  have clipN : ∀ x : Nat, x < row.length → clipIdx (x : Int) row.length = x := fun x hx => by unfold clipIdx; omega
  refine ⟨fun h0 h1 => ?_, fun h0 h1 => ?_, fun h0 h1 => ?_, fun h0 h1 => ?_⟩
  · obtain ⟨lo, hl, hle⟩ := lowHigh_left row half a ha hlen h0 (hapos h0)
    obtain ⟨hi, hr, hre⟩ := lowHigh_right row half a ha hlen hpa h1
    refine ⟨lo, hi, hle, hre, ?_⟩
    unfold rowFwhm
    simp only [ha, hhalf, hl, hr, clipN lo (by have := hle.1; omega), clipN hi hre.2.1, h0, h1, decide_true, if_true, Bool.or_true,
      bne_self_eq_false, Bool.false_eq_true, if_false]
    have := hle.1; have := hre.1
    omega
  · obtain ⟨hi, hr, hre⟩ := lowHigh_right row half a ha hlen hpa h1
    refine ⟨hi, hre, ?_⟩
    unfold rowFwhm
    simp only [ha, hhalf, hr, clipN hi hre.2.1, h0, h1, decide_true, decide_false, if_true, Bool.or_false, if_false, Bool.false_eq_true,
      Bool.true_bne, Bool.not_false]
    have := hre.1
    omega
  · obtain ⟨lo, hl, hle⟩ := lowHigh_left row half a ha hlen h0 (hapos h0)
    refine ⟨lo, hle, ?_⟩
    unfold rowFwhm
    simp only [ha, hhalf, hl, clipN lo (by have := hle.1; omega), h0, h1, decide_true, decide_false, if_true, Bool.or_true, if_false, Bool.false_eq_true,
      Bool.bne_true, Bool.not_false]
    have := hle.1
    omega
  · unfold rowFwhm
    simp only [ha, hhalf, h0, h1, decide_false, Bool.or_false, Bool.false_eq_true, if_false]

example : PeakAt [0, 1, 4, 3, 1] 2 ∧ 0 < ([0, 1, 4, 3, 1] : List ℝ).getD 2 0 := by
  refine ⟨⟨by simp, fun c hc => ?_, fun c hc => ?_⟩, by simp⟩
  · simp at hc
    interval_cases c <;> norm_num [List.getD]
  · interval_cases c <;> norm_num [List.getD]

/-- **C85 (rows without response).**  A photon energy the detector does not respond to gets one channel. -/
theorem C85_fwhm_zero (n : Nat) (hn : 0 < n) : rowFwhm (List.replicate n 0) = 1 := by
  have hne : List.replicate n (0 : ℝ) ≠ [] := by simp; omega
  have hg : ∀ c, (List.replicate n (0 : ℝ)).getD c 0 = 0 := by
    intro c
    rcases Nat.lt_or_ge c n with h | h
    · simp [List.getD, h]
    · simp [List.getD, h]
  have ha : rowArgmax (List.replicate n (0 : ℝ)) = 0 :=
    peak_unique (argmax_spec _ hne) ⟨by simpa using hn, fun c _ => by simp [hg], fun c hc => by omega⟩
  have hidx : belowHalf (List.replicate n (0 : ℝ)) 0 = List.range n := by
    unfold belowHalf
    rw [List.length_replicate, List.filter_eq_self]
    intro c _
    rw [hg c]
    simp
  have hlh : lowHigh (List.replicate n (0 : ℝ)) 0 = (-1, 0) := by
    unfold lowHigh
    simp [ha, hidx, searchLeft, hn, List.getD]
  unfold rowFwhm
  simp only [ha, hg, mul_zero, hlh, List.length_replicate, clipIdx]
  have h0 : decide ((0 : ℝ) ≤ 0) = true := by simp
  simp only [h0, if_true, Bool.or_true, bne_self_eq_false, Bool.false_eq_true, if_false]
  omega

example := C85_fwhm_zero 3 (by norm_num)

/-- **C85 (units).**  The FWHM does not depend on the unit of the response. -/
theorem C85_fwhm_units (k : ℝ) (hk : 0 < k) (row : List ℝ) (a : Nat) (hp : PeakAt row a) (hpos : 0 < row.getD a 0) :
    rowFwhm (row.map (k * ·)) = rowFwhm row := by
  have hg : ∀ c, (row.map (k * ·)).getD c 0 = k * row.getD c 0 := by
    intro c
    rcases Nat.lt_or_ge c row.length with h | h
    · simp [List.getD, h]
    · simp [List.getD, h]
  have hlen := hp.1
  have hne : row ≠ [] := by rintro rfl; simp at hlen
  have ha : rowArgmax row = a := peak_unique (argmax_spec row hne) hp
  have hp' : PeakAt (row.map (k * ·)) a := by
    refine ⟨by simpa using hlen, fun c hc => ?_, fun c hc => ?_⟩
    · rw [hg, hg]; exact mul_le_mul_of_nonneg_left (hp.2.1 c (by simpa using hc)) hk.le
    · rw [hg, hg]; exact mul_lt_mul_of_pos_left (hp.2.2 c hc) hk
  have ha' : rowArgmax (row.map (k * ·)) = a := peak_unique (argmax_spec _ (by simpa using hne)) hp'
  have hb : belowHalf (row.map (k * ·)) (0.5 * (k * row.getD a 0)) = belowHalf row (0.5 * row.getD a 0) := by
    unfold belowHalf
    rw [List.length_map]
    apply List.filter_congr
    intro c _
    rw [hg]
    have : k * row.getD c 0 ≤ 0.5 * (k * row.getD a 0) ↔ row.getD c 0 ≤ 0.5 * row.getD a 0 := by
      rw [show (0.5 : ℝ) * (k * row.getD a 0) = k * (0.5 * row.getD a 0) by ring]
      exact mul_le_mul_iff_right₀ hk
    simp only [this]
  have hc : ∀ c, (k * row.getD c 0 ≤ 0.5 * (k * row.getD a 0)) ↔ row.getD c 0 ≤ 0.5 * row.getD a 0 := by
    intro c
    rw [show (0.5 : ℝ) * (k * row.getD a 0) = k * (0.5 * row.getD a 0) by ring]
    exact mul_le_mul_iff_right₀ hk
  unfold rowFwhm lowHigh
  simp only [ha, ha', hg, hb, hc, List.length_map]

example := C85_fwhm_units 10 (by norm_num) [0, 1, 4, 3, 1] 2 (by
  refine ⟨by simp, fun c hc => ?_, fun c hc => ?_⟩
  · simp at hc
    interval_cases c <;> norm_num [List.getD]
  · interval_cases c <;> norm_num [List.getD]) (by simp)

/-- **C85 (which resolution a channel gets).**  A channel gets the FWHM of the photon bin its mid energy is in (lower edge exclusive, upper edge
inclusive), and that of the nearest bin if it is outside the photon energies. -/
theorem C85_channel (egrid : List ℝ) (hs : egrid.Pairwise (· < ·)) (matrix : List (List ℝ)) (hn : egrid.length = matrix.length + 1)
    (hm : 0 < matrix.length) (channels : List (ℝ × ℝ)) (c : Nat) (hc : c < channels.length) :
    ∃ i, i < matrix.length ∧ (channelFwhm egrid matrix channels)[c]? = (matrix[i]?.map rowFwhm) ∧
      let mid := (channels[c].1 + channels[c].2) / 2
      ((∀ e ∈ egrid, mid ≤ e) → i = 0) ∧ ((∀ e ∈ egrid, e < mid) → i = matrix.length - 1) ∧
      ∀ j, egrid.getD j 0 < mid → mid ≤ egrid.getD (j + 1) 0 → j + 1 < egrid.length → i = j := by
  set mid := (channels[c].1 + channels[c].2) / 2 with hmid
  have hlt : photonBin egrid matrix.length mid < matrix.length := by unfold photonBin; omega
  refine ⟨photonBin egrid matrix.length mid, hlt, ?_, ?_⟩
  · unfold channelFwhm
    simp only [List.getElem?_map, List.getElem?_eq_getElem hc, Option.map_some, List.length_map]
    rw [← hmid, List.getD, List.getElem?_map, List.getElem?_eq_getElem hlt]
    rfl
  · simp only
    refine ⟨fun h => ?_, fun h => ?_, fun j h1 h2 hj => ?_⟩
    · have : egrid.countP (fun e => decide (e < mid)) = 0 := by
        rw [List.countP_eq_zero]
        intro e he
        simpa using h e he
      unfold photonBin
      rw [this]; omega
    · have : egrid.countP (fun e => decide (e < mid)) = egrid.length := by
        rw [List.countP_eq_length]
        intro e he
        simpa using h e he
      unfold photonBin
      rw [this]; omega
    · have hcnt : egrid.countP (fun e => decide (e < mid)) = j + 1 := by
        have hsp : egrid = egrid.take (j + 1) ++ egrid.drop (j + 1) := (List.take_append_drop _ _).symm
        have hg : ∀ i (hi : i < egrid.length), egrid.getD i 0 = egrid[i] := fun i hi => by simp [List.getD, hi]
        have hmono : ∀ i i' (hi : i < egrid.length) (hi' : i' < egrid.length), i ≤ i' → egrid[i] ≤ egrid[i'] := by
          intro i i' hi hi' hle
          rcases Nat.eq_or_lt_of_le hle with rfl | hlt
          · exact le_refl _
          · exact ((List.pairwise_iff_getElem.1 hs) i i' hi hi' hlt).le
        rw [hsp, List.countP_append, List.countP_eq_length.2, List.countP_eq_zero.2]
        · simp; omega
        · intro e he
          obtain ⟨i, hi, rfl⟩ := List.getElem_of_mem he
          simp only [List.getElem_drop, decide_eq_true_eq, not_lt]
          rw [List.length_drop] at hi
          rw [hg _ hj] at h2
          exact h2.trans (hmono _ _ hj (by omega) (by omega))
        · intro e he
          obtain ⟨i, hi, rfl⟩ := List.getElem_of_mem he
          simp only [List.getElem_take, decide_eq_true_eq]
          rw [List.length_take] at hi
          rw [hg _ (by omega)] at h1
          exact lt_of_le_of_lt (hmono _ _ (by omega) (by omega) (by omega)) h1
      unfold photonBin
      rw [hcnt]; omega

example : ([1, 2, 4] : List ℝ).Pairwise (· < ·) := by norm_num

/-- **C85 (undefined resolution, refuted).**  The optimal binning is meant to use bins narrower than the resolution where there are many counts
(Kaastra & Bleeker); a response with enough rows of undefined FWHM switches this off: here the widths do not depend on the counts
at all. -/
theorem C85_binning_refuted : ∃ matrix : List (List ℝ), matrix.map rowFwhm = [-1, -1, -1, 2] ∧
    ∀ counts : List ℝ, Grouping.calcOptimalBinning ((matrix.map rowFwhm).map (fun x : Int => (x : ℝ))) counts = [1, 1, 1, 2] := by
  have hflat : rowFwhm [1, 1, 1] = -1 := by
    have h := (C85_fwhm [1, 1, 1] 0 ⟨by simp, fun c hc => by simp at hc; interval_cases c <;> norm_num [List.getD],
      fun c hc => by omega⟩ (by simp)).2.2.2
    exact h (by norm_num [List.getD]) (by norm_num [List.getD])
  have hpk : rowFwhm [0, 1, 0] = 2 := by
    obtain ⟨lo, hi, h1, h2, h3⟩ := (C85_fwhm [0, 1, 0] 1 ⟨by simp, fun c hc => by simp at hc; interval_cases c <;> norm_num [List.getD],
      fun c hc => by interval_cases c; norm_num [List.getD]⟩ (by simp)).1 (by norm_num [List.getD]) (by norm_num [List.getD])
    have := h1.1; have := h2.1; have h4 := h2.2.1
    simp at h4
    rw [h3]; omega
  refine ⟨[[1, 1, 1], [1, 1, 1], [1, 1, 1], [0, 1, 0]], by simp [hflat, hpk], fun counts => ?_⟩
  have hR : (1 : ℝ) + (([-1, -1, -1, 2] : List ℝ).map fun f => 1 / f).sum < 0 := by norm_num
  simp only [List.map_cons, List.map_nil, hflat, hpk, Int.cast_neg, Int.cast_one, Int.cast_ofNat]
  unfold Grouping.calcOptimalBinning
  simp only [Grouping.channelWidth, hR, if_true]
  have h1 : ¬ (1 : ℤ) ≤ ⌊(-1 : ℝ)⌋ := by rw [Int.le_floor]; norm_num
  simp [List.range_succ, Grouping.intWidth, List.getD]
  exact fun h => absurd h h1

end Elisa.Data
