import Verif.Plot.LinLog
import Mathlib.Topology.Order.IntermediateValue
import Mathlib.Analysis.SpecialFunctions.Pow.Continuity
import Mathlib.Analysis.SpecialFunctions.Log.Deriv

/-!
# C67: the linear-logarithmic axis is an invertible, order-preserving, continuous scale
-/

namespace Elisa.Plot

/-- What the three constructors accept. -/
theorem C67_constructor (base thresh scale : ℝ) :
    (∃ s, mkLinLog base thresh scale = .ok s) ↔ 1 < base ∧ 0 < thresh ∧ 0 < scale := by
  unfold mkLinLog
  constructor
  · rintro ⟨s, h⟩
    split_ifs at h with h1 h2 h3
    exact ⟨not_le.1 h1, not_le.1 h2, not_le.1 h3⟩
  · rintro ⟨h1, h2, h3⟩
    exact ⟨_, by rw [if_neg (not_le.2 h1), if_neg (not_le.2 h2), if_neg (not_le.2 h3)]⟩

/-- An accepted scale keeps the three numbers it was given. -/
theorem mkLinLog_ok {base thresh scale : ℝ} {s : LinLog} (h : mkLinLog base thresh scale = .ok s) :
    s.base = base ∧ s.thresh = thresh ∧ s.scale = scale ∧ 1 < base ∧ 0 < thresh ∧ 0 < scale := by
  have hc := (C67_constructor base thresh scale).1 ⟨s, h⟩
  unfold mkLinLog at h
  rw [if_neg (not_le.2 hc.1), if_neg (not_le.2 hc.2.1), if_neg (not_le.2 hc.2.2)] at h
  injection h with h
  subst h
  exact ⟨rfl, rfl, rfl, hc⟩

theorem adj_pos {s : LinLog} (hb : 1 < s.base) (hs : 0 < s.scale) : 0 < s.adj := by
  have h1 : 1 / s.base < 1 := by
    rw [div_lt_one (by linarith)]; exact hb
  exact div_pos hs (by linarith)

section
variable {s : LinLog} (hb : 1 < s.base) (ht : 0 < s.thresh) (hs : 0 < s.scale)
include hb ht hs

theorem transform_gt_iff (x : ℝ) : s.transform x > s.thresh * s.adj ↔ x > s.thresh := by
  have ha := adj_pos hb hs
  have hl := Real.log_pos hb
  unfold LinLog.transform
  split_ifs with h
  · refine ⟨fun _ => h, fun _ => ?_⟩
    have h1 : 1 < x / s.thresh := by rw [lt_div_iff₀ ht]; linarith
    have h2 := div_pos (Real.log_pos h1) hl
    have := mul_pos ht h2
    nlinarith
  · refine ⟨fun h' => ?_, fun h' => absurd h' h⟩
    exact lt_of_mul_lt_mul_right h' ha.le

theorem inverse_gt_iff (y : ℝ) : s.inverse y > s.thresh ↔ y > s.thresh * s.adj := by
  have ha := adj_pos hb hs
  unfold LinLog.inverse
  split_ifs with h
  · refine ⟨fun _ => h, fun _ => ?_⟩
    have h1 : 0 < y / s.thresh - s.adj := by
      rw [sub_pos, lt_div_iff₀ ht]; linarith
    have h2 := Real.one_lt_rpow hb h1
    nlinarith
  · refine ⟨fun h' => ?_, fun h' => absurd h' h⟩
    rwa [gt_iff_lt, lt_div_iff₀ ha] at h'

theorem inverse_transform (x : ℝ) : s.inverse (s.transform x) = x := by
  have ha := adj_pos hb hs
  have hl := Real.log_pos hb
  by_cases h : x > s.thresh
  · have h1 := (transform_gt_iff hb ht hs x).2 h
    unfold LinLog.inverse
    rw [if_pos h1]
    have e : s.transform x / s.thresh - s.adj = Real.log (x / s.thresh) / Real.log s.base := by
      unfold LinLog.transform
      rw [if_pos h]; field_simp; ring
    rw [e, Real.rpow_def_of_pos (by linarith), mul_div_cancel₀ _ hl.ne', Real.exp_log (div_pos (by linarith) ht)]
    field_simp
  · have h1 : ¬ s.transform x > s.thresh * s.adj := fun h' => h ((transform_gt_iff hb ht hs x).1 h')
    unfold LinLog.inverse
    rw [if_neg h1]
    unfold LinLog.transform
    rw [if_neg h]; field_simp

theorem transform_inverse (y : ℝ) : s.transform (s.inverse y) = y := by
  have ha := adj_pos hb hs
  have hl := Real.log_pos hb
  by_cases h : y > s.thresh * s.adj
  · have h1 := (inverse_gt_iff hb ht hs y).2 h
    unfold LinLog.transform
    rw [if_pos h1]
    have e : s.inverse y / s.thresh = s.base ^ (y / s.thresh - s.adj) := by
      unfold LinLog.inverse
      rw [if_pos h]; field_simp
    rw [e, Real.log_rpow (by linarith)]
    field_simp; ring
  · have h1 : ¬ s.inverse y > s.thresh := fun h' => h ((inverse_gt_iff hb ht hs y).1 h')
    unfold LinLog.transform
    rw [if_neg h1]
    unfold LinLog.inverse
    rw [if_neg h]; field_simp

theorem transform_strictMono : StrictMono s.transform := by
  have ha := adj_pos hb hs
  have hl := Real.log_pos hb
  intro x y hxy
  by_cases hy : y > s.thresh
  · by_cases hx : x > s.thresh
    · unfold LinLog.transform
      rw [if_pos hx, if_pos hy]
      have h1 : Real.log (x / s.thresh) < Real.log (y / s.thresh) :=
        Real.log_lt_log (div_pos (by linarith) ht) (div_lt_div_of_pos_right hxy ht)
      have h2 := div_lt_div_of_pos_right h1 hl
      nlinarith
    · have h1 := (transform_gt_iff hb ht hs y).2 hy
      have h2 : ¬ s.transform x > s.thresh * s.adj := fun h' => hx ((transform_gt_iff hb ht hs x).1 h')
      linarith
  · have hx : ¬ x > s.thresh := fun h => hy (lt_trans h hxy)
    unfold LinLog.transform
    rw [if_neg hx, if_neg hy]
    exact mul_lt_mul_of_pos_right hxy ha

end

/-- **C67** (the scale is a faithful axis).  Whatever base, threshold and linear stretch the constructor
accepts, the axis transform is strictly increasing and continuous, and the inverse transform undoes it in both
directions — on the whole real line, so every datum (negative ones too) has exactly one place. -/
theorem C67_transform (base thresh scale : ℝ) (s : LinLog) (h : mkLinLog base thresh scale = .ok s) :
    StrictMono s.transform ∧ Continuous s.transform ∧
    (∀ x, s.inverse (s.transform x) = x) ∧ (∀ y, s.transform (s.inverse y) = y) := by
  obtain ⟨rfl, rfl, rfl, hb, ht, hs⟩ := mkLinLog_ok h
  refine ⟨transform_strictMono hb ht hs, ?_, inverse_transform hb ht hs, transform_inverse hb ht hs⟩
  exact (transform_strictMono hb ht hs).monotone.continuous_of_surjective
    (fun y => ⟨_, transform_inverse hb ht hs y⟩)

/-- **C67** (what the axis looks like).  Above the threshold every factor of `base` takes the same length
(`thresh`), whatever the value it starts at, and at or below it every unit of data takes the same length. -/
theorem C67_shape (base thresh scale : ℝ) (s : LinLog) (h : mkLinLog base thresh scale = .ok s) :
    (∀ x, thresh ≤ x → s.transform (base * x) - s.transform x = thresh) ∧
    (∃ m, 0 < m ∧ ∀ x, x ≤ thresh → s.transform x = m * x) := by
  obtain ⟨rfl, rfl, rfl, hb, ht, hs⟩ := mkLinLog_ok h
  have ha := adj_pos hb hs
  have hl := Real.log_pos hb
  refine ⟨fun x hx => ?_, s.adj, ha, fun x hx => ?_⟩
  · have hx0 : 0 < x := by linarith
    have h1 : s.base * x > s.thresh := by nlinarith
    have e : s.transform x = s.thresh * (s.adj + Real.log (x / s.thresh) / Real.log s.base) := by
      unfold LinLog.transform
      split_ifs with hx'
      · rfl
      · have : x = s.thresh := le_antisymm (not_lt.1 hx') hx
        rw [this, div_self ht.ne', Real.log_one]; ring
    rw [e]
    unfold LinLog.transform
    rw [if_pos h1, mul_div_assoc, Real.log_mul (by linarith) (div_pos hx0 ht).ne']
    field_simp; ring
  · unfold LinLog.transform
    rw [if_neg (not_lt.2 hx)]; ring

/-- **C67** (`get_scale`).  When a threshold lies strictly inside the data range the returned stretch is
accepted by the scale for every positive threshold, and it makes the linear part take up exactly the fraction
`f` of the axis. -/
theorem C67_get_scale (base thresh vmin vmax f k : ℝ) (ht : 0 < thresh)
    (hk : getScale base thresh vmin vmax f = .ok k) :
    ∃ s, mkLinLog base thresh k = .ok s ∧
      s.transform thresh - s.transform vmin = f * (s.transform vmax - s.transform vmin) := by
  unfold getScale at hk
  split_ifs at hk with h1 h2 h3
  injection hk with hk
  obtain ⟨hv1, hv2⟩ := h2
  obtain ⟨hf0, hf1⟩ := h3
  have hl := Real.log_pos h1
  have hlv : 0 < Real.log (vmax / thresh) := Real.log_pos (by rw [lt_div_iff₀ ht]; linarith)
  have hb : base - 1 ≠ 0 := by linarith
  have hf : (1 : ℝ) - f ≠ 0 := by linarith
  have htv : thresh - vmin ≠ 0 := by linarith
  have hkeq : k = (base - 1) * f * thresh * Real.log (vmax / thresh) /
      (base * (1 - f) * (thresh - vmin) * Real.log base) := by
    rw [← hk, ← neg_div_neg_eq]; congr 1 <;> ring
  have hk0 : 0 < k := by
    rw [hkeq]
    have e1 : 0 < base - 1 := by linarith
    have e2 : 0 < 1 - f := by linarith
    have e3 : 0 < thresh - vmin := by linarith
    have e4 : 0 < base := by linarith
    positivity
  obtain ⟨s, hs⟩ := (C67_constructor base thresh k).2 ⟨h1, ht, hk0⟩
  obtain ⟨e1, e2, e3, -⟩ := mkLinLog_ok hs
  refine ⟨s, hs, ?_⟩
  have hadj : s.adj = f * thresh * Real.log (vmax / thresh) / ((1 - f) * (thresh - vmin) * Real.log base) := by
    unfold LinLog.adj
    rw [e1, e3, hkeq]
    have : (1 : ℝ) - 1 / base = (base - 1) / base := by field_simp
    rw [this]
    field_simp
  unfold LinLog.transform
  rw [e1, e2, if_neg (lt_irrefl _), if_neg (not_lt.2 hv1.le), if_pos hv2, hadj]
  generalize Real.log (vmax / thresh) = L
  field_simp
  ring

/-- `get_scale` returns for every fraction the plot configuration accepts, and only raises when the threshold
is not strictly inside the range. -/
theorem C67_get_scale_total (thresh vmin vmax f g : ℝ) (hf : setLinFrac f = .ok g)
    (h : vmin < thresh ∧ thresh < vmax) : ∃ k, getScale 10 thresh vmin vmax g = .ok k := by
  unfold setLinFrac at hf
  split_ifs at hf with h1
  injection hf with hf
  subst hf
  unfold getScale
  rw [if_neg (by norm_num), if_neg (by simpa using h), if_neg (by simp; exact ⟨h1.1, by linarith [h1.2]⟩)]
  exact ⟨_, rfl⟩

/-- **C67, documented claim that does not hold.**  The documentation of `LinLogScale` says that with
`lin_scale == 1` the range `[0, lin_thresh]` takes the same space as one decade.  It never does: it takes
`1 / (1 - 1/base)` decades (10/9 of a decade for base ten). -/
theorem C67_decade_refuted (base thresh : ℝ) (s : LinLog) (h : mkLinLog base thresh 1 = .ok s) :
    (s.transform thresh - s.transform 0) * (1 - 1 / base) = s.transform (base * thresh) - s.transform thresh ∧
    s.transform thresh - s.transform 0 ≠ s.transform (base * thresh) - s.transform thresh := by
  have hd := (C67_shape base thresh 1 s h).1 thresh le_rfl
  obtain ⟨e1, e2, e3, hb, ht, -⟩ := mkLinLog_ok h
  have hb1 : (1 : ℝ) - 1 / base = (base - 1) / base := by field_simp
  have hne : base - 1 ≠ 0 := by linarith
  have hb0 : base ≠ 0 := by linarith
  have h0 : s.transform thresh - s.transform 0 = thresh * (base / (base - 1)) := by
    unfold LinLog.transform LinLog.adj
    rw [e1, e2, e3, if_neg (lt_irrefl _), if_neg (not_lt.2 ht.le), hb1]
    field_simp; ring
  rw [hd, h0]
  constructor
  · rw [hb1]; field_simp
  · intro hh
    have : thresh * (base / (base - 1)) = thresh * 1 := by rw [hh, mul_one]
    have h2 := mul_left_cancel₀ ht.ne' this
    rw [div_eq_one_iff_eq hne] at h2
    linarith

/-- **C67** (the sub-locators share the axis).  When the threshold is inside the view, the linear and the
logarithmic locator are given the two halves of it, and only one of them is asked otherwise. -/
theorem C67_view_split (thresh : ℝ) (v : ℝ × ℝ) :
    (v.1 < thresh ∧ thresh < v.2 →
      dummyInterval thresh false v = (v.1, thresh) ∧ dummyInterval thresh true v = (thresh, v.2)) ∧
    (thresh ≤ v.1 ∨ v.2 ≤ thresh → ∀ b, dummyInterval thresh b v = v) := by
  constructor
  · intro h; unfold dummyInterval; simp [h]
  · intro h b
    have hn : ¬ (v.1 < thresh ∧ thresh < v.2) := by
      rintro ⟨a, c⟩
      rcases h with h | h <;> linarith
    exact if_neg hn

example : dummyInterval 1 true (2, 3) = (2, 3) ∧ dummyInterval 1 false (0, 3) = (0, 1) :=
  ⟨(C67_view_split 1 (2, 3)).2 (Or.inl (by norm_num)) true, ((C67_view_split 1 (0, 3)).1 (by norm_num)).1⟩

/-- **C67** (ticks).  The tick positions are strictly increasing, and they are exactly the linear locator's
ticks below the threshold and the view's top together with the logarithmic locator's ticks above the threshold
and the view's bottom. The order of the two limits does not matter. -/
theorem C67_ticks (thresh : ℝ) (lin log : List ℝ) (vmin vmax : ℝ) :
    (tickValues thresh lin log vmin vmax).Pairwise (· < ·) ∧
    (∀ x, x ∈ tickValues thresh lin log vmin vmax ↔
      (x ∈ lin ∧ min vmin vmax < thresh ∧ x < thresh ∧ x < max vmin vmax) ∨
      (x ∈ log ∧ thresh < max vmin vmax ∧ thresh < x ∧ min vmin vmax < x)) ∧
    tickValues thresh lin log vmin vmax = tickValues thresh lin log vmax vmin := by
  have elo : ∀ a b : ℝ, (if a > b then b else a) = min a b := by
    intro a b; rcases lt_trichotomy a b with h | h | h <;> simp [h, h.le, not_lt.2 h.le]
  have ehi : ∀ a b : ℝ, (if a > b then a else b) = max a b := by
    intro a b; rcases lt_trichotomy a b with h | h | h <;> simp [h, h.le, not_lt.2 h.le]
  refine ⟨?_, ?_, ?_⟩
  · unfold tickValues
    simp only
    set l := ((if (if vmin > vmax then vmax else vmin) < thresh then _ else _) ++ _ : List ℝ).dedup with hl
    have hs : (l.mergeSort (fun x y => x ≤ y)).Pairwise (fun x y => decide (x ≤ y) = true) :=
      List.pairwise_mergeSort (by intro a b c; simpa using le_trans) (by intro a b; simpa using le_total a b) l
    have hn : (l.mergeSort (fun x y => x ≤ y)).Nodup :=
      (List.mergeSort_perm l _).nodup_iff.2 (List.nodup_dedup _)
    exact (hs.and hn).imp (fun {a b} h => lt_of_le_of_ne (by simpa using h.1) h.2)
  · intro x
    unfold tickValues
    simp only [elo, ehi]
    rw [(List.mergeSort_perm _ _).mem_iff, List.mem_dedup, List.mem_append]
    apply or_congr
    · by_cases h : min vmin vmax < thresh
      · simp [h]
      · simp [h]
    · by_cases h : max vmin vmax > thresh
      · rw [if_pos h]; simp only [List.mem_filter, decide_eq_true_eq, gt_iff_lt, max_lt_iff]
        constructor
        · rintro ⟨a, b, c⟩; exact ⟨a, h, c, b⟩
        · rintro ⟨a, -, c, b⟩; exact ⟨a, b, c⟩
      · rw [if_neg h]; simp only [List.not_mem_nil, false_iff]
        rintro ⟨-, h', -⟩; exact h h'
  · unfold tickValues
    simp only [elo, ehi, min_comm vmin vmax, max_comm vmin vmax]

/-- **C67, a tick that is lost.**  A tick exactly at the threshold is never drawn, even when both locators
propose it. -/
theorem C67_threshold_tick_missing (thresh : ℝ) (lin log : List ℝ) (vmin vmax : ℝ) :
    thresh ∉ tickValues thresh lin log vmin vmax := by
  rw [(C67_ticks thresh lin log vmin vmax).2.1]
  rintro (⟨-, -, h, -⟩ | ⟨-, -, h, -⟩) <;> exact lt_irrefl _ h

/-! ### Non-vacuity -/

example : ∃ s, mkLinLog 10 (1 / 2) 3 = .ok s := (C67_constructor _ _ _).2 (by norm_num)

example : ∃ s, mkLinLogScale 10 1 none = .ok s := by
  unfold mkLinLogScale
  exact (C67_constructor _ _ _).2 ⟨by norm_num, by norm_num, by
    simp only [Option.getD_none]
    exact one_div_pos.2 (Real.log_pos (by norm_num))⟩

example : ∃ k, getScale 10 1 (-2) 100 (3 / 20) = .ok k :=
  C67_get_scale_total 1 (-2) 100 (3 / 20) (3 / 20) (by unfold setLinFrac; norm_num) (by norm_num)

example : (1 / 2 : ℝ) ∈ tickValues 1 [1 / 2, 1] [1, 10] (-1) 20 ∧ (10 : ℝ) ∈ tickValues 1 [1 / 2, 1] [1, 10] (-1) 20 := by
  constructor <;> rw [(C67_ticks _ _ _ _ _).2.1] <;> norm_num

end Elisa.Plot
