import Verif.Plot.TickSpace
import Verif.Plot.LinLogProps
import Verif.Grouping.BinningFormula

/-!
# C67: number of ticks of the linear-logarithmic axis
-/

namespace Elisa.Plot

open Elisa.Grouping

theorem roundEven_near (x : ℝ) : |(roundEven x : ℝ) - x| ≤ 1 / 2 := by
  have h1 := Int.floor_le x
  have h2 := Int.lt_floor_add_one x
  unfold roundEven
  rw [abs_le]
  split_ifs <;> push_cast <;> constructor <;> linarith

/-- The share of the axis taken by the values below the threshold, as drawn. -/
noncomputable def linearShare (s : LinLog) (v : ℝ × ℝ) : ℝ := (s.transform s.thresh - s.transform v.1) / (s.transform v.2 - s.transform v.1)

/-- **C67 (number of ticks).**  If the threshold is in view, the ticks that fit are shared out between the two parts in proportion to the space the parts take on the axis (up to
rounding), so that both numbers lie between zero and the total and add up to the total within one; otherwise the one part in view may use all. -/
theorem C67_tick_space (base thresh scale : ℝ) (s : LinLog) (h : mkLinLog base thresh scale = .ok s) (space : ℤ) (hsp : 0 ≤ space) (v : ℝ × ℝ) :
    (v.1 < thresh → thresh < v.2 →
      |(s.tickSpace false space v : ℝ) - space * linearShare s v| ≤ 1 / 2 ∧ |(s.tickSpace true space v : ℝ) - space * (1 - linearShare s v)| ≤ 1 / 2 ∧
      0 < linearShare s v ∧ linearShare s v < 1 ∧
      0 ≤ s.tickSpace false space v ∧ 0 ≤ s.tickSpace true space v ∧ s.tickSpace false space v ≤ space ∧ s.tickSpace true space v ≤ space ∧
      |s.tickSpace false space v + s.tickSpace true space v - space| ≤ 1) ∧
    (¬ (v.1 < thresh ∧ thresh < v.2) → ∀ isLog, s.tickSpace isLog space v = space) := by
  obtain ⟨rfl, rfl, rfl, hb, ht, hs⟩ := mkLinLog_ok h
  have hm := transform_strictMono hb ht hs
  have hcut : s.transform s.thresh = s.thresh * s.adj := by simp [LinLog.transform]
  have hint : ∀ n : ℤ, roundEven (n : ℝ) = n := by
    intro n
    unfold roundEven
    simp
  constructor
  · intro h1 h2
    have c1 := hm h1
    have c2 := hm h2
    have hc : s.transform v.1 < s.thresh * s.adj ∧ s.thresh * s.adj < s.transform v.2 := by rw [← hcut]; exact ⟨c1, c2⟩
    have e1 : s.tickSpace false space v = roundEven (space * linearShare s v) := by
      unfold LinLog.tickSpace linearShare
      dsimp only
      rw [if_pos hc, hcut]
      rfl
    have e2 : s.tickSpace true space v = roundEven (space * (1 - linearShare s v)) := by
      unfold LinLog.tickSpace linearShare
      dsimp only
      rw [if_pos hc, hcut]
      rfl
    have hd : 0 < s.transform v.2 - s.transform v.1 := by linarith
    have p0 : 0 < linearShare s v := div_pos (by linarith) hd
    have p1 : linearShare s v < 1 := (div_lt_one hd).2 (by linarith)
    have hspr : (0 : ℝ) ≤ space := by exact_mod_cast hsp
    have n1 := roundEven_near (space * linearShare s v)
    have n2 := roundEven_near (space * (1 - linearShare s v))
    have key : ∀ f : ℝ, 0 ≤ f → f ≤ 1 → 0 ≤ roundEven (space * f) ∧ roundEven (space * f) ≤ space := by
      intro f f0 f1
      have hn := abs_le.1 (roundEven_near (space * f))
      have a0 : (0 : ℝ) ≤ space * f := mul_nonneg hspr f0
      have a1 : (space : ℝ) * f ≤ space := by nlinarith
      constructor
      · have : (-1 : ℝ) < roundEven (space * f) := by linarith [hn.1]
        have : (-1 : ℤ) < roundEven (space * f) := by exact_mod_cast this
        omega
      · have : (roundEven (space * f) : ℝ) < space + 1 := by linarith [hn.2]
        have : roundEven (space * f) < space + 1 := by exact_mod_cast this
        omega
    rw [e1, e2]
    obtain ⟨k1, k2⟩ := key _ p0.le p1.le
    obtain ⟨k3, k4⟩ := key (1 - linearShare s v) (by linarith) (by linarith)
    refine ⟨n1, n2, p0, p1, k1, k3, k2, k4, ?_⟩
    have m1 := abs_le.1 n1
    have m2 := abs_le.1 n2
    rw [abs_le]
    constructor
    · have : (-2 : ℝ) < (roundEven (space * linearShare s v) + roundEven (space * (1 - linearShare s v)) - space : ℤ) := by push_cast; nlinarith [m1.1, m2.1]
      have : (-2 : ℤ) < roundEven (space * linearShare s v) + roundEven (space * (1 - linearShare s v)) - space := by exact_mod_cast this
      omega
    · have : ((roundEven (space * linearShare s v) + roundEven (space * (1 - linearShare s v)) - space : ℤ) : ℝ) < 2 := by push_cast; nlinarith [m1.2, m2.2]
      have : roundEven (space * linearShare s v) + roundEven (space * (1 - linearShare s v)) - space < 2 := by exact_mod_cast this
      omega
  · intro hn isLog
    unfold LinLog.tickSpace
    dsimp only
    rw [if_neg, mul_one, hint]
    rw [← hcut]
    rintro ⟨a, b⟩
    exact hn ⟨hm.lt_iff_lt.1 a, hm.lt_iff_lt.1 b⟩

/-- The axis of the plots: base ten, threshold and scale one, in view from -1 to 100, room for nine ticks. -/
example : ∃ s, mkLinLog 10 1 1 = .ok s ∧ |s.tickSpace false 9 (-1, 100) + s.tickSpace true 9 (-1, 100) - 9| ≤ 1 := by
  obtain ⟨s, h⟩ := (C67_constructor 10 1 1).2 ⟨by norm_num, by norm_num, by norm_num⟩
  exact ⟨s, h, ((C67_tick_space 10 1 1 s h 9 (by norm_num) (-1, 100)).1 (by norm_num) (by norm_num)).2.2.2.2.2.2.2.2⟩

end Elisa.Plot
