import Verif.Data.PlotSpec
import Verif.Data.ObsProps
import Verif.Data.ObsExamples
import Verif.Grouping.SigValue
import Verif.Infer.FitProps

/-!
# C109: the plot of a spectrum shows the spectrum
-/

namespace Elisa.Data

open Elisa Elisa.Grouping Elisa.Infer

/-- **C109 (horizontal bars).**  On either axis the bar of a channel covers exactly its energies, with the mark inside. -/
theorem C109_bar (xlog : Bool) (lo hi : ℝ) (h0 : 0 ≤ lo) (h : lo ≤ hi) :
    (xBar xlog lo hi).1 - (xBar xlog lo hi).2.1 = lo ∧ (xBar xlog lo hi).1 + (xBar xlog lo hi).2.2 = hi ∧
    0 ≤ (xBar xlog lo hi).2.1 ∧ 0 ≤ (xBar xlog lo hi).2.2 ∧
    (xlog = true → 0 < lo → Real.log (xBar xlog lo hi).1 = (Real.log lo + Real.log hi) / 2) ∧ (xlog = false → (xBar xlog lo hi).1 = (lo + hi) / 2) := by
  cases xlog with
  | false =>
    simp only [xBar, Bool.false_eq_true, if_false, false_imp_iff, true_and, true_imp_iff]
    norm_num
    refine ⟨by ring, by ring, h, by ring⟩
  | true =>
    have h1 : lo ≤ Real.sqrt (lo * hi) := Real.le_sqrt_of_sq_le (by nlinarith)
    have h2 : Real.sqrt (lo * hi) ≤ hi := Real.sqrt_le_iff.2 ⟨by linarith, by nlinarith⟩
    simp only [xBar, if_true, true_imp_iff]
    rw [abs_of_nonpos (by linarith), abs_of_nonneg (by linarith)]
    refine ⟨by ring, by ring, by linarith, by linarith, fun hp => ?_, fun hf => by cases hf⟩
    rw [Real.log_sqrt (by nlinarith), Real.log_mul hp.ne' (by linarith)]

example := C109_bar true 2 8 (by norm_num) (by norm_num)

/-- What should be drawn for the group `e` of channels with energies `lo` to `hi`: the counts and errors of its good channels, per unit time and energy, the background scaled to the source. -/
structure Shows (o : Obs) (e : Nat × Nat) (lo hi : ℝ) (p : Point) : Prop where
  total : p.total.1 * (o.spec.exposure * (hi - lo)) = ∑ i ∈ o.goodSet e.1 e.2, at0 o.spec.counts i
  totalErr : p.total.2 * (o.spec.exposure * (hi - lo)) = Real.sqrt (∑ i ∈ o.goodSet e.1 e.2, at0 o.spec.errors i ^ 2)
  noBack : o.back = none → p.back = none
  withBack : ∀ b, o.back = some b → ∃ y err, p.back = some (y, err) ∧
    y * (o.spec.exposure * (hi - lo)) = o.ratioOf b (o.goodSet e.1 e.2) * ∑ i ∈ o.goodSet e.1 e.2, at0 b.counts i ∧
    err * (o.spec.exposure * (hi - lo)) = o.ratioOf b (o.goodSet e.1 e.2) * Real.sqrt (∑ i ∈ o.goodSet e.1 e.2, at0 b.errors i ^ 2)

theorem describes_lengths {o : Obs} {L : List (Nat × Nat)} {st : ObsState} (h : o.Describes L st) :
    st.emin.length = L.length ∧ st.emax.length = L.length ∧ st.specCounts.length = L.length ∧ st.specErrors.length = L.length := by
  refine ⟨?_, ?_, ?_, ?_⟩
  · rw [h.emin, List.length_map]
  · rw [h.emax, List.length_map]
  · rw [h.specCounts, List.length_map]
  · rw [h.specErrors, List.length_map]

theorem getD_map_of {α : Type} {L : List α} {k : Nat} {e : α} (f : α → ℝ) (h : L[k]? = some e) : (L.map f).getD k 0 = f e := by
  rw [List.getD_eq_getElem?_getD, List.getElem?_map, h]
  rfl

/-- The background of a group as the significance sees it. -/
theorem backAt_eq {o : Obs} {L : List (Nat × Nat)} {st : ObsState} (h : o.Describes L st) {k : Nat} {e : Nat × Nat} (he : L[k]? = some e) :
    (o.back = none → backAt o st k = none) ∧ ∀ b, o.back = some b → backAt o st k = some (b.poisson, ∑ i ∈ o.goodSet e.1 e.2, at0 b.counts i,
      Real.sqrt (∑ i ∈ o.goodSet e.1 e.2, at0 b.errors i ^ 2), o.ratioOf b (o.goodSet e.1 e.2)) := by
  constructor
  · intro hb
    simp only [backAt, hb]
  · intro b hb
    simp only [backAt, hb, (h.withBack b hb).1]
    rw [getD_map_of _ he, getD_map_of _ he, getD_map_of _ he]

/-- **C109 (rates).**  For every accepted observation, grouping and choice of energy ranges there is exactly one point per noticed group, in order; its bar covers the energies of the group, its rates
are the counts of the good channels of the group per unit of time and energy, and the total minus the background is the net rate of the channel. -/
theorem C109_rates (o : Obs) (n : Nat) (ho : o.Legal n) (erange : List (ℝ × ℝ)) (flags : List Int) (hf : flags.length = n) (xlog : Bool) :
    ∃ st L, o.setGrouping erange (some flags) = .ok st ∧ o.NoticedGroups erange st.grouping L ∧ (plotSpec o xlog st).length = L.length ∧
      ∀ (k : Nat) (e : Nat × Nat) (p : Point), L[k]? = some e → (plotSpec o xlog st)[k]? = some p →
        (0 ≤ st.emin.getD k 0 → st.emin.getD k 0 ≤ st.emax.getD k 0 → p.x - p.left = st.emin.getD k 0 ∧ p.x + p.right = st.emax.getD k 0) ∧
        (st.emin.getD k 0 < st.emax.getD k 0 → Shows o e (st.emin.getD k 0) (st.emax.getD k 0) p ∧
          st.ce[k]? = some (p.total.1 - (p.back.map (·.1)).getD 0)) := by
  obtain ⟨st, L, h1, h2, h3⟩ := C16_net_spectrum o n ho erange flags hf
  obtain ⟨l1, l2, l3, l4⟩ := describes_lengths h3
  refine ⟨st, L, h1, h2, by simp [plotSpec, l1], ?_⟩
  intro k e p he hp
  have hk : k < L.length := by
    by_contra hc
    rw [List.getElem?_eq_none (by omega)] at he
    cases he
  have hp' : p = pointAt o xlog st k := by
    unfold plotSpec at hp
    rw [List.getElem?_map, List.getElem?_range (by omega)] at hp
    simpa using hp.symm
  have hexp := ho.spec.exposure
  refine ⟨fun a b => ?_, fun hlt => ?_⟩
  · have := C109_bar xlog _ _ a b
    rw [hp']
    exact ⟨this.1, this.2.1⟩
  · have hne : o.spec.exposure * (st.emax.getD k 0 - st.emin.getD k 0) ≠ 0 := (mul_pos hexp (by linarith)).ne'
    have hsc := congrArg (fun l => l.getD k 0) h3.specCounts
    have hse := congrArg (fun l => l.getD k 0) h3.specErrors
    simp only [getD_map_of _ he] at hsc hse
    have htot : p.total = (st.specCounts.getD k 0 * rateFactor o.spec.exposure (st.emin.getD k 0) (st.emax.getD k 0),
      st.specErrors.getD k 0 * rateFactor o.spec.exposure (st.emin.getD k 0) (st.emax.getD k 0)) := by rw [hp']; rfl
    have hbk : p.back = (backAt o st k).map fun b => (b.2.1 * (b.2.2.2 * rateFactor o.spec.exposure (st.emin.getD k 0) (st.emax.getD k 0)),
      b.2.2.1 * (b.2.2.2 * rateFactor o.spec.exposure (st.emin.getD k 0) (st.emax.getD k 0))) := by rw [hp']; rfl
    have hfac : rateFactor o.spec.exposure (st.emin.getD k 0) (st.emax.getD k 0) * (o.spec.exposure * (st.emax.getD k 0 - st.emin.getD k 0)) = 1 := by
      unfold rateFactor
      rw [one_div, inv_mul_cancel₀ hne]
    refine ⟨⟨?_, ?_, ?_, ?_⟩, ?_⟩
    · rw [htot]
      dsimp only
      rw [mul_assoc, hfac, mul_one, hsc]
    · rw [htot]
      dsimp only
      rw [mul_assoc, hfac, mul_one, hse]
    · intro hb
      rw [hbk, (backAt_eq h3 he).1 hb]
      rfl
    · intro b hb
      rw [hbk, (backAt_eq h3 he).2 b hb]
      refine ⟨_, _, rfl, ?_, ?_⟩
      · dsimp only
        linear_combination (∑ i ∈ o.goodSet e.1 e.2, at0 b.counts i) * o.ratioOf b (o.goodSet e.1 e.2) * hfac
      · dsimp only
        linear_combination Real.sqrt (∑ i ∈ o.goodSet e.1 e.2, at0 b.errors i ^ 2) * o.ratioOf b (o.goodSet e.1 e.2) * hfac
    · have hnet : ∃ x, st.netCounts[k]? = some x ∧ x = st.netCounts.getD k 0 := by
        have hl : st.netCounts.length = L.length := by
          cases hb : o.back with
          | none => rw [(h3.noBack hb).2.1, l3]
          | some b => rw [(h3.withBack b hb).2.1, List.length_map]
        exact ⟨st.netCounts[k]'(by omega), List.getElem?_eq_getElem (by omega), by simp [hl, hk]⟩
      obtain ⟨x, hx, hx'⟩ := hnet
      have hlo : st.emin[k]? = some (st.emin.getD k 0) := by simp [l1, hk]
      have hhi : st.emax[k]? = some (st.emax.getD k 0) := by simp [l2, hk]
      rw [h3.ce.2 k x _ _ hx hlo hhi, htot, hbk]
      congr 1
      cases hb : o.back with
      | none =>
        rw [(backAt_eq h3 he).1 hb, hx', (h3.noBack hb).2.1]
        simp only [Option.map_none, Option.getD_none, sub_zero]
        unfold rateFactor
        rw [mul_comm o.spec.exposure]
        ring
      | some b =>
        rw [(backAt_eq h3 he).2 b hb, hx', (h3.withBack b hb).2.1, getD_map_of _ he, hsc]
        simp only [Option.map_some, Option.getD_some]
        unfold rateFactor
        rw [mul_comm o.spec.exposure]
        ring

example := C109_rates _ 3 exObs_back [(1, 4)] [1, -1, 1] rfl true

/-- The excess over the background in a group. -/
noncomputable def excess (o : Obs) (e : Nat × Nat) : ℝ :=
  match o.back with
  | none => ∑ i ∈ o.goodSet e.1 e.2, at0 o.spec.counts i
  | some b => ∑ i ∈ o.goodSet e.1 e.2, at0 o.spec.counts i - o.ratioOf b (o.goodSet e.1 e.2) * ∑ i ∈ o.goodSet e.1 e.2, at0 b.counts i

/-- The errors of the good channels of a group add up to something positive. -/
def ErrPos (s : Spectrum) (S : Finset Nat) : Prop := 0 < ∑ i ∈ S, at0 s.errors i ^ 2

/-- The significance of a point has the sign of the excess and its error bar is one unless there is no excess. -/
def SigShows (x : ℝ) (p : Point) : Prop :=
  ∃ s, p.sig = some s ∧ (0 < s ↔ 0 < x) ∧ (s < 0 ↔ x < 0) ∧ sigErr p.sig = if x = 0 then 0 else 1

theorem sigShows_of {x s : ℝ} {p : Point} (h : p.sig = some s) (h1 : 0 < s ↔ 0 < x) (h2 : s < 0 ↔ x < 0) : SigShows x p := by
  refine ⟨s, h, h1, h2, ?_⟩
  rw [h]
  simp only [sigErr]
  by_cases hx : x = 0
  · have : s = 0 := by
      rcases lt_trichotomy s 0 with hs | hs | hs
      · have := h2.1 hs; linarith
      · exact hs
      · have := h1.1 hs; linarith
    simp [hx, this]
  · have : s ≠ 0 := by
      rintro rfl
      rcases lt_or_gt_of_ne hx with hs | hs
      · exact absurd (h2.2 hs) (lt_irrefl _)
      · exact absurd (h1.2 hs) (lt_irrefl _)
    rw [if_pos this, if_neg hx]

theorem quot_sign {x y : ℝ} (hy : 0 < y) : ∃ s, quot x y = some s ∧ (0 < s ↔ 0 < x) ∧ (s < 0 ↔ x < 0) := by
  refine ⟨x / y, by simp [quot, hy.ne'], ?_, ?_⟩
  · rw [div_pos_iff_of_pos_right hy]
  · rw [div_neg_iff]
    constructor
    · rintro (⟨-, h⟩ | ⟨h, -⟩)
      · linarith
      · exact h
    · intro h; exact Or.inr ⟨h, hy⟩

theorem at0_nonneg {s : Spectrum} (hs : ∀ c ∈ s.counts, 0 ≤ c) (i : Nat) : 0 ≤ at0 s.counts i := by
  unfold at0
  by_cases hi : i < s.counts.length
  · have : s.counts.getD i 0 = s.counts[i] := by simp [hi]
    rw [this]
    exact hs _ (List.getElem_mem hi)
  · simp [List.getD, List.getElem?_eq_none (by omega : s.counts.length ≤ i)]

/-- The background ratio is positive if no counts are negative. -/
theorem ratio_pos {o : Obs} {n : Nat} (ho : o.Legal n) {b : Spectrum} (hb : o.back = some b) (hc1 : ∀ c ∈ o.spec.counts, 0 ≤ c) (hc2 : ∀ c ∈ b.counts, 0 ≤ c) {e : Nat × Nat}
    (hne : (o.goodSet e.1 e.2).Nonempty) : 0 < o.ratioOf b (o.goodSet e.1 e.2) := by
  have hlt : ∀ i ∈ o.goodSet e.1 e.2, i < n := by
    intro i hi
    have := mem_goodSet hi
    by_contra hc
    rw [List.getElem?_eq_none (by rw [ho.good]; omega)] at this
    cases this
  have hL := ho.back b hb
  unfold Obs.ratioOf
  have p1 := effScale_pos (net := false) hne (fun i _ => at0_nonneg hc1 i) (fun i hi => ho.spec.areaPos i (ho.goodSpec i (mem_goodSet hi)) (hlt i hi))
  have p2 := effScale_pos (net := false) hne (fun i _ => at0_nonneg hc1 i) (fun i hi => ho.spec.backPos i (ho.goodSpec i (mem_goodSet hi)) (hlt i hi))
  have p3 := effScale_pos (net := false) hne (fun i _ => at0_nonneg hc2 i) (fun i hi => hL.areaPos i (ho.goodBack b hb i (mem_goodSet hi)) (hlt i hi))
  have p4 := effScale_pos (net := false) hne (fun i _ => at0_nonneg hc2 i) (fun i hi => hL.backPos i (ho.goodBack b hb i (mem_goodSet hi)) (hlt i hi))
  have p5 := ho.spec.exposure
  have p6 := hL.exposure
  exact div_pos (mul_pos (mul_pos p5 p1) p2) (mul_pos (mul_pos p6 p3) p4)

/-- **C109 (significance), partial.**  The significance drawn for a group is finite, has the sign of the excess of the group over the background and an error bar of one unless there is no excess, in
these cases: Poisson data with Poisson background; Poisson data with a Gaussian background whose error and ratio are positive
(`ratio_pos`: the ratio always is if its counts are non-negative); Poisson data without background, or Gaussian data, with a
positive error.  Missing: errors that are zero, see `C109_sig_refuted`. -/
theorem C109_sig_partial (o : Obs) (n : Nat) (ho : o.Legal n) (erange : List (ℝ × ℝ)) (flags : List Int) (hf : flags.length = n) (xlog : Bool) :
    ∃ st L, o.setGrouping erange (some flags) = .ok st ∧ o.NoticedGroups erange st.grouping L ∧ (plotSpec o xlog st).length = L.length ∧
      ∀ (k : Nat) (e : Nat × Nat) (p : Point), L[k]? = some e → (plotSpec o xlog st)[k]? = some p →
        (o.spec.poisson = true → ∀ b, o.back = some b → b.poisson = true → SigShows (excess o e) p) ∧
        (o.spec.poisson = true → ∀ b, o.back = some b → b.poisson = false → 0 < o.ratioOf b (o.goodSet e.1 e.2) → ErrPos b (o.goodSet e.1 e.2) → SigShows (excess o e) p) ∧
        ((o.spec.poisson = true ∧ o.back = none ∨ o.spec.poisson = false) → ErrPos o.spec (o.goodSet e.1 e.2) → SigShows (excess o e) p) := by
  obtain ⟨st, L, h1, h2, h3⟩ := C16_net_spectrum o n ho erange flags hf
  obtain ⟨l1, l2, l3, l4⟩ := describes_lengths h3
  refine ⟨st, L, h1, h2, by simp [plotSpec, l1], ?_⟩
  intro k e p he hp
  have hk : k < L.length := by
    by_contra hc
    rw [List.getElem?_eq_none (by omega)] at he
    cases he
  have hp' : p = pointAt o xlog st k := by
    unfold plotSpec at hp
    rw [List.getElem?_map, List.getElem?_range (by omega)] at hp
    simpa using hp.symm
  have hsig : p.sig = sigAt o.spec.poisson (st.specCounts.getD k 0) (st.netCounts.getD k 0) (st.netErrors.getD k 0) (backAt o st k) := by rw [hp']; rfl
  have hsc := congrArg (fun l => l.getD k 0) h3.specCounts
  have hse := congrArg (fun l => l.getD k 0) h3.specErrors
  simp only [getD_map_of _ he] at hsc hse
  have hne : (o.goodSet e.1 e.2).Nonempty := by
    obtain ⟨i, hi1, hi2, hi3⟩ := ((h2.2 e.1 e.2).1 (List.mem_of_getElem? he)).2.2
    refine ⟨i, ?_⟩
    unfold Obs.goodSet goodIn
    simp [hi1, hi2, hi3]
  have hsum : ∀ s : Spectrum, (∀ c ∈ s.counts, 0 ≤ c) → 0 ≤ ∑ i ∈ o.goodSet e.1 e.2, at0 s.counts i := fun s hs => Finset.sum_nonneg fun i _ => at0_nonneg hs i
  refine ⟨?_, ?_, ?_⟩
  · intro hpo b hb hbp
    have hr := ratio_pos ho hb (ho.spec.poissonCounts hpo) ((ho.back b hb).poissonCounts hbp) hne
    have hL := C10_lima _ _ _ (hsum o.spec (ho.spec.poissonCounts hpo)) (hsum b ((ho.back b hb).poissonCounts hbp)) hr
    rw [(backAt_eq h3 he).2 b hb, hsc, hpo, hbp] at hsig
    simp only [sigAt, if_true] at hsig
    refine sigShows_of hsig ?_ ?_
    · rw [hL.2.2.2.1]
      simp only [excess, hb, sub_pos]
    · rw [hL.2.2.2.2]
      simp only [excess, hb, sub_neg]
  · intro hpo b hb hbp hr hpos
    have hs : 0 < Real.sqrt (∑ i ∈ o.goodSet e.1 e.2, at0 b.errors i ^ 2) := Real.sqrt_pos.2 hpos
    have hG := C11_gv _ (∑ i ∈ o.goodSet e.1 e.2, at0 b.counts i) _ _ (hsum o.spec (ho.spec.poissonCounts hpo)) hs hr
    rw [(backAt_eq h3 he).2 b hb, hsc, hpo, hbp] at hsig
    simp only [sigAt, if_true, (mul_pos hs hr).ne', if_false] at hsig
    refine sigShows_of hsig ?_ ?_
    · rw [hG.2.2.2.1, mul_comm]
      simp only [excess, hb, sub_pos]
    · rw [hG.2.2.2.2, mul_comm]
      simp only [excess, hb, sub_neg]
  · rintro (⟨hpo, hb⟩ | hpo) hpos
    · have hs : 0 < Real.sqrt (∑ i ∈ o.goodSet e.1 e.2, at0 o.spec.errors i ^ 2) := Real.sqrt_pos.2 hpos
      have h0 := hsum o.spec (ho.spec.poissonCounts hpo)
      rw [(backAt_eq h3 he).1 hb, (h3.noBack hb).2.1, (h3.noBack hb).2.2, hsc, hse, hpo] at hsig
      simp only [sigAt, if_true] at hsig
      have hx : excess o e = ∑ i ∈ o.goodSet e.1 e.2, at0 o.spec.counts i := by simp only [excess, hb]
      by_cases hp0 : 0 < ∑ i ∈ o.goodSet e.1 e.2, at0 o.spec.counts i
      · rw [if_pos hp0] at hsig
        obtain ⟨s, q1, q2, q3⟩ := quot_sign (x := ∑ i ∈ o.goodSet e.1 e.2, at0 o.spec.counts i) hs
        rw [q1] at hsig
        exact sigShows_of hsig (by rw [hx]; exact q2) (by rw [hx]; exact q3)
      · rw [if_neg hp0] at hsig
        have : ∑ i ∈ o.goodSet e.1 e.2, at0 o.spec.counts i = 0 := by linarith
        refine sigShows_of hsig ?_ ?_ <;> rw [hx, this]
    · rw [hpo] at hsig
      simp only [sigAt, Bool.false_eq_true, if_false] at hsig
      cases hb : o.back with
      | none =>
        have hs : 0 < Real.sqrt (∑ i ∈ o.goodSet e.1 e.2, at0 o.spec.errors i ^ 2) := Real.sqrt_pos.2 hpos
        rw [(h3.noBack hb).2.1, (h3.noBack hb).2.2, hsc, hse] at hsig
        obtain ⟨s, q1, q2, q3⟩ := quot_sign (x := ∑ i ∈ o.goodSet e.1 e.2, at0 o.spec.counts i) hs
        rw [q1] at hsig
        exact sigShows_of hsig (by simp only [excess, hb]; exact q2) (by simp only [excess, hb]; exact q3)
      | some b =>
        have hs : 0 < Real.sqrt (∑ i ∈ o.goodSet e.1 e.2, at0 o.spec.errors i ^ 2 + o.ratioOf b (o.goodSet e.1 e.2) ^ 2 * ∑ i ∈ o.goodSet e.1 e.2, at0 b.errors i ^ 2) := by
          apply Real.sqrt_pos.2
          have : 0 ≤ o.ratioOf b (o.goodSet e.1 e.2) ^ 2 * ∑ i ∈ o.goodSet e.1 e.2, at0 b.errors i ^ 2 :=
            mul_nonneg (sq_nonneg _) (Finset.sum_nonneg fun i _ => sq_nonneg _)
          unfold ErrPos at hpos
          linarith
        rw [(h3.withBack b hb).2.1, (h3.withBack b hb).2.2, getD_map_of _ he, getD_map_of _ he] at hsig
        obtain ⟨s, q1, q2, q3⟩ := quot_sign (x := ∑ i ∈ o.goodSet e.1 e.2, at0 o.spec.counts i - o.ratioOf b (o.goodSet e.1 e.2) * ∑ i ∈ o.goodSet e.1 e.2, at0 b.counts i) hs
        rw [q1] at hsig
        exact sigShows_of hsig (by simp only [excess, hb]; exact q2) (by simp only [excess, hb]; exact q3)

example := C109_sig_partial _ 3 exObs_back [(1, 4)] [1, -1, 1] rfl true

/-- **C109 (significance) fails for zero errors.**  Data with zero errors are accepted (with a warning), and then no finite significance is drawn: for Gaussian data without background whenever the
good channels of the group have zero errors, for Poisson data with a Gaussian background whenever those of the background have. -/
theorem C109_sig_refuted (o : Obs) (n : Nat) (ho : o.Legal n) (erange : List (ℝ × ℝ)) (flags : List Int) (hf : flags.length = n) (xlog : Bool) :
    ∃ st L, o.setGrouping erange (some flags) = .ok st ∧ o.NoticedGroups erange st.grouping L ∧
      ∀ (k : Nat) (e : Nat × Nat) (p : Point), L[k]? = some e → (plotSpec o xlog st)[k]? = some p →
        (o.spec.poisson = false → o.back = none → (∀ i ∈ o.goodSet e.1 e.2, at0 o.spec.errors i = 0) → p.sig = none) ∧
        (o.spec.poisson = true → ∀ b, o.back = some b → b.poisson = false → (∀ i ∈ o.goodSet e.1 e.2, at0 b.errors i = 0) → p.sig = none) := by
  obtain ⟨st, L, h1, h2, h3⟩ := C16_net_spectrum o n ho erange flags hf
  obtain ⟨l1, l2, l3, l4⟩ := describes_lengths h3
  refine ⟨st, L, h1, h2, ?_⟩
  intro k e p he hp
  have hk : k < L.length := by
    by_contra hc
    rw [List.getElem?_eq_none (by omega)] at he
    cases he
  have hp' : p = pointAt o xlog st k := by
    unfold plotSpec at hp
    rw [List.getElem?_map, List.getElem?_range (by omega)] at hp
    simpa using hp.symm
  have hsig : p.sig = sigAt o.spec.poisson (st.specCounts.getD k 0) (st.netCounts.getD k 0) (st.netErrors.getD k 0) (backAt o st k) := by rw [hp']; rfl
  have hse := congrArg (fun l => l.getD k 0) h3.specErrors
  simp only [getD_map_of _ he] at hse
  have hz : ∀ s : Spectrum, (∀ i ∈ o.goodSet e.1 e.2, at0 s.errors i = 0) → Real.sqrt (∑ i ∈ o.goodSet e.1 e.2, at0 s.errors i ^ 2) = 0 := by
    intro s hs
    rw [Finset.sum_eq_zero fun i hi => by rw [hs i hi]; norm_num, Real.sqrt_zero]
  constructor
  · intro hpo hb h0
    rw [hpo, (h3.noBack hb).2.2, hse, hz _ h0] at hsig
    rw [hsig]
    simp [sigAt, quot]
  · intro hpo b hb hbp h0
    rw [hpo, (backAt_eq h3 he).2 b hb, hbp, hz _ h0] at hsig
    rw [hsig]
    simp [sigAt]

example : (exObs 7 none (some (exSpec 3 none))).Legal 3 ∧ ErrPos (exSpec 7 none) ((exObs 7 none (some (exSpec 3 none))).goodSet 0 2) := by
  refine ⟨exObs_legal 7 none (some (exSpec 3 none)) (Or.inr ⟨3, none, rfl⟩), ?_⟩
  unfold ErrPos
  refine Finset.sum_pos' (fun i _ => sq_nonneg _) ⟨0, ?_, ?_⟩
  · unfold Obs.goodSet goodIn
    simp [exObs]
  · norm_num [at0, exSpec]

end Elisa.Data
