import Verif.Infer.StackProps
import Verif.Data.Units

/-!
# C140: a longer observation with the same rates

Observing `k` times as long, with `k` times the counts in source and background, gives `k` times the statistic: the best fit does not move, and the
parameters within a given difference of the statistic are those within the `k`-th part of it before.
-/

namespace Elisa.Infer.Longer

open Elisa Elisa.Grouping Elisa.Data Elisa.Infer Elisa.Infer.Stack

/-! ## Specification -/

/-- A spectrum of `k` times the exposure at the same rates: `k` times the counts, hence `√k` times the errors. -/
noncomputable def longerSpec (k : ℝ) (s : Spectrum) : Spectrum :=
  { s with counts := s.counts.map (k * ·), errors := s.errors.map (Real.sqrt k * ·), exposure := k * s.exposure }

/-- The longer observation: source and background. -/
noncomputable def longer (k : ℝ) (o : Obs) : Obs :=
  { o with spec := longerSpec k o.spec, back := o.back.map (longerSpec k) }

/-- The data of a longer observation: `k` times the counts of every kind, `√k` times the errors, and the same energies, response, area scale and ratios.
The spectrum per unit of time is the same, with an error that is smaller by `√k`. -/
structure LongerData (k : ℝ) (s s' : ObsState) : Prop where
  grouping : s'.grouping = s.grouping
  emin : s'.emin = s.emin
  emax : s'.emax = s.emax
  matrix : s'.matrix = s.matrix
  areaScale : s'.areaScale = s.areaScale
  specCounts : s'.specCounts = s.specCounts.map (k * ·)
  specErrors : s'.specErrors = s.specErrors.map (Real.sqrt k * ·)
  back : s'.back = s.back.map fun b => (b.1.map (k * ·), b.2.1.map (Real.sqrt k * ·), b.2.2)
  netCounts : s'.netCounts = s.netCounts.map (k * ·)
  netErrors : s'.netErrors = s.netErrors.map (Real.sqrt k * ·)
  ce : s'.ce = s.ce
  ceErrors : s'.ceErrors = s.ceErrors.map (· / Real.sqrt k)

/-- The same outcome: an equal exception, or the data of the longer observation. -/
def LongerOutcome (k : ℝ) : Except PyErr ObsState → Except PyErr ObsState → Prop
  | .ok s, .ok s' => LongerData k s s'
  | .error e, .error e' => e = e'
  | _, _ => False

/-! ## The data -/

theorem legal_spec {k : ℝ} (hk : 0 < k) {s : Spectrum} {n : Nat} (h : s.Legal n) : (longerSpec k s).Legal n where
  pos := h.pos
  counts := by simp [longerSpec, h.counts]
  errors := by simp [longerSpec, h.errors]
  quality := h.quality
  grouping := h.grouping
  area := h.area
  back := h.back
  qualityValues := h.qualityValues
  poissonCounts := by
    intro hp x hx
    obtain ⟨y, hy, rfl⟩ := List.mem_map.1 hx
    exact mul_nonneg hk.le (h.poissonCounts hp y hy)
  errorsNonneg := by
    intro x hx
    obtain ⟨y, hy, rfl⟩ := List.mem_map.1 hx
    exact mul_nonneg (Real.sqrt_nonneg k) (h.errorsNonneg y hy)
  exposure := mul_pos hk h.exposure
  areaPos := h.areaPos
  backPos := h.backPos
  areaNonneg := h.areaNonneg
  backNonneg := h.backNonneg
  firstStart := h.firstStart

theorem legal {k : ℝ} (hk : 0 < k) {o : Obs} {n : Nat} (h : o.Legal n) : (longer k o).Legal n where
  spec := legal_spec hk h.spec
  back := by
    intro b hb
    obtain ⟨b0, h0, rfl⟩ := Option.map_eq_some_iff.1 hb
    exact legal_spec hk (h.back b0 h0)
  resp := h.resp
  good := h.good
  goodSpec := h.goodSpec
  goodBack := by
    intro b hb
    obtain ⟨b0, h0, rfl⟩ := Option.map_eq_some_iff.1 hb
    exact h.goodBack b0 h0
  someGood := h.someGood

/-- The mean scale weights the channels with their counts: the same for `k` times the counts. -/
theorem effScale_counts (net : Bool) {k : ℝ} (hk : 0 < k) (S : Finset Nat) (c s : Nat → ℝ) : effScale net S (fun i => k * c i) s = effScale net S c s := by
  unfold effScale
  have h1 : ∑ i ∈ S, k * c i / s i = k * ∑ i ∈ S, c i / s i := by
    rw [Finset.mul_sum]
    exact Finset.sum_congr rfl fun i _ => by rw [mul_div_assoc]
  rw [h1, ← Finset.mul_sum]
  cases net
  · simp only [Bool.false_eq_true, if_false]
    by_cases hw : ∑ i ∈ S, c i / s i = 0
    · simp only [hw, mul_zero, ne_eq, not_true_eq_false, if_false]
    · rw [if_pos (mul_ne_zero hk.ne' hw), if_pos hw, mul_div_mul_left _ _ hk.ne']
  · rfl

theorem at0_scaled (l : List ℝ) (k : ℝ) : at0 (l.map (k * ·)) = fun i => k * at0 l i := funext fun i => Units.at0_map i

theorem ratio_same {k : ℝ} (hk : 0 < k) (o : Obs) (b : Spectrum) (S : Finset Nat) : (longer k o).ratioOf (longerSpec k b) S = o.ratioOf b S := by
  unfold Obs.ratioOf
  simp only [longer, longerSpec, at0_scaled, effScale_counts false hk]
  rw [mul_assoc, mul_assoc k, mul_assoc k, mul_assoc k, mul_div_mul_left _ _ hk.ne', ← mul_assoc]

theorem net_same {k : ℝ} (hk : 0 < k) (s : Spectrum) : (longerSpec k s).net = s.net := by
  unfold Spectrum.net longerSpec
  simp only
  congr 1
  rw [Bool.eq_iff_iff, List.any_eq_true, List.any_eq_true]
  simp only [List.mem_map, decide_eq_true_eq]
  constructor
  · rintro ⟨_, ⟨y, hy, rfl⟩, hx⟩
    exact ⟨y, hy, by nlinarith⟩
  · rintro ⟨y, hy, hx⟩
    exact ⟨k * y, ⟨y, hy, rfl⟩, by nlinarith⟩

theorem sq_scaled {k : ℝ} (hk : 0 < k) (S : Finset Nat) (f : Nat → ℝ) : ∑ i ∈ S, (Real.sqrt k * f i) ^ 2 = k * ∑ i ∈ S, f i ^ 2 := by
  rw [Finset.mul_sum]
  refine Finset.sum_congr rfl fun i _ => ?_
  rw [mul_pow, Real.sq_sqrt hk.le]

theorem nonneg_sum (S : Finset Nat) (f : Nat → ℝ) : 0 ≤ ∑ i ∈ S, f i ^ 2 := Finset.sum_nonneg fun _ _ => sq_nonneg _

/-- **C140 (data).**  Setting any flags on the longer observation gives the same exception or the data of the longer observation. -/
theorem C140_data (k : ℝ) (hk : 0 < k) (o : Obs) (n : Nat) (h : o.Legal n) (erange : List (ℝ × ℝ)) (flags : Option (List Int)) :
    LongerOutcome k (o.setGrouping erange flags) ((longer k o).setGrouping erange flags) := by
  have h' := legal hk h
  have hflags : ∀ (q : Obs), q.setGrouping erange flags = q.setGrouping erange (some (flags.getD q.spec.grouping)) := by
    intro q
    unfold Obs.setGrouping
    rfl
  rw [hflags, hflags]
  have eg : (longer k o).spec.grouping = o.spec.grouping := rfl
  rw [eg]
  generalize flags.getD o.spec.grouping = fl
  have hq : 0 < Real.sqrt k := Real.sqrt_pos.2 hk
  have hqq : Real.sqrt k * Real.sqrt k = k := Real.mul_self_sqrt hk.le
  by_cases hl : fl.length = n
  · obtain ⟨s, s1, s2, s3⟩ := setGrouping_describes h erange fl hl
    obtain ⟨t, t1, t2, t3⟩ := setGrouping_describes h' erange fl hl
    rw [s1, t1]
    have hL : noticedList (longer k o) erange (fixFirst fl) = noticedList o erange (fixFirst fl) := rfl
    rw [hL] at t3
    generalize noticedList o erange (fixFirst fl) = L at s3 t3
    have hemin : t.emin = s.emin := by rw [t3.emin, s3.emin]; rfl
    have hemax : t.emax = s.emax := by rw [t3.emax, s3.emax]; rfl
    have hgs : ∀ a b, (longer k o).goodSet a b = o.goodSet a b := fun _ _ => rfl
    have hsc : t.specCounts = s.specCounts.map (k * ·) := by
      rw [t3.specCounts, s3.specCounts, List.map_map]
      refine List.map_congr_left fun e _ => ?_
      simp only [Function.comp]
      rw [hgs, Finset.mul_sum]
      exact Finset.sum_congr rfl fun i _ => Units.at0_map i
    have hse : t.specErrors = s.specErrors.map (Real.sqrt k * ·) := by
      rw [t3.specErrors, s3.specErrors, List.map_map]
      refine List.map_congr_left fun e _ => ?_
      simp only [Function.comp]
      rw [hgs, ← Real.sqrt_mul hk.le, ← sq_scaled hk]
      congr 1
      exact Finset.sum_congr rfl fun i _ => congrArg (· ^ 2) (Units.at0_map i)
    have hbk : t.back = (s.back.map fun b => (b.1.map (k * ·), b.2.1.map (Real.sqrt k * ·), b.2.2)) ∧ t.netCounts = s.netCounts.map (k * ·) ∧
        t.netErrors = s.netErrors.map (Real.sqrt k * ·) := by
      cases hb : o.back with
      | none =>
        have hb' : (longer k o).back = none := by simp [longer, hb]
        obtain ⟨x1, x2, x3⟩ := s3.noBack hb
        obtain ⟨y1, y2, y3⟩ := t3.noBack hb'
        exact ⟨by rw [x1, y1]; rfl, by rw [x2, y2, hsc], by rw [x3, y3, hse]⟩
      | some b =>
        have hb' : (longer k o).back = some (longerSpec k b) := by simp [longer, hb]
        obtain ⟨x1, x2, x3⟩ := s3.withBack b hb
        obtain ⟨y1, y2, y3⟩ := t3.withBack _ hb'
        simp only [ratio_same hk, hgs] at y1 y2 y3
        have c1 : ∀ e : Nat × Nat, ∑ i ∈ o.goodSet e.1 e.2, at0 (longerSpec k b).counts i = k * ∑ i ∈ o.goodSet e.1 e.2, at0 b.counts i := by
          intro e
          simp only [longerSpec, at0_scaled]
          rw [Finset.mul_sum]
        have c2 : ∀ e : Nat × Nat, ∑ i ∈ o.goodSet e.1 e.2, at0 (longer k o).spec.counts i = k * ∑ i ∈ o.goodSet e.1 e.2, at0 o.spec.counts i := by
          intro e
          simp only [longer, longerSpec, at0_scaled]
          rw [Finset.mul_sum]
        have c3 : ∀ e : Nat × Nat, ∑ i ∈ o.goodSet e.1 e.2, at0 (longerSpec k b).errors i ^ 2 = k * ∑ i ∈ o.goodSet e.1 e.2, at0 b.errors i ^ 2 := by
          intro e
          simp only [longerSpec, at0_scaled]
          rw [sq_scaled hk]
        have c4 : ∀ e : Nat × Nat, ∑ i ∈ o.goodSet e.1 e.2, at0 (longer k o).spec.errors i ^ 2 = k * ∑ i ∈ o.goodSet e.1 e.2, at0 o.spec.errors i ^ 2 := by
          intro e
          simp only [longer, longerSpec, at0_scaled]
          rw [sq_scaled hk]
        refine ⟨?_, ?_, ?_⟩
        · rw [y1, x1]
          simp only [Option.map_some, Option.some.injEq, Prod.mk.injEq, List.map_map, and_true]
          refine ⟨List.map_congr_left fun e _ => ?_, List.map_congr_left fun e _ => ?_⟩
          · exact c1 e
          · simp only [Function.comp]
            rw [c3, Real.sqrt_mul hk.le]
        · rw [y2, x2, List.map_map]
          refine List.map_congr_left fun e _ => ?_
          simp only [Function.comp]
          rw [c1, c2]
          ring
        · rw [y3, x3, List.map_map]
          refine List.map_congr_left fun e _ => ?_
          simp only [Function.comp]
          rw [c3, c4, ← Real.sqrt_mul hk.le]
          congr 1
          ring
    have hnl : s.netCounts.length = L.length ∧ s.netErrors.length = L.length := by
      cases hb : o.back with
      | none =>
        obtain ⟨-, x2, x3⟩ := s3.noBack hb
        rw [x2, x3, s3.specCounts, s3.specErrors]
        simp
      | some b =>
        obtain ⟨-, x2, x3⟩ := s3.withBack b hb
        rw [x2, x3]
        simp
    have hel : s.emin.length = L.length ∧ s.emax.length = L.length := by
      rw [s3.emin, s3.emax]
      simp
    have hjl : ∀ (l : List ℝ) (j : Nat), l.length = L.length → j < L.length → ∃ v, l[j]? = some v := fun l j h1 h2 => ⟨l[j]'(by omega), List.getElem?_eq_getElem (by omega)⟩
    refine ⟨by rw [s2, t2], hemin, hemax, by rw [t3.matrix, s3.matrix]; rfl, ?_, hsc, hse, hbk.1, hbk.2.1, hbk.2.2, ?_, ?_⟩
    · rw [t3.areaScale, s3.areaScale]
      refine List.map_congr_left fun e _ => ?_
      have e1 : ((longer k o).spec.net && (longer k o).back.isNone) = (o.spec.net && o.back.isNone) := by
        show ((longerSpec k o.spec).net && (o.back.map (longerSpec k)).isNone) = _
        rw [net_same hk, Option.isNone_map]
      have e2 : at0 (longer k o).spec.counts = fun i => k * at0 o.spec.counts i := at0_scaled _ _
      rw [e1, e2]
      exact effScale_counts _ hk _ _ _
    · apply List.ext_getElem?
      intro j
      by_cases hj : j < L.length
      · obtain ⟨v, hv⟩ := hjl _ j hnl.1 hj
        obtain ⟨lo, hlo⟩ := hjl _ j hel.1 hj
        obtain ⟨hi, hhi⟩ := hjl _ j hel.2 hj
        rw [s3.ce.2 j v lo hi hv hlo hhi, t3.ce.2 j (k * v) lo hi (by rw [hbk.2.1, List.getElem?_map, hv]; rfl) (by rw [hemin]; exact hlo) (by rw [hemax]; exact hhi)]
        show some (k * v / ((hi - lo) * (k * o.spec.exposure))) = _
        rw [show (hi - lo) * (k * o.spec.exposure) = k * ((hi - lo) * o.spec.exposure) by ring, mul_div_mul_left _ _ hk.ne']
      · rw [List.getElem?_eq_none (by rw [t3.ce.1]; omega), List.getElem?_eq_none (by rw [s3.ce.1]; omega)]
    · apply List.ext_getElem?
      intro j
      by_cases hj : j < L.length
      · obtain ⟨v, hv⟩ := hjl _ j hnl.2 hj
        obtain ⟨lo, hlo⟩ := hjl _ j hel.1 hj
        obtain ⟨hi, hhi⟩ := hjl _ j hel.2 hj
        rw [List.getElem?_map, s3.ceErrors.2 j v lo hi hv hlo hhi,
          t3.ceErrors.2 j (Real.sqrt k * v) lo hi (by rw [hbk.2.2, List.getElem?_map, hv]; rfl) (by rw [hemin]; exact hlo) (by rw [hemax]; exact hhi)]
        show some (Real.sqrt k * v / ((hi - lo) * (k * o.spec.exposure))) = some (v / ((hi - lo) * o.spec.exposure) / Real.sqrt k)
        congr 1
        rw [show (hi - lo) * (k * o.spec.exposure) = Real.sqrt k * (((hi - lo) * o.spec.exposure) * Real.sqrt k) by
          nth_rewrite 1 [← hqq]; ring, mul_div_mul_left _ _ hq.ne', div_div]
      · rw [List.getElem?_eq_none (by rw [t3.ceErrors.1]; omega), List.getElem?_eq_none (by rw [List.length_map, s3.ceErrors.1]; omega)]
  · have hc : o.resp.channelNumber = n := h.resp.emin
    have herr : ∀ q : Obs, q.resp = o.resp → q.setGrouping erange (some fl) = .error .valueError := by
      intro q hq
      unfold Obs.setGrouping
      simp only [Option.getD_some, hq, hc, ne_eq, hl, not_false_eq_true, if_true]
      rfl
    rw [herr o rfl, herr (longer k o) rfl]
    rfl

/-! ## One channel -/

theorem poisson_scaled {k n μ : ℝ} (hk : 0 < k) (h : μ ≠ 0 ∨ n = 0) : poissonLogProb (k * n) (k * μ) = k * poissonLogProb n μ := by
  unfold poissonLogProb xlogy
  by_cases hn : n = 0
  · subst hn
    simp only [mul_zero, if_true, zero_sub, sub_zero, sub_self]
    rw [show -(k * μ) = k * (-μ) by ring, show (0 : ℝ) = k * 0 by ring, ← mul_min_of_nonneg _ _ hk.le]
    simp
  · have hμ : μ ≠ 0 := h.resolve_right hn
    simp only [mul_eq_zero, hk.ne', hn, or_self, if_false]
    rw [Real.log_mul hk.ne' hμ, Real.log_mul hk.ne' hn]
    rw [show k * n * (Real.log k + Real.log μ) - k * μ - (k * n * (Real.log k + Real.log n) - k * n) = k * (n * Real.log μ - μ - (n * Real.log n - n)) by ring]
    nth_rewrite 1 [show (0 : ℝ) = k * 0 by ring]
    rw [← mul_min_of_nonneg _ _ hk.le]

theorem normal_scaled {k v l σ : ℝ} (hk : 0 < k) : normalLogProb (k * v) (k * l) (Real.sqrt k * σ) = k * normalLogProb v l σ := by
  unfold normalLogProb
  have hq : 0 < Real.sqrt k := Real.sqrt_pos.2 hk
  have hqq : Real.sqrt k * Real.sqrt k = k := Real.mul_self_sqrt hk.le
  have e : (k * v - k * l) / (Real.sqrt k * σ) = Real.sqrt k * ((v - l) / σ) := by
    rw [← mul_sub]
    nth_rewrite 1 [← hqq]
    rw [mul_assoc, mul_div_mul_left _ _ hq.ne', mul_div_assoc]
  simp only [e]
  rw [show -1 / 2 * (Real.sqrt k * ((v - l) / σ)) * (Real.sqrt k * ((v - l) / σ)) = (Real.sqrt k * Real.sqrt k) * (-1 / 2 * ((v - l) / σ) * ((v - l) / σ)) by ring, hqq]

theorem pgstat_scaled {k s n b σ a : ℝ} (hk : 0 < k) : pgstatBackground (k * s) (k * n) (k * b) (Real.sqrt k * σ) a = k * pgstatBackground s n b σ a := by
  have hqq : Real.sqrt k * Real.sqrt k = k := Real.mul_self_sqrt hk.le
  unfold pgstatBackground
  simp only
  have e1 : Real.sqrt k * σ * (Real.sqrt k * σ) = k * (σ * σ) := by
    rw [show Real.sqrt k * σ * (Real.sqrt k * σ) = (Real.sqrt k * Real.sqrt k) * (σ * σ) by ring, hqq]
  rw [e1]
  generalize σ * σ = V
  have e2 : k * b - a * (k * V) = k * (b - a * V) := by ring
  rw [e2]
  generalize b - a * V = e
  have e3 : a * (k * V) * (k * n) + k * e * (k * s) = k ^ 2 * (a * V * n + e * s) := by ring
  rw [e3]
  generalize a * V * n + e * s = f
  have e4 : a * (k * e) - k * s = k * (a * e - s) := by ring
  rw [e4]
  generalize a * e - s = c
  have e5 : Real.sqrt (k * c * (k * c) + 4 * a * (k ^ 2 * f)) = k * Real.sqrt (c * c + 4 * a * f) := by
    rw [show k * c * (k * c) + 4 * a * (k ^ 2 * f) = k ^ 2 * (c * c + 4 * a * f) by ring, Real.sqrt_mul (sq_nonneg k), Real.sqrt_sq hk.le]
  rw [e5]
  have c1 : (0 ≤ k * e ∨ 0 ≤ k ^ 2 * f) ↔ (0 ≤ e ∨ 0 ≤ f) := by
    rw [mul_nonneg_iff_of_pos_left hk, mul_nonneg_iff_of_pos_left (by positivity)]
  have c2 : 0 < k * n ↔ 0 < n := mul_pos_iff_of_pos_left hk
  simp only [c1, c2]
  split
  · split
    · rw [← mul_add, mul_div_assoc]
    · rfl
  · simp

theorem wstat_scaled {k s n m a : ℝ} (hk : 0 < k) : wstatBackground (k * s) (k * n) (k * m) a = k * wstatBackground s n m a := by
  unfold wstatBackground
  simp only
  have e1 : a * (k * n + k * m) - (a + 1) * (k * s) = k * (a * (n + m) - (a + 1) * s) := by ring
  rw [e1]
  generalize a * (n + m) - (a + 1) * s = c
  have e2 : Real.sqrt (k * c * (k * c) + 4 * a * (a + 1) * (k * m) * (k * s)) = k * Real.sqrt (c * c + 4 * a * (a + 1) * m * s) := by
    rw [show k * c * (k * c) + 4 * a * (a + 1) * (k * m) * (k * s) = k ^ 2 * (c * c + 4 * a * (a + 1) * m * s) by ring, Real.sqrt_mul (sq_nonneg k), Real.sqrt_sq hk.le]
  rw [e2]
  have c1 : k * n = 0 ↔ n = 0 := by simp [hk.ne']
  have c2 : k * m = 0 ↔ m = 0 := by simp [hk.ne']
  have c3 : k * s ≤ a / (a + 1) * (k * n) ↔ s ≤ a / (a + 1) * n := by
    rw [show a / (a + 1) * (k * n) = k * (a / (a + 1) * n) by ring]
    exact mul_le_mul_iff_right₀ hk
  simp only [c1, c2, c3]
  split
  · rw [mul_div_assoc]
  · split
    · split
      · ring
      · simp
    · rw [← mul_add, mul_div_assoc]

/-! ## The likelihood -/

/-- What a fit receives from a longer observation. -/
structure FitTimes (k : ℝ) (d d' : FitData) : Prop where
  specCounts : d'.specCounts = d.specCounts.map (k * ·)
  netCounts : d'.netCounts = d.netCounts.map (k * ·)
  netErrors : d'.netErrors = d.netErrors.map (Real.sqrt k * ·)
  back : d'.back = d.back.map fun b => ⟨b.counts.map (k * ·), b.errors.map (Real.sqrt k * ·), b.ratio⟩
  matrix : d'.matrix = d.matrix
  areaScale : d'.areaScale = d.areaScale
  exposure : d'.exposure = k * d.exposure
  specPoisson : d'.specPoisson = d.specPoisson
  backPoisson : d'.backPoisson = d.backPoisson

/-- The likelihood of the longer observation: everything is `k` times what it was. -/
structure SitesTimes (k : ℝ) (s s' : Sites) : Prop where
  onData : s'.onData = s.onData.map (k * ·)
  onModel : s'.onModel = s.onModel.map (k * ·)
  onLoglike : s'.onLoglike = s.onLoglike.map (k * ·)
  loglike : s'.loglike = s.loglike.map (k * ·)
  off : s'.off = s.off.map fun t => (t.1.map (k * ·), t.2.1.map (k * ·), t.2.2.map (k * ·))

theorem ofObs_times {k : ℝ} {o : Obs} {s s' : ObsState} (h : LongerData k s s') : FitTimes k (FitData.ofObs o s) (FitData.ofObs (longer k o) s') where
  specCounts := h.specCounts
  netCounts := h.netCounts
  netErrors := h.netErrors
  back := by
    show s'.back.map _ = (s.back.map _).map _
    rw [h.back, Option.map_map, Option.map_map]
    rfl
  matrix := h.matrix
  areaScale := h.areaScale
  exposure := rfl
  specPoisson := rfl
  backPoisson := by
    show (((o.back.map (longerSpec k)).map (·.poisson)).getD false) = ((o.back.map (·.poisson)).getD false)
    cases o.back <;> rfl

theorem nth_scaled (l : List ℝ) (k : ℝ) (j : Nat) : nth (l.map (k * ·)) j = k * nth l j := Units.at0_map j

theorem size_times {k : ℝ} {d d' : FitData} (h : FitTimes k d d') : d'.size = d.size := by
  unfold FitData.size
  rw [h.specCounts, List.length_map]

theorem folded_times {k : ℝ} {d d' : FitData} (h : FitTimes k d d') (u : List ℝ) (j : Nat) : d'.folded u j = k * d.folded u j := by
  unfold FitData.folded
  rw [h.matrix, h.areaScale, h.exposure]
  ring

theorem map_scaled {k : ℝ} {n : Nat} {f g : Nat → ℝ} (h : ∀ j < n, g j = k * f j) : (List.range n).map g = ((List.range n).map f).map (k * ·) := by
  rw [List.map_map]
  exact List.map_congr_left fun j hj => h j (List.mem_range.1 hj)

theorem checkStat_times {k : ℝ} (hk : 0 < k) {d d' : FitData} (h : FitTimes k d d') (stat : Stat) : checkStat d' stat = checkStat d stat := by
  have hz : ∀ l : List ℝ, anyZero (l.map (Real.sqrt k * ·)) = anyZero l := by
    intro l
    unfold anyZero
    rw [List.any_map]
    congr 1
    funext x
    have : Real.sqrt k ≠ 0 := (Real.sqrt_pos.2 hk).ne'
    simp [this]
  unfold checkStat
  rw [h.specPoisson, h.netErrors, h.back, h.backPoisson, hz]
  cases d.back with
  | none => rfl
  | some b => simp only [Option.map_some, Option.isSome_some, Option.isNone_some, hz]

/-- **C140 (likelihood).**  For every statistic: the expected counts, the fitted background and the log-likelihood of every channel of the longer observation are `k` times
those of the shorter one for the same fluxes, in the numerical range of the program. -/
theorem C140_likelihood (k : ℝ) (hk : 0 < k) (stat : Stat) (d d' : FitData) (h : FitTimes k d d') (u : List ℝ) (hu : Usable stat d)
    (hr : InRange stat d u (d.folded u)) (hr' : InRange stat d' u (d'.folded u)) :
    ∃ s s', likelihood stat d u = .ok s ∧ likelihood stat d' u = .ok s' ∧ SitesTimes k s s' := by
  have hn := size_times h
  have hc : stat ≠ .pstat → ∀ j < d.size, d.sourceCounts u j = d.folded u j ∧ 0 < d.folded u j ∧ d'.sourceCounts u j = k * d.sourceCounts u j := by
    intro hs j hj
    obtain ⟨a1, a2⟩ := sourceCounts_eq hs hr j hj
    obtain ⟨b1, -⟩ := sourceCounts_eq hs hr' j (by rw [hn]; exact hj)
    exact ⟨a1, a2, by rw [b1, a1, folded_times h]⟩
  unfold likelihood
  simp only [hn]
  cases stat with
  | chi2 =>
    have c := hc (by decide)
    refine ⟨_, _, rfl, rfl, ?_⟩
    have hm : ∀ j < d.size, d'.sourceCounts u j = k * d.sourceCounts u j := fun j hj => (c j hj).2.2
    have hl : ∀ j < d.size, normalLogProb (nth d'.netCounts j) (nth ((List.range d.size).map (d'.sourceCounts u)) j) (nth d'.netErrors j) =
        k * normalLogProb (nth d.netCounts j) (nth ((List.range d.size).map (d.sourceCounts u)) j) (nth d.netErrors j) := by
      intro j hj
      rw [nth_map hj, nth_map hj, hm j hj, h.netCounts, h.netErrors, nth_scaled, nth_scaled, normal_scaled hk]
    exact ⟨h.netCounts, map_scaled hm, map_scaled hl, map_scaled hl, rfl⟩
  | cstat =>
    have c := hc (by decide)
    refine ⟨_, _, rfl, rfl, ?_⟩
    have hm : ∀ j < d.size, d'.sourceCounts u j = k * d.sourceCounts u j := fun j hj => (c j hj).2.2
    have hl : ∀ j < d.size, poissonLogProb (nth d'.specCounts j) (nth ((List.range d.size).map (d'.sourceCounts u)) j) =
        k * poissonLogProb (nth d.specCounts j) (nth ((List.range d.size).map (d.sourceCounts u)) j) := by
      intro j hj
      rw [nth_map hj, nth_map hj, hm j hj, h.specCounts, nth_scaled, poisson_scaled hk]
      left
      rw [(c j hj).1]
      exact (c j hj).2.1.ne'
    exact ⟨h.specCounts, map_scaled hm, map_scaled hl, map_scaled hl, rfl⟩
  | pstat =>
    unfold Usable at hu
    cases hb : d.back with
    | none => simp [hb] at hu
    | some b =>
      have hb' : d'.back = some ⟨b.counts.map (k * ·), b.errors.map (Real.sqrt k * ·), b.ratio⟩ := by rw [h.back, hb]; rfl
      simp only [hb']
      refine ⟨_, _, rfl, rfl, ?_⟩
      have hm : ∀ j < d.size, clip (1e-30) (1e15) (d'.sourceRate u j * d'.exposure + nth b.ratio j * nth (b.counts.map (k * ·)) j) =
          k * clip (1e-30) (1e15) (d.sourceRate u j * d.exposure + nth b.ratio j * nth b.counts j) ∧
          clip (1e-30) (1e15) (d.sourceRate u j * d.exposure + nth b.ratio j * nth b.counts j) ≠ 0 := by
        intro j hj
        obtain ⟨a1, a2, a3⟩ := hr.rate j hj
        obtain ⟨b1, b2, b3⟩ := hr'.rate j (by rw [hn]; exact hj)
        have e : expected .pstat d j (d.folded u j) = d.folded u j + nth b.ratio j * nth b.counts j := by simp [expected, hb]
        have e' : expected .pstat d' j (d'.folded u j) = d'.folded u j + nth b.ratio j * nth (b.counts.map (k * ·)) j := by simp [expected, hb']
        rw [e] at a2 a3
        rw [e'] at b2 b3
        rw [a1, b1, clip_id a2 a3, clip_id b2 b3]
        refine ⟨?_, ?_⟩
        · rw [folded_times h, nth_scaled]
          ring
        · have : (0 : ℝ) < 1e-30 := by norm_num
          exact (this.trans_le a2).ne'
      have hl : ∀ j < d.size, poissonLogProb (nth d'.specCounts j) (nth ((List.range d.size).map fun j =>
            clip (1e-30) (1e15) (d'.sourceRate u j * d'.exposure + nth b.ratio j * nth (b.counts.map (k * ·)) j)) j) =
          k * poissonLogProb (nth d.specCounts j) (nth ((List.range d.size).map fun j => clip (1e-30) (1e15) (d.sourceRate u j * d.exposure + nth b.ratio j * nth b.counts j)) j) := by
        intro j hj
        rw [nth_map hj, nth_map hj, (hm j hj).1, h.specCounts, nth_scaled, poisson_scaled hk]
        exact Or.inl (hm j hj).2
      exact ⟨h.specCounts, map_scaled fun j hj => (hm j hj).1, map_scaled hl, map_scaled hl, rfl⟩
  | pgstat =>
    have c := hc (by decide)
    unfold Usable at hu
    cases hb : d.back with
    | none => simp [hb] at hu
    | some b =>
      simp only [hb] at hu
      have hb' : d'.back = some ⟨b.counts.map (k * ·), b.errors.map (Real.sqrt k * ·), b.ratio⟩ := by rw [h.back, hb]; rfl
      simp only [hb']
      refine ⟨_, _, rfl, rfl, ?_⟩
      generalize hB' : ((List.range d.size).map fun j => pgstatBackground (d'.sourceCounts u j) (nth d'.specCounts j) (nth (b.counts.map (k * ·)) j)
        (nth (b.errors.map (Real.sqrt k * ·)) j) (nth b.ratio j)) = B'
      generalize hB : ((List.range d.size).map fun j => pgstatBackground (d.sourceCounts u j) (nth d.specCounts j) (nth b.counts j) (nth b.errors j) (nth b.ratio j)) = B
      have hBB : B' = B.map (k * ·) := by
        rw [← hB, ← hB']
        apply map_scaled
        intro j hj
        rw [(c j hj).2.2, h.specCounts, nth_scaled, nth_scaled, nth_scaled, pgstat_scaled hk]
      have hpos : ∀ j < d.size, 0 < d.sourceCounts u j + nth b.ratio j * nth B j := by
        intro j hj
        obtain ⟨u1, u2, u3⟩ := hu j hj
        rw [← hB, nth_map hj, (c j hj).1]
        have := (pgstatBackground_facts (B := nth b.counts j) (c j hj).2.1 u1 u2 u3).1
        have h2 := (c j hj).2.1
        positivity
      have hm : ∀ j < d.size, d'.sourceCounts u j + nth b.ratio j * nth B' j = k * (d.sourceCounts u j + nth b.ratio j * nth B j) := by
        intro j hj
        rw [(c j hj).2.2, hBB, nth_scaled]
        ring
      have hon : ∀ j < d.size, poissonLogProb (nth d'.specCounts j) (nth ((List.range d.size).map fun j => d'.sourceCounts u j + nth b.ratio j * nth B' j) j) =
          k * poissonLogProb (nth d.specCounts j) (nth ((List.range d.size).map fun j => d.sourceCounts u j + nth b.ratio j * nth B j) j) := by
        intro j hj
        rw [nth_map hj, nth_map hj, hm j hj, h.specCounts, nth_scaled, poisson_scaled hk]
        exact Or.inl (hpos j hj).ne'
      have hoff : ∀ j < d.size, normalLogProb (nth (b.counts.map (k * ·)) j) (nth B' j) (nth (b.errors.map (Real.sqrt k * ·)) j) =
          k * normalLogProb (nth b.counts j) (nth B j) (nth b.errors j) := by
        intro j hj
        rw [hBB, nth_scaled, nth_scaled, nth_scaled, normal_scaled hk]
      refine ⟨h.specCounts, map_scaled hm, map_scaled hon, map_scaled ?_, ?_⟩
      · intro j hj
        rw [map_scaled hon, map_scaled hoff, nth_scaled, nth_scaled]
        ring
      · simp only [Option.map_some, Option.some.injEq, Prod.mk.injEq, true_and]
        exact ⟨hBB, map_scaled hoff⟩
  | wstat =>
    have c := hc (by decide)
    unfold Usable at hu
    cases hb : d.back with
    | none => simp [hb] at hu
    | some b =>
      simp only [hb] at hu
      have hb' : d'.back = some ⟨b.counts.map (k * ·), b.errors.map (Real.sqrt k * ·), b.ratio⟩ := by rw [h.back, hb]; rfl
      simp only [hb']
      refine ⟨_, _, rfl, rfl, ?_⟩
      generalize hB' : ((List.range d.size).map fun j => wstatBackground (d'.sourceCounts u j) (nth d'.specCounts j) (nth (b.counts.map (k * ·)) j) (nth b.ratio j)) = B'
      generalize hB : ((List.range d.size).map fun j => wstatBackground (d.sourceCounts u j) (nth d.specCounts j) (nth b.counts j) (nth b.ratio j)) = B
      have hBB : B' = B.map (k * ·) := by
        rw [← hB, ← hB']
        apply map_scaled
        intro j hj
        rw [(c j hj).2.2, h.specCounts, nth_scaled, nth_scaled, wstat_scaled hk]
      have hfacts : ∀ j < d.size, 0 < d.sourceCounts u j + nth b.ratio j * nth B j ∧ (nth B j ≠ 0 ∨ nth b.counts j = 0) := by
        intro j hj
        obtain ⟨u1, u2, u3⟩ := hu j hj
        rw [← hB, nth_map hj, (c j hj).1]
        obtain ⟨f1, -, f3, -⟩ := wstatBackground_facts (c j hj).2.1.le u1 u2 u3
        have h2 := (c j hj).2.1
        exact ⟨by positivity, f3.imp (fun x => x.ne') id⟩
      have hm : ∀ j < d.size, d'.sourceCounts u j + nth b.ratio j * nth B' j = k * (d.sourceCounts u j + nth b.ratio j * nth B j) := by
        intro j hj
        rw [(c j hj).2.2, hBB, nth_scaled]
        ring
      have hon : ∀ j < d.size, poissonLogProb (nth d'.specCounts j) (nth ((List.range d.size).map fun j => d'.sourceCounts u j + nth b.ratio j * nth B' j) j) =
          k * poissonLogProb (nth d.specCounts j) (nth ((List.range d.size).map fun j => d.sourceCounts u j + nth b.ratio j * nth B j) j) := by
        intro j hj
        rw [nth_map hj, nth_map hj, hm j hj, h.specCounts, nth_scaled, poisson_scaled hk]
        exact Or.inl (hfacts j hj).1.ne'
      have hoff : ∀ j < d.size, poissonLogProb (nth (b.counts.map (k * ·)) j) (nth B' j) = k * poissonLogProb (nth b.counts j) (nth B j) := by
        intro j hj
        rw [hBB, nth_scaled, nth_scaled, poisson_scaled hk]
        exact (hfacts j hj).2
      refine ⟨h.specCounts, map_scaled hm, map_scaled hon, map_scaled ?_, ?_⟩
      · intro j hj
        rw [map_scaled hon, map_scaled hoff, nth_scaled, nth_scaled]
        ring
      · simp only [Option.map_some, Option.some.injEq, Prod.mk.injEq, true_and]
        exact ⟨hBB, map_scaled hoff⟩

/-! ## The fit -/

/-- A data set of a fit, its longer version, and its model: the fluxes for every value of the parameters. -/
structure Pair (Θ : Type) where
  stat : Stat
  short : FitData
  long : FitData
  flux : Θ → List ℝ

/-- The data sets of the fit before and after, at given parameters. -/
def before {Θ : Type} (ps : List (Pair Θ)) (θ : Θ) : List (Stat × FitData × List ℝ) := ps.map fun p => (p.stat, p.short, p.flux θ)

def after {Θ : Type} (ps : List (Pair Θ)) (θ : Θ) : List (Stat × FitData × List ℝ) := ps.map fun p => (p.stat, p.long, p.flux θ)

/-- Every data set is `k` times as long, is usable, and at `θ` no flux or count is outside the numerical range of the program. -/
def Proper {Θ : Type} (k : ℝ) (ps : List (Pair Θ)) (θ : Θ) : Prop :=
  ∀ p ∈ ps, FitTimes k p.short p.long ∧ Usable p.stat p.short ∧ InRange p.stat p.short (p.flux θ) (p.short.folded (p.flux θ)) ∧
    InRange p.stat p.long (p.flux θ) (p.long.folded (p.flux θ))

/-- **C140 (statistic).**  The statistic of a fit to any number of data sets, all observed `k` times as long at the same rates, is `k` times the statistic before, for all
parameters. -/
theorem C140_statistic {Θ : Type} (k : ℝ) (hk : 0 < k) (ps : List (Pair Θ)) (θ : Θ) (h : Proper k ps θ) :
    ∃ x, Reports (before ps θ) x ∧ Reports (after ps θ) (k * x) := by
  have hsum : ∀ l : List ℝ, (l.map (k * ·)).sum = k * l.sum := fun l => by simpa using List.sum_map_mul_left l (fun x => x) k
  obtain ⟨sites, hs⟩ := fitSites_ok (before ps θ) fun x hx => by
    obtain ⟨p, hp, rfl⟩ := List.mem_map.1 hx
    obtain ⟨s, -, h1, -⟩ := C140_likelihood k hk p.stat p.short p.long (h p hp).1 (p.flux θ) (h p hp).2.1 (h p hp).2.2.1 (h p hp).2.2.2
    exact ⟨s, h1⟩
  obtain ⟨sites', hs'⟩ := fitSites_ok (after ps θ) fun x hx => by
    obtain ⟨p, hp, rfl⟩ := List.mem_map.1 hx
    obtain ⟨-, s, -, h1, -⟩ := C140_likelihood k hk p.stat p.short p.long (h p hp).1 (p.flux θ) (h p hp).2.1 (h p hp).2.2.1 (h p hp).2.2.2
    exact ⟨s, h1⟩
  refine ⟨_, ⟨sites, hs, rfl⟩, sites', hs', ?_⟩
  rw [fitSites_total _ _ hs, fitSites_total _ _ hs', ← hsum]
  unfold before after
  rw [List.map_map, List.map_map, List.map_map]
  congr 1
  refine List.map_congr_left fun p hp => ?_
  obtain ⟨s, s', h1, h2, h3⟩ := C140_likelihood k hk p.stat p.short p.long (h p hp).1 (p.flux θ) (h p hp).2.1 (h p hp).2.2.1 (h p hp).2.2.2
  simp only [Function.comp, devOf, h1, h2, h3.loglike, hsum]
  ring

theorem reports_unique {ds : List (Stat × FitData × List ℝ)} {x y : ℝ} (hx : Reports ds x) (hy : Reports ds y) : x = y := by
  obtain ⟨s, h1, rfl⟩ := hx
  obtain ⟨t, h2, rfl⟩ := hy
  rw [h1] at h2
  rw [Except.ok.inj h2]

/-- **C140 (regions).**  The parameters whose statistic is within `Δ` of another one before are those within `k Δ` after; in particular (`Δ = 0`) a best fit stays a best fit,
and the region for a given difference of the longer observation is the region for the `k`-th part of the difference of the shorter one. -/
theorem C140_region {Θ : Type} (k : ℝ) (hk : 0 < k) (ps : List (Pair Θ)) (θ θ₀ : Θ) (h : Proper k ps θ) (h₀ : Proper k ps θ₀) (Δ x x₀ y y₀ : ℝ)
    (hx : Reports (before ps θ) x) (hx₀ : Reports (before ps θ₀) x₀) (hy : Reports (after ps θ) y) (hy₀ : Reports (after ps θ₀) y₀) :
    x ≤ x₀ + Δ ↔ y ≤ y₀ + k * Δ := by
  obtain ⟨a, a1, a2⟩ := C140_statistic k hk ps θ h
  obtain ⟨b, b1, b2⟩ := C140_statistic k hk ps θ₀ h₀
  rw [reports_unique hx a1, reports_unique hx₀ b1, reports_unique hy a2, reports_unique hy₀ b2, ← mul_add]
  exact (mul_le_mul_iff_right₀ hk).symm

/-- **C140 (files to fit).**  The longer observation with the same energy ranges and flags gives a fit the data assumed in the theorems above, and the same statistics are accepted. -/
theorem C140_longer (k : ℝ) (hk : 0 < k) (o : Obs) (n : Nat) (h : o.Legal n) (erange : List (ℝ × ℝ)) (flags : Option (List Int)) (s : ObsState) (hs : o.setGrouping erange flags = .ok s) :
    ∃ s', (longer k o).setGrouping erange flags = .ok s' ∧ FitTimes k (FitData.ofObs o s) (FitData.ofObs (longer k o) s') ∧
      ∀ stat, checkStat (FitData.ofObs (longer k o) s') stat = checkStat (FitData.ofObs o s) stat := by
  have hd := C140_data k hk o n h erange flags
  rw [hs] at hd
  cases h' : (longer k o).setGrouping erange flags with
  | error e => rw [h'] at hd; exact hd.elim
  | ok s' =>
    rw [h'] at hd
    exact ⟨s', rfl, ofObs_times hd, fun stat => checkStat_times hk (ofObs_times hd) stat⟩

/-! ## Examples -/

/-- The hypotheses of `C140_longer`: an observation with background and varying area scale, three times as long, two channels in one group. -/
example : ∃ s, vObs.setGrouping [(0, 10)] (some [1, -1, 1]) = .ok s ∧ vObs.Legal 3 := by
  obtain ⟨s, h, -⟩ := setGrouping_describes vObs_legal [(0, 10)] [1, -1, 1] rfl
  exact ⟨s, h, vObs_legal⟩

/-- One channel, `n` counts in the source and `m` in the background region, exposure `x`, errors of a counting experiment. -/
noncomputable def exObs (n m x : ℝ) : FitData := { obs n m x with back := some ⟨[m], [Real.sqrt x], [1]⟩ }

theorem ex_times (n m : ℝ) : FitTimes 2 (exObs n m 1) (exObs (2 * n) (2 * m) 2) where
  specCounts := rfl
  netCounts := rfl
  netErrors := by simp [exObs, obs]
  back := by simp [exObs]
  matrix := rfl
  areaScale := rfl
  exposure := by norm_num [exObs, obs]
  specPoisson := rfl
  backPoisson := rfl

/-- The hypotheses of `C140_region` are met by a joint fit of an on/off observation (1 and 3 counts) and a background-free one (7 counts), both twice as long, for all amplitudes
between 1/2 and 10. -/
example (a b : ℝ) (ha : 1 / 2 ≤ a ∧ a ≤ 10) (hb : 1 / 2 ≤ b ∧ b ≤ 10) :
    Proper 2 [⟨.wstat, exObs 1 3 1, exObs 2 6 2, fun θ : ℝ × ℝ => [θ.1]⟩, ⟨.pgstat, exObs 7 2 1, exObs 14 4 2, fun θ : ℝ × ℝ => [θ.2]⟩] (a, b) := by
  intro p hp
  simp only [List.mem_cons, List.not_mem_nil, or_false] at hp
  rcases hp with rfl | rfl
  · refine ⟨?_, ?_, ?_, ?_⟩
    · have := ex_times 1 3
      norm_num at this
      exact this
    · intro j hj
      have : j = 0 := by simpa [exObs, obs, FitData.size] using hj
      subst this
      norm_num [exObs, obs, nth]
    · exact obs_range (stat := .wstat) (n := 1) (m := 3) (x := 1) (by decide) (Or.inl rfl) ha.1 ha.2
    · exact obs_range (stat := .wstat) (n := 2) (m := 6) (x := 2) (by decide) (Or.inr rfl) ha.1 ha.2
  · refine ⟨?_, ?_, ?_, ?_⟩
    · have := ex_times 7 2
      norm_num at this
      exact this
    · intro j hj
      have : j = 0 := by simpa [exObs, obs, FitData.size] using hj
      subst this
      norm_num [exObs, obs, nth]
    · exact obs_range (stat := .pgstat) (n := 7) (m := 2) (x := 1) (by decide) (Or.inl rfl) hb.1 hb.2
    · exact obs_range (stat := .pgstat) (n := 14) (m := 4) (x := 2) (by decide) (Or.inr rfl) hb.1 hb.2

end Elisa.Infer.Longer
