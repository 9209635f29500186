import Verif.Infer.EndToEndProps
import Verif.Data.GroupExamples
import Mathlib.Algebra.BigOperators.Field

/-!
# C139: units of exposure, area and extraction region do not matter

The exposures of source and background, their AREASCAL and their BACKSCAL are given in units that only the ratios of source and
background and the units of the flux depend on.
-/

namespace Elisa.Data.Units

open Elisa Elisa.Grouping Elisa.Data Elisa.Infer

/-! ## Specification -/

/-- The same spectrum with the exposure, AREASCAL and BACKSCAL in other units (specification, models no code). -/
noncomputable def rescaleSpec (τ α κ : ℝ) (s : Spectrum) : Spectrum :=
  { s with exposure := τ * s.exposure, areaScale := s.areaScale.map (α * ·), backScale := s.backScale.map (κ * ·) }

/-- The same observation in other units: source and background change together (specification, models no code). -/
noncomputable def rescale (τ α κ : ℝ) (o : Obs) : Obs :=
  { o with spec := rescaleSpec τ α κ o.spec, back := o.back.map (rescaleSpec τ α κ) }

/-- Two states hold the same data: flags, energies, response, counts, errors, background and its scaling, net counts and errors.  The area
scale is in the new unit, the spectrum per unit of time is in the new unit (specification, models no code). -/
structure Same (τ α : ℝ) (s s' : ObsState) : Prop where
  grouping : s'.grouping = s.grouping
  emin : s'.emin = s.emin
  emax : s'.emax = s.emax
  matrix : s'.matrix = s.matrix
  specCounts : s'.specCounts = s.specCounts
  specErrors : s'.specErrors = s.specErrors
  back : s'.back = s.back
  netCounts : s'.netCounts = s.netCounts
  netErrors : s'.netErrors = s.netErrors
  areaScale : s'.areaScale = s.areaScale.map (α * ·)
  ce : s'.ce = s.ce.map (· / τ)
  ceErrors : s'.ceErrors = s.ceErrors.map (· / τ)

/-- The same outcome: an equal exception, or the same data (specification, models no code). -/
def SameOutcome (τ α : ℝ) : Except PyErr ObsState → Except PyErr ObsState → Prop
  | .ok s, .ok s' => Same τ α s s'
  | .error e, .error e' => e = e'
  | _, _ => False

/-! ## Lemmas -/

theorem at0_map {l : List ℝ} {k : ℝ} (i : Nat) : at0 (l.map (k * ·)) i = k * at0 l i := by
  unfold at0
  simp only [List.getD_eq_getElem?_getD, List.getElem?_map]
  cases l[i]? <;> simp

theorem legal_spec {τ α κ : ℝ} (hτ : 0 < τ) (hα : 0 < α) (hκ : 0 < κ) {s : Spectrum} {n : Nat} (h : s.Legal n) : (rescaleSpec τ α κ s).Legal n where
  pos := h.pos
  counts := h.counts
  errors := h.errors
  quality := h.quality
  grouping := h.grouping
  area := by simp [rescaleSpec, h.area]
  back := by simp [rescaleSpec, h.back]
  qualityValues := h.qualityValues
  poissonCounts := h.poissonCounts
  errorsNonneg := h.errorsNonneg
  exposure := mul_pos hτ h.exposure
  areaPos := by
    intro i hq hi
    have := at0_map (l := s.areaScale) (k := α) i
    unfold at0 at this
    simp only [rescaleSpec]
    rw [this]
    exact mul_pos hα (h.areaPos i hq hi)
  backPos := by
    intro i hq hi
    have := at0_map (l := s.backScale) (k := κ) i
    unfold at0 at this
    simp only [rescaleSpec]
    rw [this]
    exact mul_pos hκ (h.backPos i hq hi)
  areaNonneg := by
    intro x hx
    obtain ⟨y, hy, rfl⟩ := List.mem_map.1 hx
    exact mul_nonneg hα.le (h.areaNonneg y hy)
  backNonneg := by
    intro x hx
    obtain ⟨y, hy, rfl⟩ := List.mem_map.1 hx
    exact mul_nonneg hκ.le (h.backNonneg y hy)
  firstStart := h.firstStart

theorem legal {τ α κ : ℝ} (hτ : 0 < τ) (hα : 0 < α) (hκ : 0 < κ) {o : Obs} {n : Nat} (h : o.Legal n) : (rescale τ α κ o).Legal n where
  spec := legal_spec hτ hα hκ h.spec
  back := by
    intro b hb
    obtain ⟨b0, h0, rfl⟩ := Option.map_eq_some_iff.1 hb
    exact legal_spec hτ hα hκ (h.back b0 h0)
  resp := h.resp
  good := h.good
  goodSpec := h.goodSpec
  goodBack := by
    intro b hb
    obtain ⟨b0, h0, rfl⟩ := Option.map_eq_some_iff.1 hb
    exact h.goodBack b0 h0
  someGood := h.someGood

/-- The mean of scales in other units. -/
theorem effScale_smul (net : Bool) {k : ℝ} (hk : 0 < k) (S : Finset Nat) (hS : S.Nonempty) (c s : Nat → ℝ) (hs : ∀ i ∈ S, 0 < s i) :
    effScale net S c (fun i => k * s i) = k * effScale net S c s := by
  have h1 : ∑ i ∈ S, c i / (k * s i) = (∑ i ∈ S, c i / s i) / k := by
    rw [Finset.sum_div]
    exact Finset.sum_congr rfl fun i _ => by rw [mul_comm k, div_div]
  have h2 : ∑ i ∈ S, 1 / (k * s i) = (∑ i ∈ S, 1 / s i) / k := by
    rw [Finset.sum_div]
    exact Finset.sum_congr rfl fun i _ => by rw [mul_comm k, div_div]
  have h3 : 0 < ∑ i ∈ S, 1 / s i := Finset.sum_pos (fun i hi => one_div_pos.2 (hs i hi)) hS
  unfold effScale
  rw [h1, h2, ← Finset.mul_sum]
  cases net
  · simp only [Bool.false_eq_true, if_false]
    by_cases hw : ∑ i ∈ S, c i / s i = 0
    · simp only [hw, zero_div, ne_eq, not_true_eq_false, if_false]
      rw [if_pos (div_pos h3 hk).ne', if_pos h3.ne']
      field_simp
    · rw [if_pos (div_ne_zero hw hk.ne'), if_pos hw]
      field_simp
  · simp only [if_true]
    rw [if_neg hS.ne_empty, if_neg hS.ne_empty, mul_div_assoc]

theorem effScale_empty (net : Bool) (c s : Nat → ℝ) : effScale net ∅ c s = 1 := by
  unfold effScale
  simp

/-- Ratios do not depend on the units. -/
theorem ratio_same {τ α κ : ℝ} (hτ : 0 < τ) (hα : 0 < α) (hκ : 0 < κ) {o : Obs} {n : Nat} (h : o.Legal n) {b : Spectrum} (hb : o.back = some b) (S : Finset Nat)
    (hS : ∀ i ∈ S, i < n ∧ o.good[i]? = some true) : (rescale τ α κ o).ratioOf (rescaleSpec τ α κ b) S = o.ratioOf b S := by
  unfold Obs.ratioOf
  have e : ∀ (l : List ℝ) (k : ℝ), at0 (l.map (k * ·)) = fun i => k * at0 l i := fun l k => funext fun i => at0_map i
  simp only [rescale, rescaleSpec, e]
  rcases S.eq_empty_or_nonempty with rfl | hne
  · simp only [effScale_empty]
    rw [mul_one, mul_one, mul_one, mul_one, mul_one, mul_one, mul_one, mul_one]
    exact mul_div_mul_left _ _ hτ.ne'
  · have hb' := h.back b hb
    have p1 : ∀ i ∈ S, 0 < at0 o.spec.areaScale i := fun i hi => h.spec.areaPos i (h.goodSpec i (hS i hi).2) (hS i hi).1
    have p2 : ∀ i ∈ S, 0 < at0 o.spec.backScale i := fun i hi => h.spec.backPos i (h.goodSpec i (hS i hi).2) (hS i hi).1
    have p3 : ∀ i ∈ S, 0 < at0 b.areaScale i := fun i hi => hb'.areaPos i (h.goodBack b hb i (hS i hi).2) (hS i hi).1
    have p4 : ∀ i ∈ S, 0 < at0 b.backScale i := fun i hi => hb'.backPos i (h.goodBack b hb i (hS i hi).2) (hS i hi).1
    rw [effScale_smul false hα S hne _ _ p1, effScale_smul false hκ S hne _ _ p2, effScale_smul false hα S hne _ _ p3, effScale_smul false hκ S hne _ _ p4]
    generalize effScale false S (at0 o.spec.counts) (at0 o.spec.areaScale) = A
    generalize effScale false S (at0 o.spec.counts) (at0 o.spec.backScale) = B
    generalize effScale false S (at0 b.counts) (at0 b.areaScale) = C
    generalize effScale false S (at0 b.counts) (at0 b.backScale) = D
    rw [show τ * o.spec.exposure * (α * A) * (κ * B) = (τ * α * κ) * (o.spec.exposure * A * B) by ring,
      show τ * b.exposure * (α * C) * (κ * D) = (τ * α * κ) * (b.exposure * C * D) by ring]
    exact mul_div_mul_left _ _ (by positivity)

theorem good_lt {o : Obs} {n : Nat} (h : o.Legal n) {i : Nat} (hi : o.good[i]? = some true) : i < n := by
  have := (List.getElem?_eq_some_iff.1 hi).1
  rw [h.good] at this
  exact this

theorem mem_goodSet {o : Obs} {n : Nat} (h : o.Legal n) {a b i : Nat} (hi : i ∈ o.goodSet a b) : i < n ∧ o.good[i]? = some true := by
  unfold Obs.goodSet goodIn at hi
  rw [Finset.mem_filter] at hi
  have := hi.2 _ rfl
  exact ⟨good_lt h this, this⟩

/-- **C139 (flags).**  Setting any flags gives the same data, or the same exception, in all units. -/
theorem C139_flags (τ α κ : ℝ) (hτ : 0 < τ) (hα : 0 < α) (hκ : 0 < κ) (o : Obs) (n : Nat) (h : o.Legal n) (erange : List (ℝ × ℝ)) (flags : Option (List Int)) :
    SameOutcome τ α (o.setGrouping erange flags) ((rescale τ α κ o).setGrouping erange flags) := by
  have h' := legal hτ hα hκ h
  have hflags : ∀ (q : Obs), q.setGrouping erange flags = q.setGrouping erange (some (flags.getD q.spec.grouping)) := by
    intro q
    unfold Obs.setGrouping
    rfl
  rw [hflags, hflags]
  have eg : (rescale τ α κ o).spec.grouping = o.spec.grouping := rfl
  rw [eg]
  generalize flags.getD o.spec.grouping = fl
  by_cases hl : fl.length = n
  · obtain ⟨s, s1, s2, s3⟩ := setGrouping_describes h erange fl hl
    obtain ⟨t, t1, t2, t3⟩ := setGrouping_describes h' erange fl hl
    rw [s1, t1]
    have hst : IsStart (fixFirst fl) 0 := fixFirst_start (by rw [hl]; exact h.spec.pos)
    have hlen : (fixFirst fl).length = n := by rw [fixFirst_length, hl]
    have hnot := noticedList_spec h erange hlen hst
    have hL : noticedList (rescale τ α κ o) erange (fixFirst fl) = noticedList o erange (fixFirst fl) := rfl
    rw [hL] at t3
    generalize noticedList o erange (fixFirst fl) = L at hnot s3 t3
    have hne : ∀ e ∈ L, (o.goodSet e.1 e.2).Nonempty := by
      intro e he
      obtain ⟨-, -, i, h1, h2, h3⟩ := (hnot.2 e.1 e.2).1 he
      refine ⟨i, ?_⟩
      unfold Obs.goodSet goodIn
      rw [Finset.mem_filter, Finset.mem_Ico]
      refine ⟨⟨h1, h2⟩, ?_⟩
      rintro q ⟨⟩
      exact h3
    have hemin : t.emin = s.emin := by rw [t3.emin, s3.emin]; rfl
    have hemax : t.emax = s.emax := by rw [t3.emax, s3.emax]; rfl
    have hsc : t.specCounts = s.specCounts := by rw [t3.specCounts, s3.specCounts]; rfl
    have hse : t.specErrors = s.specErrors := by rw [t3.specErrors, s3.specErrors]; rfl
    have hbk : t.back = s.back ∧ t.netCounts = s.netCounts ∧ t.netErrors = s.netErrors := by
      cases hb : o.back with
      | none =>
        have hb' : (rescale τ α κ o).back = none := by simp [rescale, hb]
        obtain ⟨x1, x2, x3⟩ := s3.noBack hb
        obtain ⟨y1, y2, y3⟩ := t3.noBack hb'
        exact ⟨by rw [x1, y1], by rw [x2, y2, hsc], by rw [x3, y3, hse]⟩
      | some b =>
        have hb' : (rescale τ α κ o).back = some (rescaleSpec τ α κ b) := by simp [rescale, hb]
        obtain ⟨x1, x2, x3⟩ := s3.withBack b hb
        obtain ⟨y1, y2, y3⟩ := t3.withBack _ hb'
        have hr : ∀ e : Nat × Nat, (rescale τ α κ o).ratioOf (rescaleSpec τ α κ b) ((rescale τ α κ o).goodSet e.1 e.2) = o.ratioOf b (o.goodSet e.1 e.2) :=
          fun e => ratio_same hτ hα hκ h hb _ fun i hi => mem_goodSet h hi
        simp only [hr] at y1 y2 y3
        exact ⟨by rw [x1, y1]; rfl, by rw [x2, y2]; rfl, by rw [x3, y3]; rfl⟩
    have hnl : s.netCounts.length = L.length ∧ s.netErrors.length = L.length := by
      cases hb : o.back with
      | none =>
        obtain ⟨-, x2, x3⟩ := s3.noBack hb
        rw [x2, x3, s3.specCounts, s3.specErrors]
        simp
      | some b =>
        obtain ⟨-, x2, x3⟩ := s3.withBack b hb
        rw [x2, x3]
        simp
    have hel : s.emin.length = L.length ∧ s.emax.length = L.length := by
      rw [s3.emin, s3.emax]
      simp
    have hce : ∀ (x z y : List ℝ), x.length = L.length → z.length = L.length → y.length = L.length →
        (∀ (j : Nat) (v lo hi : ℝ), y[j]? = some v → s.emin[j]? = some lo → s.emax[j]? = some hi → x[j]? = some (v / ((hi - lo) * o.spec.exposure))) →
        (∀ (j : Nat) (v lo hi : ℝ), y[j]? = some v → s.emin[j]? = some lo → s.emax[j]? = some hi → z[j]? = some (v / ((hi - lo) * (τ * o.spec.exposure)))) →
        z = x.map (· / τ) := by
      intro x z y hx hz hy h1 h2
      apply List.ext_getElem?
      intro j
      by_cases hj : j < L.length
      · have a1 := List.getElem?_eq_getElem (l := y) (i := j) (by omega)
        have a2 := List.getElem?_eq_getElem (l := s.emin) (i := j) (by omega)
        have a3 := List.getElem?_eq_getElem (l := s.emax) (i := j) (by omega)
        rw [h2 j _ _ _ a1 a2 a3, List.getElem?_map, h1 j _ _ _ a1 a2 a3]
        simp only [Option.map_some, Option.some.injEq]
        rw [div_div]
        congr 1
        ring
      · rw [List.getElem?_eq_none (by omega), List.getElem?_eq_none (by rw [List.length_map]; omega)]
    refine ⟨by rw [s2, t2], hemin, hemax, by rw [t3.matrix, s3.matrix]; rfl, hsc, hse, hbk.1, hbk.2.1, hbk.2.2, ?_, ?_, ?_⟩
    · rw [t3.areaScale, s3.areaScale, List.map_map]
      apply List.map_congr_left
      intro e he
      have e1 : ((rescale τ α κ o).spec.net && (rescale τ α κ o).back.isNone) = (o.spec.net && o.back.isNone) := by
        simp [rescale, rescaleSpec, Spectrum.net]
      have e2 : at0 (rescale τ α κ o).spec.areaScale = fun i => α * at0 o.spec.areaScale i := funext fun i => at0_map i
      rw [e1, e2]
      exact effScale_smul _ hα _ (hne e he) _ _ fun i hi => h.spec.areaPos i (h.goodSpec i (mem_goodSet h hi).2) (mem_goodSet h hi).1
    · refine hce s.ce t.ce s.netCounts s3.ce.1 t3.ce.1 hnl.1 s3.ce.2 ?_
      intro j v lo hi a1 a2 a3
      exact t3.ce.2 j v lo hi (by rw [hbk.2.1]; exact a1) (by rw [hemin]; exact a2) (by rw [hemax]; exact a3)
    · refine hce s.ceErrors t.ceErrors s.netErrors s3.ceErrors.1 t3.ceErrors.1 hnl.2 s3.ceErrors.2 ?_
      intro j v lo hi a1 a2 a3
      exact t3.ceErrors.2 j v lo hi (by rw [hbk.2.2]; exact a1) (by rw [hemin]; exact a2) (by rw [hemax]; exact a3)
  · have hc : o.resp.channelNumber = n := h.resp.emin
    have herr : ∀ q : Obs, q.resp = o.resp → q.setGrouping erange (some fl) = .error .valueError := by
      intro q hq
      unfold Obs.setGrouping
      simp only [Option.getD_some, hq, hc, ne_eq, hl, not_false_eq_true, if_true]
      rfl
    rw [herr o rfl, herr (rescale τ α κ o) rfl]
    rfl

/-! ## The grouping methods -/

theorem cumsumFrom_map (k acc : ℝ) (xs : List ℝ) : cumsumFrom (k * acc) (xs.map (k * ·)) = (cumsumFrom acc xs).map (k * ·) := by
  induction xs generalizing acc with
  | nil => rfl
  | cons x xs ih =>
    simp only [List.map_cons, cumsumFrom]
    rw [← mul_add, ih]

theorem prefix_map (k : ℝ) (xs : List ℝ) (i : Nat) : (prefixSum (xs.map (k * ·))).getD i 0 = k * (prefixSum xs).getD i 0 := by
  have e : prefixSum (xs.map (k * ·)) = (prefixSum xs).map (k * ·) := by
    unfold prefixSum cumsum
    have := cumsumFrom_map k 0 xs
    rw [mul_zero] at this
    rw [this]
    simp
  rw [e]
  exact at0_map i

theorem total_zero {xs ys : List ℝ} (hx : ∀ x ∈ xs, 0 ≤ x) (h : ∀ j : Nat, xs.getD j 0 = 0 → ys.getD j 0 = 0) (a b : Nat) (h0 : total xs a b = 0) : total ys a b = 0 := by
  unfold total at h0 ⊢
  have hn : ∀ i ∈ Finset.Ico a b, 0 ≤ xs.getD i 0 := by
    intro i _
    rw [List.getD_eq_getElem?_getD]
    cases hi : xs[i]? with
    | none => simp
    | some v => simpa using hx v (List.mem_of_getElem? hi)
  rw [Finset.sum_eq_zero_iff_of_nonneg hn] at h0
  exact Finset.sum_eq_zero fun i hi => h i (h0 i hi)

theorem diff_zero {xs ys : List ℝ} (hl : xs.length = ys.length) (hx : ∀ x ∈ xs, 0 ≤ x) (h : ∀ j : Nat, xs.getD j 0 = 0 → ys.getD j 0 = 0) (a b : Nat)
    (h0 : (prefixSum xs).getD b 0 - (prefixSum xs).getD a 0 = 0) : (prefixSum ys).getD b 0 - (prefixSum ys).getD a 0 = 0 := by
  have out : ∀ (zs : List ℝ) (i : Nat), zs.length < i → (prefixSum zs).getD i 0 = 0 := by
    intro zs i hi
    rw [List.getD_eq_getElem?_getD, List.getElem?_eq_none]
    · rfl
    · have : ∀ (l : List ℝ) (acc : ℝ), (cumsumFrom acc l).length = l.length := by
        intro l
        induction l with
        | nil => intro _; rfl
        | cons x l ih => intro acc; simp only [cumsumFrom, List.length_cons, ih]
      unfold prefixSum cumsum
      rw [List.length_cons, this]
      omega
  have T := fun a b => total_zero hx h a b
  by_cases ha : a ≤ xs.length <;> by_cases hb : b ≤ xs.length
  · rcases Nat.le_total a b with hab | hab
    · rw [prefixSum_diff xs hab hb] at h0
      rw [prefixSum_diff ys hab (hl ▸ hb)]
      exact T a b h0
    · have h0' : (prefixSum xs).getD a 0 - (prefixSum xs).getD b 0 = 0 := by linarith
      rw [prefixSum_diff xs hab ha] at h0'
      have := prefixSum_diff ys hab (hl ▸ ha)
      rw [T b a h0'] at this
      linarith
  · rw [out xs b (by omega), prefixSum_getD xs a ha] at h0
    rw [out ys b (by omega), prefixSum_getD ys a (hl ▸ ha), T 0 a (by linarith)]
    ring
  · rw [out xs a (by omega), prefixSum_getD xs b hb] at h0
    rw [out ys a (by omega), prefixSum_getD ys b (hl ▸ hb), T 0 b (by linarith)]
    ring
  · rw [out ys a (by omega), out ys b (by omega)]
    ring

/-- The mean scale of an interval of groups is in the new unit when the interval has a good channel. -/
theorem interval_smul {k : ℝ} (hk : 0 < k) (c s : Nat → ℝ) (Ss : List (Finset Nat)) (hs : ∀ S ∈ Ss, ∀ i ∈ S, 0 < s i) (a b : Nat) :
    scaleFromInterval (buildScalePrefix (describe false c (fun i => k * s i) Ss) false) a b =
      (if (prefixSum (Ss.map fun S => (S.card : ℝ))).getD b 0 - (prefixSum (Ss.map fun S => (S.card : ℝ))).getD a 0 = 0 then 1 else k) *
        scaleFromInterval (buildScalePrefix (describe false c s Ss) false) a b := by
  unfold scaleFromInterval buildScalePrefix describe
  simp only [Bool.false_eq_true, if_false]
  have e1 : (Ss.map fun S => ∑ i ∈ S, c i / (k * s i)) = (Ss.map fun S => ∑ i ∈ S, c i / s i).map (k⁻¹ * ·) := by
    rw [List.map_map]
    refine List.map_congr_left fun S _ => ?_
    simp only [Function.comp]
    rw [Finset.mul_sum]
    refine Finset.sum_congr rfl fun i _ => ?_
    rw [mul_comm k, ← div_div]
    ring
  have e2 : (Ss.map fun S => ∑ i ∈ S, 1 / (k * s i)) = (Ss.map fun S => ∑ i ∈ S, 1 / s i).map (k⁻¹ * ·) := by
    rw [List.map_map]
    refine List.map_congr_left fun S _ => ?_
    simp only [Function.comp]
    rw [Finset.mul_sum]
    refine Finset.sum_congr rfl fun i _ => ?_
    rw [mul_comm k, ← div_div]
    ring
  have pos : ∀ S ∈ Ss, S.Nonempty → 0 < ∑ i ∈ S, 1 / s i := fun S hS hne => Finset.sum_pos (fun i hi => one_div_pos.2 (hs S hS i hi)) hne
  have hz := diff_zero (xs := Ss.map fun S => ∑ i ∈ S, 1 / s i) (ys := Ss.map fun S => (S.card : ℝ)) (by simp)
    (by
      intro x hx
      obtain ⟨S, hS, rfl⟩ := List.mem_map.1 hx
      exact Finset.sum_nonneg fun i hi => (one_div_pos.2 (hs S hS i hi)).le)
    (by
      intro j hj
      rw [List.getD_eq_getElem?_getD, List.getElem?_map] at hj ⊢
      cases hS : Ss[j]? with
      | none => simp
      | some S =>
        simp only [hS, Option.map_some, Option.getD_some] at hj ⊢
        rcases S.eq_empty_or_nonempty with rfl | hne
        · simp
        · exact absurd hj (pos S (List.mem_of_getElem? hS) hne).ne') a b
  simp only [e1, e2, prefix_map]
  generalize (prefixSum (Ss.map fun S => (S.card : ℝ))).getD b 0 - (prefixSum (Ss.map fun S => (S.card : ℝ))).getD a 0 = N at hz ⊢
  rw [← mul_sub, ← mul_sub]
  generalize (prefixSum (Ss.map fun S => ∑ i ∈ S, c i / s i)).getD b 0 - (prefixSum (Ss.map fun S => ∑ i ∈ S, c i / s i)).getD a 0 = W
  generalize (prefixSum (Ss.map fun S => ∑ i ∈ S, 1 / s i)).getD b 0 - (prefixSum (Ss.map fun S => ∑ i ∈ S, 1 / s i)).getD a 0 = R at hz ⊢
  have hk' : k⁻¹ ≠ 0 := inv_ne_zero hk.ne'
  by_cases hN : N = 0
  · simp [hN]
  · have hR : R ≠ 0 := fun h => hN (hz h)
    by_cases hW : W = 0
    · simp only [hN, hW, hR, hk', mul_zero, mul_eq_zero, ne_eq, not_true_eq_false, if_false, or_self]
      field_simp
    · simp only [hN, hW, hk', mul_eq_zero, ne_eq, not_false_eq_true, if_false, if_true, or_self]
      field_simp

/-- The methods see the scales only through the ratio of an interval. -/
theorem lima_ratio (on off : List ℝ) (d d' : RatioData) (sig : ℝ) (h : ∀ a b, d'.ratio a b = d.ratio a b) :
    limaOk on off d' sig = limaOk on off d sig ∧ limaSuccess on off d' sig = limaSuccess on off d sig := by
  have hr : ∀ idx nd, d'.ratios idx nd = d.ratios idx nd := fun idx nd => List.map_congr_left fun e _ => h e.1 e.2
  constructor
  · funext a b
    unfold limaOk
    rw [h]
  · funext idx
    unfold limaSuccess
    rw [hr]

theorem gv_ratio (n b s : List ℝ) (d d' : RatioData) (sig : ℝ) (h : ∀ a b, d'.ratio a b = d.ratio a b) :
    gvOk n b s d' sig = gvOk n b s d sig ∧ gvSuccess n b s d' sig = gvSuccess n b s d sig := by
  have hr : ∀ idx nd, d'.ratios idx nd = d.ratios idx nd := fun idx nd => List.map_congr_left fun e _ => h e.1 e.2
  constructor
  · funext i j
    unfold gvOk
    rw [h]
  · funext idx
    unfold gvSuccess
    rw [hr]

/-- Two segments differ at most in the units of the scales (specification, models no code). -/
structure SegSame (back : Bool) (d d' : Segment) : Prop where
  specCounts : d'.specCounts = d.specCounts
  netCounts : d'.netCounts = d.netCounts
  netErrors : d'.netErrors = d.netErrors
  backCounts : d'.backCounts = d.backCounts
  backErrors : d'.backErrors = d.backErrors
  fwhm : d'.fwhm = d.fwhm
  countsOpt : d'.countsOpt = d.countsOpt
  ratio : back = true → ∀ (mask : List Bool) (a b : Nat), (d'.slice mask).ratio.ratio a b = (d.slice mask).ratio.ratio a b

theorem runMethod_same {τ α κ : ℝ} {o : Obs} {d d' : Segment} (h : SegSame o.back.isSome d d') (m : Method) (scale : ℝ) (mask : List Bool) :
    (rescale τ α κ o).runMethod m scale (d'.slice mask) = o.runMethod m scale (d.slice mask) := by
  have e1 : (d'.slice mask).specCounts = (d.slice mask).specCounts := by simp only [Segment.slice, h.specCounts]
  have e2 : (d'.slice mask).netCounts = (d.slice mask).netCounts := by simp only [Segment.slice, h.netCounts]
  have e3 : (d'.slice mask).netErrors = (d.slice mask).netErrors := by simp only [Segment.slice, h.netErrors]
  have e4 : (d'.slice mask).backCounts = (d.slice mask).backCounts := by simp only [Segment.slice, h.backCounts]
  have e5 : (d'.slice mask).backErrors = (d.slice mask).backErrors := by simp only [Segment.slice, h.backErrors]
  have e6 : (d'.slice mask).fwhm = (d.slice mask).fwhm := by simp only [Segment.slice, h.fwhm]
  have e7 : (d'.slice mask).countsOpt = (d.slice mask).countsOpt := by simp only [Segment.slice, h.countsOpt]
  have ep : (rescale τ α κ o).spec.poisson = o.spec.poisson := rfl
  have eb : (rescale τ α κ o).back.map (·.poisson) = o.back.map (·.poisson) := by
    simp only [rescale, Option.map_map]
    rfl
  unfold Obs.runMethod
  simp only [e1, e2, e3, e4, e5, e6, e7, ep, eb]
  cases hb : o.back with
  | none => cases m <;> cases o.spec.poisson <;> rfl
  | some b =>
    have hr := h.ratio (by simp [hb]) mask
    obtain ⟨l1, l2⟩ := lima_ratio (d.slice mask).specCounts (d.slice mask).backCounts _ _ scale hr
    obtain ⟨g1, g2⟩ := gv_ratio (d.slice mask).specCounts (d.slice mask).backCounts (d.slice mask).backErrors _ _ scale hr
    have l3 : groupSigLima (d.slice mask).specCounts (d.slice mask).backCounts (d'.slice mask).ratio scale =
        groupSigLima (d.slice mask).specCounts (d.slice mask).backCounts (d.slice mask).ratio scale := by
      unfold groupSigLima
      rw [l1, l2]
    have l4 : ∀ bint, groupOptsigLima bint (d.slice mask).specCounts (d.slice mask).backCounts (d'.slice mask).ratio scale =
        groupOptsigLima bint (d.slice mask).specCounts (d.slice mask).backCounts (d.slice mask).ratio scale := by
      intro bint
      unfold groupOptsigLima
      rw [l1, l2]
    have g3 : groupSigGv (d.slice mask).specCounts (d.slice mask).backCounts (d.slice mask).backErrors (d'.slice mask).ratio scale =
        groupSigGv (d.slice mask).specCounts (d.slice mask).backCounts (d.slice mask).backErrors (d.slice mask).ratio scale := by
      unfold groupSigGv
      rw [g1, g2]
    have g4 : ∀ bint, groupOptsigGv bint (d.slice mask).specCounts (d.slice mask).backCounts (d.slice mask).backErrors (d'.slice mask).ratio scale =
        groupOptsigGv bint (d.slice mask).specCounts (d.slice mask).backCounts (d.slice mask).backErrors (d.slice mask).ratio scale := by
      intro bint
      unfold groupOptsigGv
      rw [g1, g2]
    rw [l3, g3, l4, g4]

theorem segResults_same {τ α κ : ℝ} {o : Obs} {d d' : Segment} (h : SegSame o.back.isSome d d') (m : Method) (scale : ℝ) (rows : List (List Bool)) :
    (rescale τ α κ o).segResults m scale d' rows = o.segResults m scale d rows := by
  induction rows with
  | nil => rfl
  | cons mask rows ih =>
    unfold Obs.segResults
    rw [runMethod_same h, ih]

theorem countsOpt_same {τ α κ : ℝ} (hτ : 0 < τ) (hα : 0 < α) (hκ : 0 < κ) (o : Obs) : (rescale τ α κ o).countsOpt = o.countsOpt := by
  unfold Obs.countsOpt
  cases hb : o.back with
  | none =>
    have hb' : (rescale τ α κ o).back = none := by simp [rescale, hb]
    rw [hb']
    rfl
  | some b =>
    have hb' : (rescale τ α κ o).back = some (rescaleSpec τ α κ b) := by simp [rescale, hb]
    rw [hb']
    refine List.map_congr_left fun i _ => ?_
    have a1 := at0_map (l := o.spec.areaScale) (k := α) i
    have a2 := at0_map (l := o.spec.backScale) (k := κ) i
    have a3 := at0_map (l := b.areaScale) (k := α) i
    have a4 := at0_map (l := b.backScale) (k := κ) i
    unfold at0 at a1 a2 a3 a4
    simp only [rescale, rescaleSpec, a1, a2, a3, a4]
    generalize o.spec.areaScale.getD i 0 = A
    generalize o.spec.backScale.getD i 0 = B
    generalize b.areaScale.getD i 0 = C
    generalize b.backScale.getD i 0 = D
    rw [show τ * o.spec.exposure * (α * A) * (κ * B) = (τ * α * κ) * (o.spec.exposure * A * B) by ring,
      show τ * b.exposure * (α * C) * (κ * D) = (τ * α * κ) * (b.exposure * C * D) by ring]
    have hk : τ * α * κ ≠ 0 := by positivity
    congr 2
    unfold guardedDiv
    by_cases hz : b.exposure * C * D = 0
    · simp [hz]
    · rw [if_pos (mul_ne_zero hk hz), if_pos hz, mul_div_mul_left _ _ hk]

theorem at0_scaled (l : List ℝ) (k : ℝ) : at0 (l.map (k * ·)) = fun i => k * at0 l i := funext fun _ => at0_map _

theorem preData_same {τ α κ : ℝ} (hτ : 0 < τ) (hα : 0 < α) (hκ : 0 < κ) {o : Obs} {n : Nat} (h : o.Legal n) {pre : List Int} (hf : pre.length = n) :
    ∃ d d', o.preData pre = .ok d ∧ (rescale τ α κ o).preData pre = .ok d' ∧ SegSame o.back.isSome d d' := by
  have h' := legal hτ hα hκ h
  have e1 := spectrum_group_eq h.spec hf h.good
  have e2 := scaleArrays_eq h hf
  have f1 : (rescale τ α κ o).spec.group pre (some o.good) = _ := spectrum_group_eq h'.spec hf h.good
  have f2 := scaleArrays_eq h' hf
  have eg : (rescale τ α κ o).good = o.good := rfl
  unfold Obs.preData
  rw [eg] at f2 ⊢
  rw [e1, e2, f1, f2]
  simp only [bind, Except.bind]
  have hopt := countsOpt_same hτ hα hκ o
  cases hb : o.back with
  | none =>
    have hb' : (rescale τ α κ o).back = none := by simp [rescale, hb]
    simp only [hb', Option.map_none, pure, Except.pure]
    exact ⟨_, _, rfl, rfl, ⟨rfl, rfl, rfl, rfl, rfl, rfl, hopt, by intro hx; cases hx⟩⟩
  | some b =>
    have hb' : (rescale τ α κ o).back = some (rescaleSpec τ α κ b) := by simp [rescale, hb]
    have e6 := spectrum_group_eq (h.back b hb) hf h.good
    have f6 : (rescaleSpec τ α κ b).group pre (some o.good) = _ := spectrum_group_eq (h'.back _ hb') hf h.good
    simp only [hb', Option.map_some, e6, f6, pure, Except.pure]
    have hnet : o.netMean = false := by simp [Obs.netMean, hb]
    have hnet' : (rescale τ α κ o).netMean = false := by simp [Obs.netMean, hb']
    have hr := groupBackRatio_describe (K := ℝ) (v := ⟨o.spec.counts, o.spec.areaScale, o.spec.backScale, b.counts, b.areaScale, b.backScale⟩) o.spec.exposure b.exposure (flags := pre) (quality := some o.good)
    have hr' := groupBackRatio_describe (K := ℝ)
      (v := ⟨(rescale τ α κ o).spec.counts, (rescale τ α κ o).spec.areaScale, (rescale τ α κ o).spec.backScale, (rescaleSpec τ α κ b).counts, (rescaleSpec τ α κ b).areaScale, (rescaleSpec τ α κ b).backScale⟩)
      (rescale τ α κ o).spec.exposure (rescaleSpec τ α κ b).exposure (flags := pre) (quality := some o.good)
    simp only at hr hr'
    have hmem : ∀ S ∈ groupSets pre (some o.good), ∀ i ∈ S, i < n ∧ o.good[i]? = some true := by
      intro S hS i hi
      unfold groupSets at hS
      obtain ⟨e, -, rfl⟩ := List.mem_map.1 hS
      exact mem_goodSet h hi
    have heq : (groupSets pre (some o.good)).map (setRatio
        (⟨(rescale τ α κ o).spec.counts, (rescale τ α κ o).spec.areaScale, (rescale τ α κ o).spec.backScale, (rescaleSpec τ α κ b).counts, (rescaleSpec τ α κ b).areaScale,
          (rescaleSpec τ α κ b).backScale⟩ : ScaleInputs ℝ) (rescale τ α κ o).spec.exposure (rescaleSpec τ α κ b).exposure) =
        (groupSets pre (some o.good)).map (setRatio (⟨o.spec.counts, o.spec.areaScale, o.spec.backScale, b.counts, b.areaScale, b.backScale⟩ : ScaleInputs ℝ) o.spec.exposure b.exposure) :=
      List.map_congr_left fun S hS => ratio_same hτ hα hκ h hb S (hmem S hS)
    rw [hnet, hnet', hr, hr', heq]
    refine ⟨_, _, rfl, rfl, ⟨rfl, rfl, rfl, rfl, rfl, rfl, hopt, ?_⟩⟩
    intro _ mask x y
    simp only [Segment.slice, sliceScaleData_describe, RatioData.ratio, intervalBackRatio]
    have hb0 := h.back b hb
    have hmem' : ∀ S ∈ applyMask mask (groupSets pre (some o.good)), ∀ i ∈ S, i < n ∧ o.good[i]? = some true :=
      fun S hS => hmem S ((applyMask_sublist mask _).subset hS)
    generalize applyMask mask (groupSets pre (some o.good)) = Ss at hmem' ⊢
    have p1 : ∀ S ∈ Ss, ∀ i ∈ S, 0 < at0 o.spec.areaScale i := fun S hS i hi => h.spec.areaPos i (h.goodSpec i (hmem' S hS i hi).2) (hmem' S hS i hi).1
    have p2 : ∀ S ∈ Ss, ∀ i ∈ S, 0 < at0 o.spec.backScale i := fun S hS i hi => h.spec.backPos i (h.goodSpec i (hmem' S hS i hi).2) (hmem' S hS i hi).1
    have p3 : ∀ S ∈ Ss, ∀ i ∈ S, 0 < at0 b.areaScale i := fun S hS i hi => hb0.areaPos i (h.goodBack b hb i (hmem' S hS i hi).2) (hmem' S hS i hi).1
    have p4 : ∀ S ∈ Ss, ∀ i ∈ S, 0 < at0 b.backScale i := fun S hS i hi => hb0.backPos i (h.goodBack b hb i (hmem' S hS i hi).2) (hmem' S hS i hi).1
    have q1 := interval_smul hα (at0 o.spec.counts) _ Ss p1 x y
    have q2 := interval_smul hκ (at0 o.spec.counts) _ Ss p2 x y
    have q3 := interval_smul hα (at0 b.counts) _ Ss p3 x y
    have q4 := interval_smul hκ (at0 b.counts) _ Ss p4 x y
    simp only [rescale, rescaleSpec, at0_scaled, q1, q2, q3, q4]
    generalize scaleFromInterval (buildScalePrefix (describe false (at0 o.spec.counts) (at0 o.spec.areaScale) Ss) false) x y = A
    generalize scaleFromInterval (buildScalePrefix (describe false (at0 o.spec.counts) (at0 o.spec.backScale) Ss) false) x y = B
    generalize scaleFromInterval (buildScalePrefix (describe false (at0 b.counts) (at0 b.areaScale) Ss) false) x y = C
    generalize scaleFromInterval (buildScalePrefix (describe false (at0 b.counts) (at0 b.backScale) Ss) false) x y = D
    rw [mul_div_mul_left _ _ hτ.ne']
    split
    · simp
    · rw [show o.spec.exposure / b.exposure * (α * A) * (κ * B) / (α * C) / (κ * D) = (α * κ) * (o.spec.exposure / b.exposure * A * B) / ((α * κ) * (C * D)) by
        rw [div_div]; congr 1 <;> ring, mul_div_mul_left _ _ (by positivity), div_div]

/-- The same outcome of a grouping method: an equal exception, or the same flags, the same report of success and the same data (specification, models no code). -/
def SameGroup (τ α : ℝ) : Except PyErr GroupResult → Except PyErr GroupResult → Prop
  | .ok r, .ok r' => r'.final = r.final ∧ r'.success = r.success ∧ Same τ α r.st r'.st
  | .error e, .error e' => e = e'
  | _, _ => False

/-- **C139 (methods).**  Every grouping method, with any value, makes the same groups, gives the same report of success and leaves the same data in all units: the
significances of candidate groups use the scales only as ratios. -/
theorem C139_methods (τ α κ : ℝ) (hτ : 0 < τ) (hα : 0 < α) (hκ : 0 < κ) (o : Obs) (n : Nat) (h : o.Legal n) (erange : List (ℝ × ℝ)) (m : Method) (scale : Option ℝ) (preserve : Bool) :
    SameGroup τ α (o.group erange m scale preserve) ((rescale τ α κ o).group erange m scale preserve) := by
  obtain ⟨hpl, -⟩ := preFlags_ok h preserve
  have ep : (rescale τ α κ o).preFlags preserve = o.preFlags preserve := rfl
  have em : (rescale τ α κ o).methodOk m scale preserve = o.methodOk m scale preserve := by
    unfold Obs.methodOk
    simp only [rescale]
    cases o.back <;> rfl
  have er : ∀ pre, (rescale τ α κ o).maskRows erange pre = o.maskRows erange pre := fun _ => rfl
  obtain ⟨d, d', hd, hd', hs⟩ := preData_same hτ hα hκ h hpl
  unfold Obs.group
  simp only [ep, em, er, hd, hd', bind, Except.bind, pure, Except.pure]
  by_cases hok : (!o.methodOk m scale preserve) = true
  · simp only [hok, if_true]
    exact rfl
  · simp only [hok, Bool.false_eq_true, if_false]
    cases hrow : o.maskRows erange (o.preFlags preserve) with
    | error e => exact rfl
    | ok rows =>
      simp only [segResults_same hs]
      cases hseg : o.segResults m (scale.getD 0) d rows with
      | error e => exact rfl
      | ok results =>
        simp only
        cases hasm : assemble (anyRow rows (groupIdx (o.preFlags preserve)).length) (nChanOf (o.preFlags preserve)) (results.map Prod.fst).flatten with
        | error e => exact rfl
        | ok final =>
          simp only
          have hfl := C139_flags τ α κ hτ hα hκ o n h erange (some final)
          cases h1 : o.setGrouping erange (some final) with
          | error e =>
            cases h2 : (rescale τ α κ o).setGrouping erange (some final) with
            | error e' => rw [h1, h2] at hfl; exact hfl
            | ok s' => rw [h1, h2] at hfl; exact hfl.elim
          | ok s =>
            cases h2 : (rescale τ α κ o).setGrouping erange (some final) with
            | error e' => rw [h1, h2] at hfl; exact hfl.elim
            | ok s' => rw [h1, h2] at hfl; exact ⟨rfl, rfl, hfl⟩

/-! ## Histories -/

/-- Two objects hold the same data for the same energy ranges (specification, models no code). -/
structure SameObj (τ α : ℝ) (x x' : ObsObj) : Prop where
  erange : x'.erange = x.erange
  data : Same τ α x.st x'.st

theorem setGrouping_obj {τ α κ : ℝ} (hτ : 0 < τ) (hα : 0 < α) (hκ : 0 < κ) {o : Obs} {n : Nat} (h : o.Legal n) {x x' : ObsObj} (hx : SameObj τ α x x') (f : Option (List Int)) :
    SameObj τ α (x.setGrouping o f).1 (x'.setGrouping (rescale τ α κ o) f).1 := by
  have hfl := C139_flags τ α κ hτ hα hκ o n h x.erange f
  unfold ObsObj.setGrouping
  rw [hx.erange]
  cases h1 : o.setGrouping x.erange f with
  | error e =>
    cases h2 : (rescale τ α κ o).setGrouping x.erange f with
    | error e' => exact hx
    | ok s' => rw [h1, h2] at hfl; exact hfl.elim
  | ok s =>
    cases h2 : (rescale τ α κ o).setGrouping x.erange f with
    | error e' => rw [h1, h2] at hfl; exact hfl.elim
    | ok s' => rw [h1, h2] at hfl; exact ⟨rfl, hfl⟩

theorem use_same {τ α κ : ℝ} (hτ : 0 < τ) (hα : 0 < α) (hκ : 0 < κ) {o : Obs} {n : Nat} (h : o.Legal n) {x x' : ObsObj} (hx : SameObj τ α x x') (u : Use) :
    SameObj τ α (useStep o x u) (useStep (rescale τ α κ o) x' u) := by
  cases u with
  | setErange r =>
    simp only [useStep, ObsObj.setErange]
    cases checkErange r with
    | error e => exact hx
    | ok s =>
      simp only
      rw [hx.data.grouping]
      exact setGrouping_obj (x := { x with erange := s }) (x' := { x' with erange := s }) hτ hα hκ h ⟨rfl, hx.data⟩ _
  | setGrouping f => exact setGrouping_obj hτ hα hκ h hx f
  | group m scale preserve =>
    have hg := C139_methods τ α κ hτ hα hκ o n h x.erange m scale preserve
    simp only [useStep]
    rw [hx.erange]
    cases h1 : o.group x.erange m scale preserve with
    | error e =>
      cases h2 : (rescale τ α κ o).group x.erange m scale preserve with
      | error e' => exact hx
      | ok s' => rw [h1, h2] at hg; exact hg.elim
    | ok s =>
      cases h2 : (rescale τ α κ o).group x.erange m scale preserve with
      | error e' => rw [h1, h2] at hg; exact hg.elim
      | ok s' => rw [h1, h2] at hg; exact ⟨rfl, hg.2.2⟩

/-- **C139 (histories).**  An observation made and then used in any way holds the same data in all units. -/
theorem C139_history (τ α κ : ℝ) (hτ : 0 < τ) (hα : 0 < α) (hκ : 0 < κ) (o : Obs) (n : Nat) (h : o.Legal n) (ranges : List (ℝ × ℝ)) (us : List Use) (x x' : ObsObj)
    (hx : ObsObj.new o ranges = .ok x) (hx' : ObsObj.new (rescale τ α κ o) ranges = .ok x') : SameObj τ α (useAll o x us) (useAll (rescale τ α κ o) x' us) := by
  have h0 : SameObj τ α x x' := by
    unfold ObsObj.new at hx hx'
    cases hr : checkErange ranges with
    | error e => simp [hr, bind, Except.bind] at hx
    | ok s =>
      have hfl := C139_flags τ α κ hτ hα hκ o n h s (some o.spec.grouping)
      have eg : (rescale τ α κ o).spec.grouping = o.spec.grouping := rfl
      simp only [hr, bind, Except.bind, pure, Except.pure, eg] at hx hx'
      cases h1 : o.setGrouping s (some o.spec.grouping) with
      | error e => simp [h1] at hx
      | ok st =>
        cases h2 : (rescale τ α κ o).setGrouping s (some o.spec.grouping) with
        | error e' => simp [h2] at hx'
        | ok st' =>
          rw [h1, h2] at hfl
          simp only [h1, Except.ok.injEq] at hx
          simp only [h2, Except.ok.injEq] at hx'
          rw [← hx, ← hx']
          exact ⟨rfl, hfl⟩
  unfold useAll
  clear hx hx'
  induction us generalizing x x' with
  | nil => exact h0
  | cons u us ih => exact ih _ _ (use_same hτ hα hκ h h0 u)

/-- **C139 (made).**  The observation can be made in all units or in none. -/
theorem C139_made (τ α κ : ℝ) (hτ : 0 < τ) (hα : 0 < α) (hκ : 0 < κ) (o : Obs) (n : Nat) (h : o.Legal n) (ranges : List (ℝ × ℝ)) (e : PyErr) :
    (ObsObj.new (rescale τ α κ o) ranges = .error e) ↔ ObsObj.new o ranges = .error e := by
  unfold ObsObj.new
  cases hr : checkErange ranges with
  | error e => simp [bind, Except.bind]
  | ok s =>
    have hfl := C139_flags τ α κ hτ hα hκ o n h s (some o.spec.grouping)
    have eg : (rescale τ α κ o).spec.grouping = o.spec.grouping := rfl
    simp only [bind, Except.bind, pure, Except.pure, eg]
    cases h1 : o.setGrouping s (some o.spec.grouping) with
    | error e1 =>
      cases h2 : (rescale τ α κ o).setGrouping s (some o.spec.grouping) with
      | error e' => rw [h1, h2] at hfl; rw [show e1 = e' from hfl]
      | ok s' => rw [h1, h2] at hfl; exact hfl.elim
    | ok st =>
      cases h2 : (rescale τ α κ o).setGrouping s (some o.spec.grouping) with
      | error e' => rw [h1, h2] at hfl; exact hfl.elim
      | ok s' => simp

/-! ## The fit -/

/-- **C139 (fit).**  The statistics that are accepted are the same, and for fluxes given in the new unit (all in the numerical range of the program) the log-likelihood of
every channel, the expected counts and the fitted background are the same. -/
theorem C139_fit (τ α κ : ℝ) (hτ : 0 < τ) (hα : 0 < α) (o : Obs) (s s' : ObsState) (hs : Same τ α s s') (stat : Stat) (u u' : List ℝ)
    (hu : ∀ r < s.matrix.length, (1e-300 ≤ nth u r ∧ nth u r ≤ 1e300) ∧ (1e-300 ≤ nth u' r ∧ nth u' r ≤ 1e300) ∧ nth u' r = nth u r / (τ * α)) :
    checkStat (FitData.ofObs (rescale τ α κ o) s') stat = checkStat (FitData.ofObs o s) stat ∧
      likelihood stat (FitData.ofObs (rescale τ α κ o) s') u' = likelihood stat (FitData.ofObs o s) u := by
  have e1 : (FitData.ofObs (rescale τ α κ o) s').specCounts = (FitData.ofObs o s).specCounts := hs.specCounts
  have e2 : (FitData.ofObs (rescale τ α κ o) s').netCounts = (FitData.ofObs o s).netCounts := hs.netCounts
  have e3 : (FitData.ofObs (rescale τ α κ o) s').netErrors = (FitData.ofObs o s).netErrors := hs.netErrors
  have e4 : (FitData.ofObs (rescale τ α κ o) s').back = (FitData.ofObs o s).back := by
    show s'.back.map _ = s.back.map _
    rw [hs.back]
  have e5 : (FitData.ofObs (rescale τ α κ o) s').specPoisson = (FitData.ofObs o s).specPoisson := rfl
  have e6 : (FitData.ofObs (rescale τ α κ o) s').backPoisson = (FitData.ofObs o s).backPoisson := by
    show (((o.back.map (rescaleSpec τ α κ)).map (·.poisson)).getD false) = ((o.back.map (·.poisson)).getD false)
    cases o.back <;> rfl
  have esize : (FitData.ofObs (rescale τ α κ o) s').size = (FitData.ofObs o s).size := by
    unfold FitData.size
    rw [e1]
  have hrate : ∀ j, (FitData.ofObs (rescale τ α κ o) s').sourceRate u' j * (FitData.ofObs (rescale τ α κ o) s').exposure =
      (FitData.ofObs o s).sourceRate u j * (FitData.ofObs o s).exposure := by
    intro j
    unfold FitData.sourceRate
    have em : (FitData.ofObs (rescale τ α κ o) s').matrix = s.matrix := hs.matrix
    have em0 : (FitData.ofObs o s).matrix = s.matrix := rfl
    have ea : nth (FitData.ofObs (rescale τ α κ o) s').areaScale j = α * nth s.areaScale j := by
      show nth s'.areaScale j = _
      rw [hs.areaScale]
      exact at0_map j
    have ea0 : nth (FitData.ofObs o s).areaScale j = nth s.areaScale j := rfl
    have ex : (FitData.ofObs (rescale τ α κ o) s').exposure = τ * o.spec.exposure := rfl
    have ex0 : (FitData.ofObs o s).exposure = o.spec.exposure := rfl
    rw [em, em0, ea, ea0, ex, ex0]
    have hsum : ((List.range s.matrix.length).map fun r => nth (s.matrix.getD r []) j * clip (1e-300) (1e300) (nth u' r)) =
        ((List.range s.matrix.length).map fun r => nth (s.matrix.getD r []) j * clip (1e-300) (1e300) (nth u r)).map (· / (τ * α)) := by
      rw [List.map_map]
      refine List.map_congr_left fun r hr => ?_
      obtain ⟨⟨a1, a2⟩, ⟨b1, b2⟩, c1⟩ := hu r (List.mem_range.1 hr)
      simp only [Function.comp]
      rw [clip_id a1 a2, clip_id b1 b2, c1, mul_div_assoc]
    rw [hsum]
    have hdiv : ∀ (l : List ℝ) (k : ℝ), (l.map (· / k)).sum = l.sum / k := by
      intro l k
      induction l with
      | nil => simp
      | cons x l ih => rw [List.map_cons, List.sum_cons, List.sum_cons, ih, add_div]
    rw [hdiv]
    field_simp
  have hcounts : ∀ j, (FitData.ofObs (rescale τ α κ o) s').sourceCounts u' j = (FitData.ofObs o s).sourceCounts u j := by
    intro j
    unfold FitData.sourceCounts
    rw [hrate]
  constructor
  · unfold checkStat
    rw [e3, e4, e5, e6]
  · have hc : (FitData.ofObs (rescale τ α κ o) s').sourceCounts u' = (FitData.ofObs o s).sourceCounts u := funext hcounts
    unfold likelihood
    simp only [esize, e1, e2, e3, e4, hc, hrate]

/-- **C139.**  From the construction of the observation to the statistic: made in any units, restricted and grouped in any way, the same statistics are accepted and every
channel has the same log-likelihood, for fluxes in the new unit. -/
theorem C139_units (τ α κ : ℝ) (hτ : 0 < τ) (hα : 0 < α) (hκ : 0 < κ) (o : Obs) (n : Nat) (h : o.Legal n) (ranges : List (ℝ × ℝ)) (us : List Use) (x x' : ObsObj)
    (hx : ObsObj.new o ranges = .ok x) (hx' : ObsObj.new (rescale τ α κ o) ranges = .ok x') (stat : Stat) (u u' : List ℝ)
    (hu : ∀ r < (useAll o x us).st.matrix.length, (1e-300 ≤ nth u r ∧ nth u r ≤ 1e300) ∧ (1e-300 ≤ nth u' r ∧ nth u' r ≤ 1e300) ∧ nth u' r = nth u r / (τ * α)) :
    checkStat (FitData.ofObs (rescale τ α κ o) (useAll (rescale τ α κ o) x' us).st) stat = checkStat (FitData.ofObs o (useAll o x us).st) stat ∧
      likelihood stat (FitData.ofObs (rescale τ α κ o) (useAll (rescale τ α κ o) x' us).st) u' = likelihood stat (FitData.ofObs o (useAll o x us).st) u :=
  C139_fit τ α κ hτ hα o _ _ (C139_history τ α κ hτ hα hκ o n h ranges us x x' hx hx').data stat u u' hu

/-! ## Examples -/

/-- An observation with a background and a varying area scale in units of minutes, 10 cm² and another region size; it can be made in both units. -/
theorem exMade : (∃ x, ObsObj.new vObs [(0, 10)] = .ok x) ∧ ∃ x, ObsObj.new (rescale 60 10 3 vObs) [(0, 10)] = .ok x := by
  have hg : GoodRanges [((0 : ℝ), (10 : ℝ))] := ⟨by simp, by simp, by simp⟩
  exact ⟨(C15_history vObs 3 vObs_legal [(0, 10)] []).1.2 hg, (C15_history _ 3 (legal (by norm_num) (by norm_num) (by norm_num) vObs_legal) [(0, 10)] []).1.2 hg⟩

set_option exponentiation.threshold 400 in
/-- The hypotheses of `C139_units` are met: the observation is grouped by significance, restricted and regrouped, and the fluxes 1200 and 2 are the same in the two
units. -/
example : ∃ (x x' : ObsObj) (u u' : List ℝ), ObsObj.new vObs [(0, 10)] = .ok x ∧ ObsObj.new (rescale 60 10 3 vObs) [(0, 10)] = .ok x' ∧
    let us := [Use.group .sig (some 2) false, .setErange [(0, 3)], .setGrouping (some [1, -1, 1])]
    ∀ r < (useAll vObs x us).st.matrix.length, (1e-300 ≤ nth u r ∧ nth u r ≤ 1e300) ∧ (1e-300 ≤ nth u' r ∧ nth u' r ≤ 1e300) ∧ nth u' r = nth u r / ((60 : ℝ) * 10) := by
  obtain ⟨⟨x, hx⟩, x', hx'⟩ := exMade
  refine ⟨x, x', List.replicate (useAll vObs x [Use.group .sig (some 2) false, .setErange [(0, 3)], .setGrouping (some [1, -1, 1])]).st.matrix.length 1200,
    List.replicate (useAll vObs x [Use.group .sig (some 2) false, .setErange [(0, 3)], .setGrouping (some [1, -1, 1])]).st.matrix.length 2, hx, hx', ?_⟩
  intro us r hr
  have hn : ∀ (v : ℝ), nth (List.replicate (useAll vObs x us).st.matrix.length v) r = v := by
    intro v
    unfold nth
    simp [List.getD_eq_getElem?_getD, hr]
  show (1e-300 ≤ nth (List.replicate (useAll vObs x us).st.matrix.length 1200) r ∧ nth (List.replicate (useAll vObs x us).st.matrix.length 1200) r ≤ 1e300) ∧
    (1e-300 ≤ nth (List.replicate (useAll vObs x us).st.matrix.length 2) r ∧ nth (List.replicate (useAll vObs x us).st.matrix.length 2) r ≤ 1e300) ∧
    nth (List.replicate (useAll vObs x us).st.matrix.length 2) r = nth (List.replicate (useAll vObs x us).st.matrix.length 1200) r / (60 * 10)
  rw [hn, hn]
  norm_num

/-- The two observations differ: exposure 1 and 60, area scale 1, 3, 1 and 10, 30, 10. -/
example : (rescale 60 10 3 vObs).spec.exposure = 60 ∧ (rescale 60 10 3 vObs).spec.areaScale = [10, 30, 10] := by
  constructor <;> norm_num [rescale, rescaleSpec, vObs]

/-- Units that change for the source alone change the ratio: source and background have to change together. -/
example : ({ vObs with spec := rescaleSpec 1 1 2 vObs.spec } : Obs).ratioOf (rescaleSpec 1 1 1 (vObs.back.getD vObs.spec)) {0} ≠ vObs.ratioOf (vObs.back.getD vObs.spec) {0} := by
  norm_num [Obs.ratioOf, effScale, rescaleSpec, vObs, at0]

end Elisa.Data.Units
