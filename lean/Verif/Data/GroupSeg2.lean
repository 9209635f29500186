import Verif.Data.GroupSeg

/-! Helper lemmas for C17: the arrays of one segment. -/

set_option linter.unusedSectionVars false

namespace Elisa.Data

open Elisa Elisa.Grouping

/-- the ratio is the same for every non-empty set of good channels -/
def Obs.FlatRatio (o : Obs) : Prop :=
  ∀ b, o.back = some b → ∃ ρ, ∀ S : Finset Nat, S.Nonempty → (∀ i ∈ S, o.good[i]? = some true) →
    o.ratioOf b S = ρ

/-- the good channels `S` meet the scale of the method -/
def Obs.SetMeets (o : Obs) (m : Method) (scale : ℝ) (S : Finset Nat) : Prop :=
  match m with
  | .const | .opt | .unknown => True
  | .min | .optmin => (truncInt scale : ℝ) ≤ ∑ i ∈ S, at0 o.spec.counts i
  | .bmin | .optbmin => ∀ b, o.back = some b → (truncInt scale : ℝ) ≤ ∑ i ∈ S, at0 b.counts i
  | .bsig | .optbsig => ∀ b, o.back = some b →
      scale * Real.sqrt (∑ i ∈ S, at0 b.errors i ^ 2) ≤ ∑ i ∈ S, at0 b.counts i
  | .sig | .optsig => match o.spec.poisson, o.back with
      | true, some b => if b.poisson then
          scale ≤ significanceLima (∑ i ∈ S, at0 o.spec.counts i) (∑ i ∈ S, at0 b.counts i) (o.ratioOf b S)
        else scale ≤ significanceGv (∑ i ∈ S, at0 o.spec.counts i) (∑ i ∈ S, at0 b.counts i)
          (Real.sqrt (∑ i ∈ S, at0 b.errors i ^ 2)) (o.ratioOf b S)
      | false, some b => scale * Real.sqrt (∑ i ∈ S, at0 o.spec.errors i ^ 2
            + o.ratioOf b S ^ 2 * ∑ i ∈ S, at0 b.errors i ^ 2)
          ≤ ∑ i ∈ S, at0 o.spec.counts i - o.ratioOf b S * ∑ i ∈ S, at0 b.counts i
      | _, none => scale * Real.sqrt (∑ i ∈ S, at0 o.spec.errors i ^ 2) ≤ ∑ i ∈ S, at0 o.spec.counts i

/-- the data of a segment whose pre-groups are the sets `Rs` -/
structure Segment.Of (o : Obs) (d : Segment) (Rs : List (Finset Nat)) : Prop where
  spec : d.specCounts = Rs.map fun S => ∑ i ∈ S, at0 o.spec.counts i
  noBack : o.back = none → d.netCounts = Rs.map (fun S => ∑ i ∈ S, at0 o.spec.counts i) ∧
    d.netErrors = Rs.map fun S => Real.sqrt (∑ i ∈ S, at0 o.spec.errors i ^ 2)
  back : ∀ b, o.back = some b →
    d.backCounts = Rs.map (fun S => ∑ i ∈ S, at0 b.counts i) ∧
    d.backErrors = Rs.map (fun S => Real.sqrt (∑ i ∈ S, at0 b.errors i ^ 2)) ∧
    d.netCounts = Rs.map (fun S => ∑ i ∈ S, at0 o.spec.counts i
      - o.ratioOf b S * ∑ i ∈ S, at0 b.counts i) ∧
    d.netErrors = Rs.map (fun S => Real.sqrt (∑ i ∈ S, at0 o.spec.errors i ^ 2
      + o.ratioOf b S ^ 2 * ∑ i ∈ S, at0 b.errors i ^ 2)) ∧
    d.ratio = ⟨o.spec.exposure, b.exposure,
      describe false (at0 o.spec.counts) (at0 o.spec.areaScale) Rs,
      describe false (at0 o.spec.counts) (at0 o.spec.backScale) Rs,
      describe false (at0 b.counts) (at0 b.areaScale) Rs,
      describe false (at0 b.counts) (at0 b.backScale) Rs⟩

theorem preData_of {o : Obs} {n : Nat} (ho : o.Legal n) {pre : List Int} (hf : pre.length = n) :
    ∃ d, o.preData pre = .ok d ∧ Segment.Of o d (groupSets pre (some o.good)) ∧
      d.fwhm = o.resp.fwhm ∧ d.countsOpt = o.countsOpt := by
  have e1 := spectrum_group_eq ho.spec hf ho.good
  have e2 := scaleArrays_eq ho hf
  unfold Obs.preData
  rw [e1, e2]
  simp only [bind, Except.bind]
  cases hb : o.back with
  | none =>
    simp only [Option.map_none, pure, Except.pure]
    refine ⟨_, rfl, ⟨?_, ?_, ?_⟩, rfl, rfl⟩
    · simp [groupSets_eq, at0, Function.comp_def]
    · intro _; simp [groupSets_eq, at0, Function.comp_def]
    · intro b h; rw [hb] at h; simp at h
  | some b =>
    have e6 := spectrum_group_eq (ho.back b hb) hf ho.good
    simp only [Option.map_some, e6, pure, Except.pure]
    have hnet : o.netMean = false := by simp [Obs.netMean, hb]
    have hr := groupBackRatio_describe (K := ℝ) (v := ⟨o.spec.counts, o.spec.areaScale, o.spec.backScale, b.counts, b.areaScale, b.backScale⟩) o.spec.exposure b.exposure (flags := pre) (quality := some o.good)
    simp only at hr
    have hr' : ∀ S, setRatio (⟨o.spec.counts, o.spec.areaScale, o.spec.backScale, b.counts, b.areaScale, b.backScale⟩ : ScaleInputs ℝ) o.spec.exposure b.exposure S = o.ratioOf b S := fun S => rfl
    refine ⟨_, rfl, ⟨?_, ?_, ?_⟩, rfl, rfl⟩
    · simp [groupSets_eq, at0, Function.comp_def]
    · intro h; rw [hb] at h; simp at h
    · intro b' hb'
      rw [hb] at hb'
      obtain rfl := Option.some.inj hb'
      refine ⟨by simp [groupSets_eq, at0, Function.comp_def], by simp [groupSets_eq, at0, Function.comp_def], ?_, ?_, ?_⟩
      · simp only [hnet]
        rw [hr, groupSets_eq, List.map_map, zipWith_map_map, zipWith_map_map, List.map_map]
        rfl
      · simp only [hnet]
        rw [hr, groupSets_eq]
        simp only [List.map_map, zipWith_map_map]
        apply List.map_congr_left
        intro e _
        simp only [Function.comp_apply, hr']
        congr 1
        have hs : ∀ f : Nat → ℝ, Real.sqrt (∑ i ∈ goodIn (some o.good) e.1 e.2, f i ^ 2) *
            Real.sqrt (∑ i ∈ goodIn (some o.good) e.1 e.2, f i ^ 2) = ∑ i ∈ goodIn (some o.good) e.1 e.2, f i ^ 2 :=
          fun f => Real.mul_self_sqrt (Finset.sum_nonneg fun i _ => sq_nonneg _)
        have h1 := hs (fun i => o.spec.errors.getD i 0)
        have h2 := hs (fun i => b.errors.getD i 0)
        simp only [at0]
        rw [h1]
        linear_combination (o.ratioOf b (goodIn (some o.good) e.1 e.2)) ^ 2 * h2
      · simp only [hnet]

theorem slice_of {o : Obs} {d : Segment} {Ss : List (Finset Nat)} (h : Segment.Of o d Ss) (row : List Bool) :
    Segment.Of o (d.slice row) (applyMask row Ss) := by
  refine ⟨?_, ?_, ?_⟩
  · simp only [Segment.slice, h.spec]; rw [applyMask_map]
  · intro hb
    obtain ⟨h1, h2⟩ := h.noBack hb
    simp only [Segment.slice, h1, h2]
    exact ⟨applyMask_map _ _ _, applyMask_map _ _ _⟩
  · intro b hb
    obtain ⟨h1, h2, h3, h4, h5⟩ := h.back b hb
    simp only [Segment.slice, h1, h2, h3, h4, h5, sliceScaleData_describe]
    exact ⟨applyMask_map _ _ _, applyMask_map _ _ _, applyMask_map _ _ _, applyMask_map _ _ _, trivial⟩

theorem variance_sets {Rs : List (Finset Nat)} (f : Nat → ℝ) :
    (Rs.map fun S => Real.sqrt (∑ i ∈ S, f i ^ 2)).map (fun e => e * e) = Rs.map fun S => ∑ i ∈ S, f i ^ 2 := by
  rw [List.map_map]
  apply List.map_congr_left
  intro S _
  exact Real.mul_self_sqrt (Finset.sum_nonneg fun i _ => sq_nonneg _)

/-- meeting the scale in the segment is meeting it for the set of good channels -/
theorem segMeets_iff {o : Obs} {m : Method} {scale : ℝ} {d : Segment} {Rs : List (Finset Nat)}
    (hd : Segment.Of o d Rs) (hdis : Rs.Pairwise Disjoint) (hne : ∀ S ∈ Rs, S.Nonempty)
    (hgood : ∀ S ∈ Rs, ∀ i ∈ S, o.good[i]? = some true)
    (hbm : (m = .bmin ∨ m = .bsig ∨ m = .optbmin ∨ m = .optbsig) → o.back.isSome = true)
    (hflat : (m = .sig ∨ m = .optsig) → o.spec.poisson = false → o.FlatRatio)
    {a b : Nat} (hab : a < b) (hb : b ≤ Rs.length) :
    o.SegMeets m scale d a b ↔ o.SetMeets m scale (unionOf Rs a b) := by
  have tot : ∀ f : Nat → ℝ, total (Rs.map fun S => ∑ i ∈ S, f i) a b = ∑ i ∈ unionOf Rs a b, f i :=
    fun f => total_map_set hdis f
  have hUne : (unionOf Rs a b).Nonempty := by
    obtain ⟨i, hi⟩ := hne Rs[a] (List.getElem_mem (by omega))
    refine ⟨i, ?_⟩
    unfold unionOf
    rw [Finset.mem_biUnion]
    exact ⟨a, Finset.mem_Ico.2 ⟨le_refl _, hab⟩, by simpa [List.getD, show a < Rs.length by omega] using hi⟩
  have hUgood : ∀ i ∈ unionOf Rs a b, o.good[i]? = some true := by
    intro i hi
    unfold unionOf at hi
    rw [Finset.mem_biUnion] at hi
    obtain ⟨k, hk, hki⟩ := hi
    have hkl : k < Rs.length := by have := (Finset.mem_Ico.1 hk).2; omega
    simp only [List.getD, List.getElem?_eq_getElem hkl, Option.getD_some] at hki
    exact hgood _ (List.getElem_mem hkl) i hki
  have hsome : ∀ {b : Spectrum}, o.back = some b → ∀ (p : Spectrum → Prop), (∀ b', o.back = some b' → p b') ↔ p b := by
    intro b hb p
    constructor
    · intro h; exact h b hb
    · intro h b' hb'; rw [hb] at hb'; obtain rfl := Option.some.inj hb'; exact h
  have hratio : ∀ b', o.back = some b' → d.ratio.ratio a b = o.ratioOf b' (unionOf Rs a b) := by
    intro b' hb'
    obtain ⟨_, _, _, _, h5⟩ := hd.back b' hb'
    rw [h5]
    exact intervalBackRatio_describe (K := ℝ) (v := ⟨o.spec.counts, o.spec.areaScale, o.spec.backScale, b'.counts, b'.areaScale, b'.backScale⟩) o.spec.exposure b'.exposure hdis hab.le hb
  have hS : (o.SegMeets .sig scale d a b ↔ o.SetMeets .sig scale (unionOf Rs a b)) ∨
      (o.spec.poisson = false ∧ ¬ o.FlatRatio) := by
    unfold Obs.SegMeets Obs.SetMeets
    cases hbk : o.back with
    | none =>
      left
      obtain ⟨h1, h2⟩ := hd.noBack hbk
      have : NormalMeets d.netCounts d.netErrors scale a b ↔
          scale * Real.sqrt (∑ i ∈ unionOf Rs a b, at0 o.spec.errors i ^ 2) ≤ ∑ i ∈ unionOf Rs a b, at0 o.spec.counts i := by
        unfold NormalMeets variance
        rw [h1, h2, variance_sets, tot, tot]
      cases o.spec.poisson <;> exact this
    | some b' =>
      obtain ⟨h1, h2, h3, h4, h5⟩ := hd.back b' hbk
      cases hp : o.spec.poisson with
      | true =>
        left
        cases hbp : b'.poisson with
        | true =>
          simp only [Option.map_some, hbp, if_true]
          unfold LimaMeets
          rw [hratio b' hbk, hd.spec, h1, tot, tot]
        | false =>
          simp only [Option.map_some, hbp, Bool.false_eq_true, if_false]
          unfold GvMeets variance
          rw [hratio b' hbk, hd.spec, h1, h2, variance_sets, tot, tot, tot]
      | false =>
        by_cases hfl : o.FlatRatio
        · left
          obtain ⟨ρ, hρ⟩ := hfl b' hbk
          change NormalMeets d.netCounts d.netErrors scale a b ↔ scale * Real.sqrt (∑ i ∈ unionOf Rs a b, at0 o.spec.errors i ^ 2
            + o.ratioOf b' (unionOf Rs a b) ^ 2 * ∑ i ∈ unionOf Rs a b, at0 b'.errors i ^ 2)
            ≤ ∑ i ∈ unionOf Rs a b, at0 o.spec.counts i - o.ratioOf b' (unionOf Rs a b) * ∑ i ∈ unionOf Rs a b, at0 b'.counts i
          unfold NormalMeets variance
          rw [hρ _ hUne hUgood, h3, h4]
          have e1 : (Rs.map fun S => ∑ i ∈ S, at0 o.spec.counts i - o.ratioOf b' S * ∑ i ∈ S, at0 b'.counts i)
              = Rs.map fun S => ∑ i ∈ S, (at0 o.spec.counts i - ρ * at0 b'.counts i) := by
            apply List.map_congr_left
            intro S hS
            rw [hρ S (hne S hS) (hgood S hS), Finset.sum_sub_distrib, Finset.mul_sum]
          have e2 : ((Rs.map fun S => Real.sqrt (∑ i ∈ S, at0 o.spec.errors i ^ 2
                + o.ratioOf b' S ^ 2 * ∑ i ∈ S, at0 b'.errors i ^ 2)).map fun e => e * e)
              = Rs.map fun S => ∑ i ∈ S, (at0 o.spec.errors i ^ 2 + ρ ^ 2 * at0 b'.errors i ^ 2) := by
            rw [List.map_map]
            apply List.map_congr_left
            intro S hS
            simp only [Function.comp]
            rw [hρ S (hne S hS) (hgood S hS), Real.mul_self_sqrt, Finset.sum_add_distrib, Finset.mul_sum]
            have p1 : 0 ≤ ∑ i ∈ S, at0 o.spec.errors i ^ 2 := Finset.sum_nonneg fun i _ => sq_nonneg _
            have p2 : 0 ≤ ∑ i ∈ S, at0 b'.errors i ^ 2 := Finset.sum_nonneg fun i _ => sq_nonneg _
            positivity
          rw [e1, e2, tot, tot, Finset.sum_sub_distrib, Finset.sum_add_distrib, Finset.mul_sum, Finset.mul_sum]
        · right; exact ⟨rfl, hfl⟩
  cases m with
  | const => simp [Obs.SegMeets, Obs.SetMeets]
  | opt => simp [Obs.SegMeets, Obs.SetMeets]
  | unknown => simp [Obs.SegMeets, Obs.SetMeets]
  | min => simp only [Obs.SegMeets, Obs.SetMeets]; rw [hd.spec, tot]
  | optmin => simp only [Obs.SegMeets, Obs.SetMeets]; rw [hd.spec, tot]
  | bmin =>
    obtain ⟨b', hb'⟩ := Option.isSome_iff_exists.1 (hbm (by simp))
    simp only [Obs.SegMeets, Obs.SetMeets]
    rw [hsome hb' (fun b => (truncInt scale : ℝ) ≤ ∑ i ∈ _, at0 b.counts i), (hd.back b' hb').1, tot]
  | optbmin =>
    obtain ⟨b', hb'⟩ := Option.isSome_iff_exists.1 (hbm (by simp))
    simp only [Obs.SegMeets, Obs.SetMeets]
    rw [hsome hb' (fun b => (truncInt scale : ℝ) ≤ ∑ i ∈ _, at0 b.counts i), (hd.back b' hb').1, tot]
  | bsig =>
    obtain ⟨b', hb'⟩ := Option.isSome_iff_exists.1 (hbm (by simp))
    simp only [Obs.SegMeets, Obs.SetMeets]
    rw [hsome hb' (fun b => scale * Real.sqrt (∑ i ∈ _, at0 b.errors i ^ 2) ≤ ∑ i ∈ _, at0 b.counts i)]
    unfold NormalMeets variance
    rw [(hd.back b' hb').1, (hd.back b' hb').2.1, variance_sets, tot, tot]
  | optbsig =>
    obtain ⟨b', hb'⟩ := Option.isSome_iff_exists.1 (hbm (by simp))
    simp only [Obs.SegMeets, Obs.SetMeets]
    rw [hsome hb' (fun b => scale * Real.sqrt (∑ i ∈ _, at0 b.errors i ^ 2) ≤ ∑ i ∈ _, at0 b.counts i)]
    unfold NormalMeets variance
    rw [(hd.back b' hb').1, (hd.back b' hb').2.1, variance_sets, tot, tot]
  | sig =>
    rcases hS with h | ⟨h1, h2⟩
    · exact h
    · exact absurd (hflat (by simp) h1) h2
  | optsig =>
    rcases hS with h | ⟨h1, h2⟩
    · exact h
    · exact absurd (hflat (by simp) h1) h2

end Elisa.Data
