import Verif.Data.GroupLemmas
import Verif.Data.ObsProps
import Verif.Grouping.SigProps
import Verif.Grouping.Binning

/-! Helper lemmas for C17: one segment. -/

set_option linter.unusedSectionVars false

namespace Elisa.Data

open Elisa Elisa.Grouping

/-- channels `a..b-1` of the segment meet the scale of the method -/
def Obs.SegMeets (o : Obs) (m : Method) (scale : ℝ) (d : Segment) (a b : Nat) : Prop :=
  match m with
  | .const | .opt | .unknown => True
  | .min | .optmin => (truncInt scale : ℝ) ≤ total d.specCounts a b
  | .bmin | .optbmin => (truncInt scale : ℝ) ≤ total d.backCounts a b
  | .bsig | .optbsig => NormalMeets d.backCounts d.backErrors scale a b
  | .sig | .optsig => match o.spec.poisson, o.back.map (·.poisson) with
      | true, some true => LimaMeets d.specCounts d.backCounts d.ratio scale a b
      | true, some false => GvMeets d.specCounts d.backCounts d.backErrors d.ratio scale a b
      | _, _ => NormalMeets d.netCounts d.netErrors scale a b

/-- a positive scale, in the sense of the method -/
def Method.ScaleOk (m : Method) (scale : ℝ) : Prop :=
  match m with
  | .const | .min | .bmin | .optmin | .optbmin => 0 < truncInt scale
  | .opt => True
  | .sig | .bsig | .optsig | .optbsig => 0 < scale
  | .unknown => False

structure Segment.Sized (d : Segment) (n : Nat) (hasBack isOpt : Bool) : Prop where
  pos : 0 < n
  spec : d.specCounts.length = n
  net : d.netCounts.length = n
  netE : d.netErrors.length = n
  back : hasBack = true → d.backCounts.length = n
  backE : hasBack = true → d.backErrors.length = n
  fwhm : isOpt = true → d.fwhm.length = n

theorem isStart_of_valid {F : List Int} {n : Nat} (h : ValidFlags F n) : IsStart F 0 :=
  ⟨1, h.first, by decide⟩

theorem runMethod_spec {o : Obs} {m : Method} {scale : ℝ} {d : Segment} {n : Nat}
    (hd : d.Sized n o.back.isSome m.isOpt) (hs : m.ScaleOk scale)
    (hb : (m = .bmin ∨ m = .bsig ∨ m = .optbmin ∨ m = .optbsig) → o.back.isSome = true)
    (hspos : (m = .min ∨ m = .optmin) → ∀ x ∈ d.specCounts, 0 ≤ x)
    (hbpos : (m = .bmin ∨ m = .optbmin) → ∀ x ∈ d.backCounts, 0 ≤ x)
    (hc : m = .const → (truncInt scale).toNat ≤ n) :
    ∃ F s, o.runMethod m scale d = .ok (F, s) ∧ F.length = n ∧ IsStart F 0 ∧
      (s = true ↔ ∀ a b, IsGroup F a b → o.SegMeets m scale d a b) := by
  have W : m.isOpt = true → (calcOptimalBinning d.fwhm d.countsOpt).length = n ∧
      ∀ w ∈ calcOptimalBinning d.fwhm d.countsOpt, 1 ≤ w := by
    intro h
    obtain ⟨w1, w2⟩ := C03_width_total d.fwhm d.countsOpt
    exact ⟨by rw [w1, hd.fwhm h], w2⟩
  have hn := hd.pos
  have hne : ∀ {xs : List ℝ}, xs.length = n → xs ≠ [] := by
    intro xs h hh; rw [hh] at h; simp at h; omega
  have hwne : (calcOptimalBinning d.fwhm d.countsOpt).length = n →
      calcOptimalBinning d.fwhm d.countsOpt ≠ [] := by
    intro w1 h; rw [h] at w1; simp at w1; omega
  -- common pattern for the count based methods
  have cnt : ∀ {F : List Int} {s : Bool} {data : List ℝ} {k : ℝ}, data.length = n →
      ValidFlags F data.length → (∀ x ∈ data, 0 ≤ x) → (s = true ↔ k ≤ total data 0 data.length) →
      (s = true → ∀ a b, IsGroup F a b → k ≤ total data a b) →
      F.length = n ∧ IsStart F 0 ∧ (s = true ↔ ∀ a b, IsGroup F a b → k ≤ total data a b) := by
    intro F s data k hl hv hp hs1 hs2
    refine ⟨by rw [hv.length, hl], isStart_of_valid hv, hs2, ?_⟩
    intro h
    rw [hs1]
    obtain ⟨b, hb⟩ := exists_group (isStart_of_valid hv)
    refine le_trans (h 0 b hb) ?_
    unfold total
    apply Finset.sum_le_sum_of_subset_of_nonneg
    · intro i hi
      rw [Finset.mem_Ico] at hi ⊢
      have := (isGroup_iff.1 hb).2.1
      rw [hv.length] at this; omega
    · intro i _ _
      by_cases hi : i < data.length
      · simp only [List.getD, List.getElem?_eq_getElem hi, Option.getD_some]
        exact hp _ (List.getElem_mem hi)
      · simp [List.getD, List.getElem?_eq_none (not_lt.1 hi)]
  have sg : ∀ {F : List Int} {s : Bool} {k : Nat} {cl mt : Nat → Nat → Prop}, k = n → SigSpec k cl mt F s →
      F.length = n ∧ IsStart F 0 ∧ (s = true ↔ ∀ a b, IsGroup F a b → mt a b) := by
    intro F s k cl mt hk h
    exact ⟨by rw [h.valid.length, hk], isStart_of_valid h.valid, h.success_iff⟩
  have og : ∀ {F : List Int} {s : Bool} {w : List Nat} {cl mt : Nat → Nat → Prop}, w.length = n →
      OptSigSpec w cl mt F s →
      F.length = n ∧ IsStart F 0 ∧ (s = true ↔ ∀ a b, IsGroup F a b → mt a b) := by
    intro F s w cl mt hk h
    exact ⟨by rw [h.valid.length, hk], isStart_of_valid h.valid, h.success_iff⟩
  cases m with
  | const =>
    have hs' : ¬ truncInt scale ≤ 0 := not_le.2 hs
    have : 0 < (truncInt scale).toNat := by
      simp only [Method.ScaleOk] at hs; omega
    obtain ⟨F, h1, h2⟩ := C02_group_const_partial n (truncInt scale).toNat this (hc rfl)
    refine ⟨F, true, ?_, h2.valid.length, isStart_of_valid h2.valid, ?_⟩
    · simp only [Obs.runMethod, if_neg hs', hd.spec]; exact h1
    · simp [Obs.SegMeets]
  | min =>
    obtain ⟨F, s, h1, h2⟩ := C01_group_min d.specCounts (truncInt scale : ℝ) (hne hd.spec)
      (by exact_mod_cast hs) (hspos (Or.inl rfl))
    obtain ⟨a1, a2, a3⟩ := cnt hd.spec h2.valid (hspos (Or.inl rfl)) h2.success_iff h2.enough
    exact ⟨F, s, h1, a1, a2, a3⟩
  | bmin =>
    have hbk := hb (by simp)
    obtain ⟨F, s, h1, h2⟩ := C01_group_min d.backCounts (truncInt scale : ℝ) (hne (hd.back hbk))
      (by exact_mod_cast hs) (hbpos (Or.inl rfl))
    obtain ⟨a1, a2, a3⟩ := cnt (hd.back hbk) h2.valid (hbpos (Or.inl rfl)) h2.success_iff h2.enough
    exact ⟨F, s, h1, a1, a2, a3⟩
  | optmin =>
    obtain ⟨hwl, w2⟩ := W rfl
    have h2 := C04_group_optmin (calcOptimalBinning d.fwhm d.countsOpt) d.specCounts (truncInt scale : ℝ)
      (by exact_mod_cast hs) (by rw [hwl, hd.spec]) (hne hd.spec) w2 (hspos (Or.inr rfl))
    obtain ⟨a1, a2, a3⟩ := cnt hd.spec h2.valid (hspos (Or.inr rfl)) h2.success_iff h2.enough
    exact ⟨_, _, rfl, a1, a2, a3⟩
  | optbmin =>
    obtain ⟨hwl, w2⟩ := W rfl
    have hbk := hb (by simp)
    have h2 := C04_group_optmin (calcOptimalBinning d.fwhm d.countsOpt) d.backCounts (truncInt scale : ℝ)
      (by exact_mod_cast hs) (by rw [hwl, hd.back hbk]) (hne (hd.back hbk)) w2 (hbpos (Or.inr rfl))
    obtain ⟨a1, a2, a3⟩ := cnt (hd.back hbk) h2.valid (hbpos (Or.inr rfl)) h2.success_iff h2.enough
    exact ⟨_, _, rfl, a1, a2, a3⟩
  | opt =>
    obtain ⟨hwl, w2⟩ := W rfl
    obtain ⟨F, h1, h2⟩ := C03_group_opt (K := ℝ) _ (hwne hwl) w2
    refine ⟨F, true, ?_, by rw [h2.valid.length, hwl], isStart_of_valid h2.valid, by simp [Obs.SegMeets]⟩
    simp only [Obs.runMethod]; rw [h1]
  | bsig =>
    have hbk := hb (by simp)
    obtain ⟨F, s, h1, h2⟩ := C05_group_sig_normal d.backCounts d.backErrors scale
      (by rw [hd.back hbk, hd.backE hbk]) hs (hne (hd.back hbk))
    obtain ⟨a1, a2, a3⟩ := sg (hd.back hbk) h2
    exact ⟨F, s, h1, a1, a2, a3⟩
  | optbsig =>
    obtain ⟨hwl, w2⟩ := W rfl
    have hbk := hb (by simp)
    obtain ⟨F, s, h1, h2, _⟩ := C06_group_optsig_normal_partial _ d.backCounts d.backErrors scale
      (by rw [hwl, hd.back hbk]) (by rw [hd.back hbk, hd.backE hbk]) hs (hwne hwl) w2
    obtain ⟨a1, a2, a3⟩ := og hwl h2
    exact ⟨F, s, h1, a1, a2, a3⟩
  | unknown => exact absurd hs (by simp [Method.ScaleOk])
  | sig =>
    have hnorm : ∃ F s, groupSigNormal d.netCounts d.netErrors scale = .ok (F, s) ∧ F.length = n ∧ IsStart F 0 ∧
      (s = true ↔ ∀ a b, IsGroup F a b → NormalMeets d.netCounts d.netErrors scale a b) := by
      obtain ⟨F, s, h1, h2⟩ := C05_group_sig_normal d.netCounts d.netErrors scale
        (by rw [hd.net, hd.netE]) hs (hne hd.net)
      exact ⟨F, s, h1, sg hd.net h2⟩
    unfold Obs.runMethod Obs.SegMeets
    cases hp : o.spec.poisson with
    | false => simpa using hnorm
    | true =>
      cases hbk : o.back with
      | none => simpa using hnorm
      | some b =>
        have hbk' : o.back.isSome = true := by rw [hbk]; rfl
        cases hbp : b.poisson with
        | true =>
          obtain ⟨F, s, h1, h2⟩ := C05_group_sig_lima d.specCounts d.backCounts d.ratio scale
            (by rw [hd.spec, hd.back hbk']) hs (hne hd.spec)
          refine ⟨F, s, ?_, ?_⟩
          · simp only [Option.map_some, hbp]; exact h1
          · simp only [Option.map_some, hbp]; exact sg hd.spec h2
        | false =>
          obtain ⟨F, s, h1, h2⟩ := C05_group_sig_gv d.specCounts d.backCounts d.backErrors d.ratio scale
            (by rw [hd.spec, hd.back hbk']) (by rw [hd.back hbk', hd.backE hbk']) hs (hne hd.spec)
          refine ⟨F, s, ?_, ?_⟩
          · simp only [Option.map_some, hbp]; exact h1
          · simp only [Option.map_some, hbp]; exact sg hd.spec h2
  | optsig =>
    obtain ⟨hwl, w2⟩ := W rfl
    have hnorm : ∃ F s, groupOptsigNormal (calcOptimalBinning d.fwhm d.countsOpt) d.netCounts d.netErrors scale = .ok (F, s) ∧ F.length = n ∧ IsStart F 0 ∧
      (s = true ↔ ∀ a b, IsGroup F a b → NormalMeets d.netCounts d.netErrors scale a b) := by
      obtain ⟨F, s, h1, h2, _⟩ := C06_group_optsig_normal_partial (calcOptimalBinning d.fwhm d.countsOpt) d.netCounts d.netErrors scale
        (by rw [hwl, hd.net]) (by rw [hd.net, hd.netE]) hs (hwne hwl) w2
      exact ⟨F, s, h1, og hwl h2⟩
    unfold Obs.runMethod Obs.SegMeets
    cases hp : o.spec.poisson with
    | false => simpa using hnorm
    | true =>
      cases hbk : o.back with
      | none => simpa using hnorm
      | some b =>
        have hbk' : o.back.isSome = true := by rw [hbk]; rfl
        cases hbp : b.poisson with
        | true =>
          obtain ⟨F, s, h1, h2⟩ := C06_group_optsig_lima (calcOptimalBinning d.fwhm d.countsOpt) d.specCounts d.backCounts d.ratio scale
            (by rw [hwl, hd.spec]) (by rw [hd.spec, hd.back hbk']) hs (hwne hwl) w2
          refine ⟨F, s, ?_, ?_⟩
          · simp only [Option.map_some, hbp]; exact h1
          · simp only [Option.map_some, hbp]; exact og hwl h2
        | false =>
          obtain ⟨F, s, h1, h2⟩ := C06_group_optsig_gv (calcOptimalBinning d.fwhm d.countsOpt) d.specCounts d.backCounts d.backErrors d.ratio scale
            (by rw [hwl, hd.spec]) (by rw [hd.spec, hd.back hbk']) (by rw [hd.back hbk', hd.backE hbk']) hs (hwne hwl) w2
          refine ⟨F, s, ?_, ?_⟩
          · simp only [Option.map_some, hbp]; exact h1
          · simp only [Option.map_some, hbp]; exact og hwl h2

/-! ### The data of one segment, in terms of channel sets -/

/-- the pre-groups of a row, as sets of good channels -/
def rowSets (o : Obs) (pre : List Int) (row : List Bool) : List (Finset Nat) :=
  applyMask row (groupSets pre (some o.good))

theorem rowSets_disjoint (o : Obs) (pre : List Int) (row : List Bool) :
    (rowSets o pre row).Pairwise Disjoint :=
  (groupSets_disjoint pre _).sublist (applyMask_sublist _ _)

theorem rowSets_length {o : Obs} {pre : List Int} {row : List Bool}
    (hrow : row.length = (groupIdx pre).length) : (rowSets o pre row).length = (flatnonzero row).length :=
  length_applyMask_groupSets _ hrow

theorem rowSets_union {o : Obs} {pre : List Int} (h0 : IsStart pre 0) {row : List Bool}
    (hrow : row.length = (groupIdx pre).length) {P m : Nat} (hP : flatnonzero row = List.range' P m)
    {a b : Nat} (hab : a ≤ b) (hb : b ≤ m) :
    unionOf (rowSets o pre row) a b = o.goodSet (startPos pre (P + a)) (startPos pre (P + b)) := by
  have hPm : 0 < m → P + m ≤ (groupIdx pre).length := by
    intro hm
    have : P + m - 1 ∈ flatnonzero row := by rw [hP, List.mem_range'_1]; omega
    have := flatnonzero_lt this
    omega
  rcases Nat.eq_zero_or_pos m with hm | hm
  · have e1 : a = 0 := by omega
    have e2 : b = 0 := by omega
    subst e1 e2
    simp [unionOf, Obs.goodSet, goodIn]
  have hle := hPm hm
  have hlen : row.length = (groupSets pre (some o.good)).length := by
    rw [hrow, groupSets, List.length_map, edges_length]
  have : unionOf (rowSets o pre row) a b = unionOf (groupSets pre (some o.good)) (P + a) (P + b) := by
    unfold unionOf rowSets
    rw [applyMask_eq_flatnonzero row _ hlen ∅, hP]
    ext i
    simp only [Finset.mem_biUnion, Finset.mem_Ico]
    constructor
    · rintro ⟨k, ⟨k1, k2⟩, hi⟩
      refine ⟨P + k, by omega, ?_⟩
      rw [List.getD, List.getElem?_map, List.getElem?_range' (by omega)] at hi
      simpa using hi
    · rintro ⟨k, ⟨k1, k2⟩, hi⟩
      refine ⟨k - P, by omega, ?_⟩
      rw [List.getD, List.getElem?_map, List.getElem?_range' (by omega)]
      simpa [show P + (k - P) = k by omega] using hi
  rw [this, unionOf_groupSets h0 _ (by omega) (by omega)]
  rfl

/-- total of a segment array -/
theorem seg_total {o : Obs} {pre : List Int} (h0 : IsStart pre 0) {row : List Bool}
    (hrow : row.length = (groupIdx pre).length) {P m : Nat} (hP : flatnonzero row = List.range' P m)
    {a b : Nat} (hab : a ≤ b) (hb : b ≤ m) (f : Nat → ℝ) :
    total ((rowSets o pre row).map fun S => ∑ i ∈ S, f i) a b =
      ∑ i ∈ o.goodSet (startPos pre (P + a)) (startPos pre (P + b)), f i := by
  rw [total_map_set (rowSets_disjoint o pre row) f, rowSets_union h0 hrow hP hab hb]

end Elisa.Data
