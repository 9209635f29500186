import Verif.Data.GroupSeg2

/-!
# Property C17: the grouping obtained by `Data.group`

`Data.group(method, scale)` cuts the noticed channels of each energy range out of the spectrum, runs
the method on them and writes the resulting flags back.
-/

set_option linter.unusedSectionVars false

namespace Elisa.Data

open Elisa Elisa.Grouping

/-- When the flags can be written back faithfully.  `pre` are the flags before the method is applied
(single channels, or the flags stored in the data with `preserve_data_group=True`). -/
structure Obs.GroupTidy (o : Obs) (erange : List (ℝ × ℝ)) (pre : List Int) : Prop where
  /-- there is at least one energy range -/
  some_range : erange ≠ []
  /-- every energy range notices something -/
  nonempty : ∀ r ∈ erange, ∃ a b, IsGroup pre a b ∧ o.Noticed [r] a b
  /-- what a range notices is consecutive (no bad or un-noticed channel in between) -/
  contiguous : ∀ r ∈ erange, ∀ a b c d e f, IsGroup pre a b → IsGroup pre c d → IsGroup pre e f →
    b ≤ c → d ≤ e → o.Noticed [r] a b → o.Noticed [r] e f → o.Noticed [r] c d
  /-- the ranges come in channel order -/
  ordered : erange.Pairwise fun r r' => ∀ a b c d, IsGroup pre a b → IsGroup pre c d →
    o.Noticed [r] a b → o.Noticed [r'] c d → b ≤ c
  /-- the channels of a group that is not noticed are not noticed one by one either -/
  clean : ∀ a b, IsGroup pre a b → ¬ o.Noticed erange a b →
    ∀ i, a ≤ i → i < b → ¬ o.Noticed erange i (i + 1)

/-- With single channels before grouping (`preserve_data_group=False`) and channel energies that increase with the
channel number, `GroupTidy` only requires that each range notices something and that no channel
between two noticed channels of a range is bad. -/
theorem isGroup_ones {n a b : Nat} : IsGroup (List.replicate n 1) a b ↔ b = a + 1 ∧ b ≤ n := by
  rw [isGroup_iff]
  have hst : ∀ k, IsStart (List.replicate n 1) k ↔ k < n := by
    intro k
    unfold IsStart
    constructor
    · rintro ⟨f, hf, _⟩
      have := (List.getElem?_eq_some_iff.1 hf).1
      simpa using this
    · intro h
      exact ⟨1, by simp [h], by decide⟩
  simp only [hst, List.length_replicate]
  constructor
  · rintro ⟨h1, h2, h3, h4, _⟩
    refine ⟨?_, h2⟩
    by_contra hne
    exact h4 (a + 1) (by omega) (by omega) (by omega)
  · rintro ⟨rfl, h⟩
    exact ⟨by omega, h, by omega, by intro k h1 h2; omega, fun h => h⟩

theorem groupTidy_of_ascending {o : Obs} {n : Nat} (ho : o.Legal n) {erange : List (ℝ × ℝ)} (hne : erange ≠ [])
    (hsep : erange.Pairwise fun r r' => r.2 ≤ r'.1)
    (hw : ∀ i, i < n → o.resp.emin.getD i 0 < o.resp.emax.getD i 0)
    (hasc : ∀ i j, i < j → j < n → o.resp.emax.getD i 0 ≤ o.resp.emin.getD j 0)
    (hsome : ∀ r ∈ erange, ∃ i, i < n ∧ o.Noticed [r] i (i + 1))
    (hgood : ∀ r ∈ erange, ∀ i j k, i < j → j < k → k < n → o.Noticed [r] i (i + 1) → o.Noticed [r] k (k + 1) →
      o.good[j]? = some true) :
    o.GroupTidy erange (List.replicate n 1) := by
  have hone : ∀ r i, o.Noticed [r] i (i + 1) ↔ (r.1 ≤ o.resp.emin.getD i 0 ∧ o.resp.emax.getD i 0 ≤ r.2) ∧
      o.good[i]? = some true := by
    intro r i
    unfold Obs.Noticed
    simp only [List.mem_singleton, exists_eq_left]
    constructor
    · rintro ⟨h1, j, h2, h3, h4⟩
      have : j = i := by omega
      subst this
      exact ⟨h1 j (le_refl _) (by omega), h4⟩
    · rintro ⟨h1, h2⟩
      refine ⟨?_, i, le_refl _, by omega, h2⟩
      intro j hj1 hj2
      have : j = i := by omega
      subst this; exact h1
  refine ⟨hne, ?_, ?_, ?_, ?_⟩
  · intro r hr
    obtain ⟨i, h1, h2⟩ := hsome r hr
    exact ⟨i, i + 1, isGroup_ones.2 ⟨rfl, h1⟩, h2⟩
  · intro r hr a b c d e f h1 h2 h3 hbc hde na ne
    rw [isGroup_ones] at h1 h2 h3
    obtain ⟨rfl, k1⟩ := h1
    obtain ⟨rfl, k2⟩ := h2
    obtain ⟨rfl, k3⟩ := h3
    have g := hgood r hr a c e (by omega) (by omega) (by omega) na ne
    rw [hone] at na ne ⊢
    have e1 := hasc a c (by omega) (by omega)
    have e2 := hasc c e (by omega) (by omega)
    have e3 := hw a (by omega)
    have e4 := hw e (by omega)
    exact ⟨⟨by linarith [na.1.1], by linarith [ne.1.2]⟩, g⟩
  · refine hsep.imp ?_
    intro r r' hrr a b c d h1 h2 na nc
    rw [isGroup_ones] at h1 h2
    obtain ⟨rfl, k1⟩ := h1
    obtain ⟨rfl, k2⟩ := h2
    rw [hone] at na nc
    by_contra hlt
    have hca : c ≤ a := by omega
    have e3 := hw a (by omega)
    have e4 := hw c (by omega)
    rcases Nat.lt_or_ge c a with h | h
    · have := hasc c a h (by omega)
      linarith [na.1.1, na.1.2, nc.1.1, nc.1.2]
    · have : c = a := by omega
      subst this
      linarith [na.1.1, na.1.2, nc.1.1, nc.1.2]
  · intro a b h hn i h1 h2
    rw [isGroup_ones] at h
    have : i = a := by omega
    subst this
    rw [← h.1]; exact hn

theorem preFlags_ok {o : Obs} {n : Nat} (ho : o.Legal n) (preserve : Bool) :
    (o.preFlags preserve).length = n ∧ IsStart (o.preFlags preserve) 0 := by
  unfold Obs.preFlags
  cases preserve with
  | true => exact ⟨ho.spec.grouping, ho.spec.firstStart⟩
  | false =>
    refine ⟨by simp [ho.spec.counts], 1, ?_, by decide⟩
    have := ho.spec.pos
    simp [ho.spec.counts, this]

/-- the rows of the mask -/
noncomputable def rowOf (o : Obs) (pre : List Int) (r : ℝ × ℝ) : List Bool := (grp pre).map (noticedB o [r])

theorem maskRows_eq {o : Obs} {n : Nat} (ho : o.Legal n) (erange : List (ℝ × ℝ)) {pre : List Int}
    (hf : pre.length = n) : o.maskRows erange pre = .ok (erange.map (rowOf o pre)) := by
  unfold Obs.maskRows
  rw [groupEnergy_eq ho.resp hf ho.good]
  simp only [bind, Except.bind, pure, Except.pure]
  congr 1
  unfold maskGood channelMask
  rw [List.map_map]
  apply List.map_congr_left
  intro r _
  simp only [Function.comp]
  rw [nGood_eq (by rw [ho.good, hf]), zipWith_map_map, zipWith_map_map]
  unfold rowOf noticedB
  simp

theorem grp_getElem? {pre : List Int} (h0 : IsStart pre 0) {p : Nat} (hp : p < (groupIdx pre).length) :
    (grp pre)[p]? = some (startPos pre p, startPos pre (p + 1)) ∧
      IsGroup pre (startPos pre p) (startPos pre (p + 1)) := by
  obtain ⟨a, b, hk⟩ := exists_kth h0 hp
  have := startPos_kth hk
  rw [this.1, this.2]
  exact ⟨edges_getElem?_of_kth hk, hk.1⟩

theorem grp_length (pre : List Int) : (grp pre).length = (groupIdx pre).length := edges_length _ _

theorem rowOf_iff {o : Obs} {n : Nat} (ho : o.Legal n) {pre : List Int} (hf : pre.length = n)
    (h0 : IsStart pre 0) (r : ℝ × ℝ) (p : Nat) :
    (rowOf o pre r)[p]? = some true ↔ p < (groupIdx pre).length ∧
      o.Noticed [r] (startPos pre p) (startPos pre (p + 1)) := by
  unfold rowOf
  rw [List.getElem?_map]
  constructor
  · intro h
    have hp : p < (groupIdx pre).length := by
      rw [← grp_length]
      by_contra hge
      rw [List.getElem?_eq_none (not_lt.1 hge)] at h; simp at h
    obtain ⟨h1, h2⟩ := grp_getElem? h0 hp
    rw [h1] at h
    simp only [Option.map_some, Option.some.injEq] at h
    exact ⟨hp, (noticedB_iff (e := (_, _)) ho [r] h2.1 (hf ▸ h2.2.1)).1 h⟩
  · rintro ⟨hp, hn⟩
    obtain ⟨h1, h2⟩ := grp_getElem? h0 hp
    rw [h1]
    simp only [Option.map_some, Option.some.injEq]
    exact (noticedB_iff (e := (_, _)) ho [r] h2.1 (hf ▸ h2.2.1)).2 hn

theorem noticed_iff_single {o : Obs} {erange : List (ℝ × ℝ)} {a b : Nat} :
    o.Noticed erange a b ↔ ∃ r ∈ erange, o.Noticed [r] a b := by
  unfold Obs.Noticed
  simp only [List.mem_singleton, exists_eq_left]
  constructor
  · rintro ⟨⟨r, h1, h2⟩, h3⟩; exact ⟨r, h1, h2, h3⟩
  · rintro ⟨r, h1, h2, h3⟩; exact ⟨⟨r, h1, h2⟩, h3⟩

theorem segResults_spec {o : Obs} {m : Method} {scale : ℝ} {d : Segment} (P : List Bool → List Int → Bool → Prop)
    (rows : List (List Bool))
    (h : ∀ row ∈ rows, ∃ F s, o.runMethod m scale (d.slice row) = .ok (F, s) ∧ P row F s) :
    ∃ results, o.segResults m scale d rows = .ok results ∧
      List.Forall₂ (fun row (r : List Int × Bool) => o.runMethod m scale (d.slice row) = .ok r ∧ P row r.1 r.2) rows results := by
  induction rows with
  | nil => exact ⟨[], rfl, List.Forall₂.nil⟩
  | cons row rows ih =>
    obtain ⟨F, s, h1, h2⟩ := h row (by simp)
    obtain ⟨rs, h3, h4⟩ := ih (fun r hr => h r (List.mem_cons_of_mem _ hr))
    refine ⟨(F, s) :: rs, ?_, List.Forall₂.cons ⟨h1, h2⟩ h4⟩
    simp only [Obs.segResults, h1, h3, bind, Except.bind, pure, Except.pure]

/-- What C17 says about one energy range `r`: the pre-groups number `P, ..., P + len(F) - 1` are the
ones it notices, `d` holds their data, and the method returned the flags `F` and the report `s`.  For the
optimal methods the pre-groups are the channels, and the widths are computed from the resolution and the
background-subtracted counts of the same channels. -/
structure Obs.RangeResult (o : Obs) (pre : List Int) (m : Method) (scale : ℝ) (r : ℝ × ℝ) (P : Nat)
    (d : Segment) (F : List Int) (s : Bool) : Prop where
  noticed : ∀ a b, IsGroup pre a b ∧ o.Noticed [r] a b ↔
    ∃ p, P ≤ p ∧ p < P + F.length ∧ IsKthGroup pre p a b
  data : Segment.Of o d ((List.range' P F.length).map fun p => o.goodSet (startPos pre p) (startPos pre (p + 1)))
  method : o.runMethod m scale d = .ok (F, s)
  optimal : m.isOpt = true →
    d.fwhm = (List.range' P F.length).map (fun i => at0 o.resp.fwhm i) ∧
    (o.back = none → d.countsOpt = (List.range' P F.length).map fun i => at0 o.spec.counts i) ∧
    ∀ b, o.back = some b →
      (∀ i < o.spec.counts.length, b.exposure * at0 b.areaScale i * at0 b.backScale i ≠ 0) →
      d.countsOpt = (List.range' P F.length).map fun i => at0 o.spec.counts i -
        (o.spec.exposure * at0 o.spec.areaScale i * at0 o.spec.backScale i) /
          (b.exposure * at0 b.areaScale i * at0 b.backScale i) * at0 b.counts i

/-- **C17, partial.**  If the flags can be written back faithfully (`GroupTidy`) the call succeeds, the
noticed groups of the result are exactly the groups the method returned for each energy range, the
arrays handed to the fit are those of these groups, and success is reported exactly when every
noticed group meets the requested scale.  Missing with respect to C17: the hypothesis `GroupTidy`
(`C17_bad_channel_refuted`, `C17_preserve_refuted`), for `const` at least one full group per range,
and for the Gaussian significance a ratio that does not vary over the channels
(`C17_varying_ratio_refuted`). -/
theorem C17_group_partial (o : Obs) (n : Nat) (ho : o.Legal n) (erange : List (ℝ × ℝ)) (m : Method)
    (scale : ℝ) (preserve : Bool) (hok : o.methodOk m (some scale) preserve = true)
    (hs : m.ScaleOk scale) (ht : o.GroupTidy erange (o.preFlags preserve))
    (hpos : (m = .min ∨ m = .optmin) → ∀ x ∈ o.spec.counts, 0 ≤ x)
    (hc : m = .const → ∀ r ∈ erange, ∀ L, o.NoticedGroups [r] (o.preFlags preserve) L →
      (truncInt scale).toNat ≤ L.length)
    (hfw : m.isOpt = true → o.resp.fwhm.length = n)
    (hflat : (m = .sig ∨ m = .optsig) → o.spec.poisson = false → o.FlatRatio) :
    ∃ res L, o.group erange m (some scale) preserve = .ok res ∧ res.st.grouping = res.final ∧
      o.NoticedGroups erange res.final L ∧ o.Describes L res.st ∧
      (res.success = true ↔ ∀ e ∈ L, o.SetMeets m scale (o.goodSet e.1 e.2)) ∧
      ∃ segs : List (Nat × Segment × List Int × Bool),
        List.Forall₂ (fun r g => o.RangeResult (o.preFlags preserve) m scale r g.1 g.2.1 g.2.2.1 g.2.2.2) erange segs ∧
        ∀ x y, (x, y) ∈ L ↔ ∃ g ∈ segs, ∃ a b, IsGroup g.2.2.1 a b ∧
          x = startPos (o.preFlags preserve) (g.1 + a) ∧ y = startPos (o.preFlags preserve) (g.1 + b) := by
  obtain ⟨hpl, h0⟩ := preFlags_ok ho preserve
  set pre := o.preFlags preserve with hpre
  obtain ⟨d0, hd0, hdof, hdf, hdc⟩ := preData_of ho hpl
  have hrows := maskRows_eq ho erange hpl
  set rows := erange.map (rowOf o pre) with hrowsdef
  have hrl : ∀ row ∈ rows, row.length = (groupIdx pre).length := by
    intro row hrow
    obtain ⟨r, _, rfl⟩ := List.mem_map.1 hrow
    simp [rowOf, grp_length]
  have hkth : ∀ p, p < (groupIdx pre).length → IsKthGroup pre p (startPos pre p) (startPos pre (p + 1)) := by
    intro p hp
    obtain ⟨a, b, hk⟩ := exists_kth h0 hp
    rw [(startPos_kth hk).1, (startPos_kth hk).2]; exact hk
  have hgrp : ∀ p, p < (groupIdx pre).length → IsGroup pre (startPos pre p) (startPos pre (p + 1)) :=
    fun p hp => (hkth p hp).1
  have hidx : ∀ a b, IsGroup pre a b → ∃ p, p < (groupIdx pre).length ∧ IsKthGroup pre p a b := by
    intro a b hab
    refine ⟨((pre.take a).filter (· ≠ -1)).length, ?_, hab, rfl⟩
    have hk : IsKthGroup pre ((pre.take a).filter (· ≠ -1)).length a b := ⟨hab, rfl⟩
    have := kth_start_eq hk
    exact (List.getElem?_eq_some_iff.1 this).1
  have hmono : ∀ p q, p ≤ q → q ≤ (groupIdx pre).length → startPos pre p ≤ startPos pre q := by
    intro p q hpq hq
    rcases Nat.lt_or_ge p q with h | h
    · exact (startPos_strictMono h hq).le
    · have : p = q := by omega
      rw [this]
  have hmonoInv : ∀ p q, p ≤ (groupIdx pre).length → startPos pre p ≤ startPos pre q → p ≤ q := by
    intro p q hq h
    by_contra hlt
    have := startPos_strictMono (flags := pre) (k := q) (l := p) (by omega) hq
    omega
  -- Tidy rows
  have htidy : Tidy rows := by
    refine ⟨?_, ?_⟩
    · intro row hrow p q s hpq hqs hp hs'
      obtain ⟨r, hr, rfl⟩ := List.mem_map.1 hrow
      rw [rowOf_iff ho hpl h0] at hp hs' ⊢
      have hq : q < (groupIdx pre).length := by omega
      refine ⟨hq, ht.contiguous r hr _ _ _ _ _ _ (hgrp p hp.1) (hgrp q hq) (hgrp s hs'.1) ?_ ?_ hp.2 hs'.2⟩
      · exact hmono _ _ (by omega) (by omega)
      · exact hmono _ _ (by omega) (by omega)
    · rw [hrowsdef, List.pairwise_map]
      refine ht.ordered.imp ?_
      intro r r' h p q hp hq
      rw [rowOf_iff ho hpl h0] at hp hq
      have := h _ _ _ _ (hgrp p hp.1) (hgrp q hq.1) hp.2 hq.2
      have := hmonoInv (p + 1) q (by omega) this
      omega
  -- each row is an interval of pre-groups
  have hrange : ∀ row ∈ rows, ∃ P, flatnonzero row = List.range' P (flatnonzero row).length := by
    intro row hrow
    apply range'_of_contiguous (flatnonzero_pairwise row)
    intro p q s h1 h2 h3 h4
    rw [mem_flatnonzero] at *
    exact htidy.contiguous row hrow p q s h1 h2 h3 h4
  have hsetsEq : ∀ row ∈ rows, ∀ P, flatnonzero row = List.range' P (flatnonzero row).length →
      rowSets o pre row = (List.range' P (flatnonzero row).length).map
        fun p => o.goodSet (startPos pre p) (startPos pre (p + 1)) := by
    intro row hrow P hP
    unfold rowSets
    rw [applyMask_eq_flatnonzero row _ (by rw [hrl row hrow, groupSets, List.length_map, edges_length]) ∅]
    rw [← hP]
    apply List.map_congr_left
    intro p hp
    have hp' : p < (groupIdx pre).length := by rw [← hrl row hrow]; exact flatnonzero_lt hp
    rw [List.getD, groupSets_getElem? (hkth p hp')]
    rfl
  -- the sets of a row are not empty and hold good channels
  have hsets : ∀ row ∈ rows, (∀ S ∈ rowSets o pre row, S.Nonempty) ∧
      (∀ S ∈ rowSets o pre row, ∀ i ∈ S, o.good[i]? = some true) := by
    intro row hrow
    obtain ⟨P, hP⟩ := hrange row hrow
    rw [hsetsEq row hrow P hP, ← hP]
    obtain ⟨r, hr, rfl⟩ := List.mem_map.1 hrow
    refine ⟨?_, ?_⟩
    · intro S hS
      obtain ⟨p, hp, rfl⟩ := List.mem_map.1 hS
      rw [mem_flatnonzero, rowOf_iff ho hpl h0] at hp
      obtain ⟨_, i, h1, h2, h3⟩ := hp.2
      refine ⟨i, ?_⟩
      unfold Obs.goodSet goodIn
      rw [Finset.mem_filter, Finset.mem_Ico]
      exact ⟨⟨h1, h2⟩, by intro q hq; rw [← Option.some.inj hq]; exact h3⟩
    · intro S hS i hi
      obtain ⟨p, hp, rfl⟩ := List.mem_map.1 hS
      exact mem_goodSet hi
  have hnonneg : ∀ {xs : List ℝ} {row : List Bool} (_ : ∀ x ∈ xs, 0 ≤ x),
      ∀ x ∈ (rowSets o pre row).map (fun S => ∑ i ∈ S, at0 xs i), 0 ≤ x := by
    intro xs row hx x hxm
    obtain ⟨S, _, rfl⟩ := List.mem_map.1 hxm
    apply Finset.sum_nonneg
    intro i _
    unfold at0
    by_cases hi : i < xs.length
    · simp only [List.getD, List.getElem?_eq_getElem hi, Option.getD_some]
      exact hx _ (List.getElem_mem hi)
    · simp [List.getD, List.getElem?_eq_none (not_lt.1 hi)]
  have hbm : (m = .bmin ∨ m = .bsig ∨ m = .optbmin ∨ m = .optbsig) → o.back.isSome = true := by
    intro h
    unfold Obs.methodOk at hok
    rw [Bool.and_eq_true] at hok
    have h2 := hok.2
    rcases h with rfl | rfl | rfl | rfl
    · cases hb : o.back with
      | none => rw [hb] at h2; simp at h2
      | some b => rfl
    · exact h2
    · cases hb : o.back with
      | none => rw [hb] at h2; simp at h2
      | some b => rfl
    · exact h2
  have hbp : (m = .bmin ∨ m = .optbmin) → ∀ b, o.back = some b → b.poisson = true := by
    intro h b hb
    unfold Obs.methodOk at hok
    rw [Bool.and_eq_true] at hok
    have h2 := hok.2
    rcases h with rfl | rfl <;> simpa [hb] using h2
  -- run the method on every row
  obtain ⟨results, hres, hall⟩ := segResults_spec (o := o) (m := m) (scale := scale) (d := d0)
    (fun row F s => F.length = (flatnonzero row).length ∧ IsStart F 0 ∧
      (s = true ↔ ∀ a b, IsGroup F a b → o.SegMeets m scale (d0.slice row) a b)) rows (by
    intro row hrow
    have hof := slice_of hdof row
    have hlenR : (rowSets o pre row).length = (flatnonzero row).length := rowSets_length (hrl row hrow)
    change Segment.Of o _ (rowSets o pre row) at hof
    have hpos' : 0 < (flatnonzero row).length := by
      obtain ⟨r, hr, rfl⟩ := List.mem_map.1 hrow
      obtain ⟨a, b, h1, h2⟩ := ht.nonempty r hr
      obtain ⟨p, hp, hk⟩ := hidx a b h1
      apply List.length_pos_of_mem (a := p)
      rw [mem_flatnonzero, rowOf_iff ho hpl h0, (startPos_kth hk).1, (startPos_kth hk).2]
      exact ⟨hp, h2⟩
    apply runMethod_spec (n := (flatnonzero row).length)
    · refine ⟨hpos', by rw [hof.spec, List.length_map, hlenR], ?_, ?_, ?_, ?_, ?_⟩
      · cases hb : o.back with
        | none => rw [(hof.noBack hb).1, List.length_map, hlenR]
        | some b => rw [(hof.back b hb).2.2.1, List.length_map, hlenR]
      · cases hb : o.back with
        | none => rw [(hof.noBack hb).2, List.length_map, hlenR]
        | some b => rw [(hof.back b hb).2.2.2.1, List.length_map, hlenR]
      · intro h
        obtain ⟨b, hb⟩ := Option.isSome_iff_exists.1 h
        rw [(hof.back b hb).1, List.length_map, hlenR]
      · intro h
        obtain ⟨b, hb⟩ := Option.isSome_iff_exists.1 h
        rw [(hof.back b hb).2.1, List.length_map, hlenR]
      · intro h
        have f1 := hfw h
        have hnp : preserve = false := by
          unfold Obs.methodOk at hok
          rw [h] at hok
          cases preserve with
          | false => rfl
          | true => simp at hok
        have hones : pre = List.replicate n 1 := by
          rw [hpre, Obs.preFlags, hnp]; simp [ho.spec.counts]
        have hgl : (groupIdx pre).length = n := by
          rw [length_groupIdx, hones]
          simp
        have hm : row.length = d0.fwhm.length := by rw [hrl row hrow, hgl, hdf, f1]
        simp only [Segment.slice]
        rw [applyMask_eq_flatnonzero row _ hm 0, List.length_map]
    · exact hs
    · exact hbm
    · intro h; rw [hof.spec]; exact hnonneg (hpos h)
    · intro h
      obtain ⟨b, hb⟩ := Option.isSome_iff_exists.1 (hbm (by rcases h with rfl | rfl <;> simp))
      rw [(hof.back b hb).1]
      exact hnonneg ((ho.back b hb).poissonCounts (hbp h b hb))
    · intro h
      obtain ⟨r, hr, rfl⟩ := List.mem_map.1 hrow
      have := hc h r hr _ (noticedList_spec ho [r] hpl h0)
      refine le_trans this (le_of_eq ?_)
      unfold noticedList
      rw [← List.length_map (f := id), ← applyMask_filter, List.map_id,
        applyMask_eq_flatnonzero _ (grp pre) (by simp) (0, 0), List.length_map]
      rfl)
  have hlenres := hall.length_eq
  have hget : ∀ (k : Nat) (row : List Bool) (F : List Int), rows[k]? = some row →
      (results.map Prod.fst)[k]? = some F → ∃ s, results[k]? = some (F, s) ∧
        o.runMethod m scale (d0.slice row) = .ok (F, s) ∧ F.length = (flatnonzero row).length ∧ IsStart F 0 ∧
        (s = true ↔ ∀ a b, IsGroup F a b → o.SegMeets m scale (d0.slice row) a b) := by
    intro k row F hrow hF
    rw [List.getElem?_map] at hF
    cases hr : results[k]? with
    | none => rw [hr] at hF; simp at hF
    | some x =>
      rw [hr] at hF
      simp only [Option.map_some, Option.some.injEq] at hF
      have hk1 := (List.getElem?_eq_some_iff.1 hrow)
      have hk2 := (List.getElem?_eq_some_iff.1 hr)
      have := hall.get hk1.1 hk2.1
      simp only [List.get_eq_getElem] at this
      rw [hk1.2, hk2.2] at this
      obtain ⟨a1, a2, a3, a4⟩ := this
      refine ⟨x.2, ?_, ?_, ?_, ?_, ?_⟩
      · rw [← hF]
      · rw [a1, ← hF]
      · rw [← hF]; exact a2
      · rw [← hF]; exact a3
      · rw [← hF]; exact a4
  have hun : ∀ p : Nat, (anyRow rows (groupIdx pre).length)[p]? = some true ↔ ∃ row ∈ rows, row[p]? = some true := by
    intro p
    unfold anyRow
    rw [List.getElem?_map]
    constructor
    · intro h
      cases hp : (List.range (groupIdx pre).length)[p]? with
      | none => rw [hp] at h; simp at h
      | some q =>
        rw [hp] at h
        have : q = p := by
          have := (List.getElem?_eq_some_iff.1 hp).2; simpa using this.symm
        subst this
        simp only [Option.map_some, Option.some.injEq, List.any_eq_true] at h
        obtain ⟨row, h1, h2⟩ := h
        refine ⟨row, h1, ?_⟩
        rw [List.getD] at h2
        cases hq : row[q]? with
        | none => rw [hq] at h2; simp at h2
        | some v => rw [hq] at h2; simp at h2; rw [h2]
    · rintro ⟨row, h1, h2⟩
      have hp : p < (groupIdx pre).length := by
        rw [← hrl row h1]; exact (List.getElem?_eq_some_iff.1 h2).1
      rw [List.getElem?_range hp]
      simp only [Option.map_some, Option.some.injEq, List.any_eq_true]
      exact ⟨row, h1, by rw [List.getD, h2]; rfl⟩
  obtain ⟨final, a1, a2, a3, a4, a5⟩ := assemble_groups h0 (rows := rows)
    (union := anyRow rows (groupIdx pre).length) (by simp [anyRow]) hrl hun htidy
    (Fs := results.map Prod.fst) (by rw [List.length_map, hlenres])
    (by
      intro k row F h1 h2
      obtain ⟨s, _, _, h3, h4, _⟩ := hget k row F h1 h2
      exact ⟨h3, h4⟩)
    (by rw [hrowsdef]; simpa using ht.some_range)
  have hfl : final.length = n := by rw [a2, hpl]
  obtain ⟨st, hst, hst2, hst3⟩ := setGrouping_describes ho erange final hfl
  have hfix : fixFirst final = final := fixFirst_of_start a3
  rw [hfix] at hst2 hst3
  have hNG := noticedList_spec ho erange hfl a3
  refine ⟨⟨final, results.all Prod.snd, st⟩, noticedList o erange final, ?_, hst2, hNG, hst3, ?_, ?_⟩
  · unfold Obs.group
    simp only [hok, Bool.not_true, Bool.false_eq_true, if_false, Option.getD_some]
    rw [← hpre, hrows]
    simp only [bind, Except.bind, pure, Except.pure, hd0, hres, a1, hst]
  all_goals
    have hL : ∀ x y, (x, y) ∈ noticedList o erange final ↔ ∃ (k : Nat) (row : List Bool) (F : List Int) (P a b : Nat),
        rows[k]? = some row ∧ (results.map Prod.fst)[k]? = some F ∧ flatnonzero row = List.range' P F.length ∧
        IsGroup F a b ∧ x = startPos pre (P + a) ∧ y = startPos pre (P + b) := by
      intro x y
      rw [hNG.2]
      constructor
      · rintro ⟨h1, h2⟩
        rcases a5 x y h1 with ⟨k, row, F, P, a, b, b1, b2, b3, b4, b5, b6⟩ | ⟨rfl, p, hp, hp1, hp2⟩
        · exact ⟨k, row, F, P, a, b, b1, b2, b3, b4, b5, b6⟩
        · exfalso
          have hpl' : p < (groupIdx pre).length := by
            have := (List.getElem?_eq_some_iff.1 hp).1
            simpa [anyRow] using this
          refine ht.clean _ _ (hgrp p hpl') ?_ x hp1 hp2 h2
          intro hnot
          obtain ⟨r, hr, hr2⟩ := noticed_iff_single.1 hnot
          have := (hun p).2 ⟨rowOf o pre r, List.mem_map.2 ⟨r, hr, rfl⟩, (rowOf_iff ho hpl h0 r p).2 ⟨hpl', hr2⟩⟩
          rw [hp] at this; simp at this
      · rintro ⟨k, row, F, P, a, b, b1, b2, b3, b4, rfl, rfl⟩
        have hg := a4 k row F P b1 b2 b3 a b b4
        refine ⟨hg, ?_⟩
        rw [noticed_iff_single]
        obtain ⟨r, hr, hrr⟩ := List.mem_map.1 (List.mem_of_getElem? b1)
        refine ⟨r, hr, ?_⟩
        have hin : ∀ p, P + a ≤ p → p < P + b → o.Noticed [r] (startPos pre p) (startPos pre (p + 1)) ∧
            p < (groupIdx pre).length := by
          intro p h1 h2
          have hbl := (isGroup_iff.1 b4).2.1
          have : p ∈ flatnonzero row := by rw [b3, List.mem_range'_1]; omega
          rw [mem_flatnonzero, ← hrr, rowOf_iff ho hpl h0] at this
          exact ⟨this.2, this.1⟩
        have hab := (isGroup_iff.1 b4).1
        unfold Obs.Noticed
        simp only [List.mem_singleton, exists_eq_left]
        refine ⟨?_, ?_⟩
        · have hcov : ∀ c, a < c → c ≤ b → ∀ i, startPos pre (P + a) ≤ i → i < startPos pre (P + c) →
              r.1 ≤ o.resp.emin.getD i 0 ∧ o.resp.emax.getD i 0 ≤ r.2 := by
            intro c
            induction c with
            | zero => intro h; omega
            | succ c ih =>
              intro h1 h2 i hi1 hi2
              rcases Nat.lt_or_ge i (startPos pre (P + c)) with h | h
              · rcases Nat.lt_or_ge a c with h3 | h3
                · exact ih h3 (by omega) i hi1 h
                · have : c = a := by omega
                  rw [this] at h; omega
              · obtain ⟨⟨r', hr', hh⟩, _⟩ := (hin (P + c) (by omega) (by omega)).1
                rw [List.mem_singleton] at hr'
                subst hr'
                exact hh i h hi2
          exact hcov b hab (le_refl _)
        · obtain ⟨⟨_, i, i1, i2, i3⟩, hlt⟩ := hin (P + a) (le_refl _) (by omega)
          refine ⟨i, i1, ?_, i3⟩
          have hb' := (hin (P + b - 1) (by omega) (by omega)).2
          exact lt_of_lt_of_le i2 (hmono _ _ (by omega) (by omega))
  · -- success
    have hmeets : ∀ (k : Nat) (row : List Bool) (F : List Int) (P a b : Nat), rows[k]? = some row →
        (results.map Prod.fst)[k]? = some F → flatnonzero row = List.range' P F.length → IsGroup F a b →
        (o.SegMeets m scale (d0.slice row) a b ↔
          o.SetMeets m scale (o.goodSet (startPos pre (P + a)) (startPos pre (P + b)))) := by
      intro k row F P a b b1 b2 b3 b4
      have hrm := List.mem_of_getElem? b1
      obtain ⟨s, _, _, c3, _, _⟩ := hget k row F b1 b2
      have hbl := (isGroup_iff.1 b4).2.1
      have hab := (isGroup_iff.1 b4).1
      rw [← rowSets_union h0 (hrl row hrm) b3 hab.le hbl]
      exact segMeets_iff (slice_of hdof row) (rowSets_disjoint o pre row) (hsets row hrm).1
        (hsets row hrm).2 hbm hflat hab (by
          rw [← rowSets, rowSets_length (hrl row hrm), ← c3]; exact hbl)
    simp only [List.all_eq_true]
    constructor
    · rintro h ⟨x, y⟩ he
      obtain ⟨k, row, F, P, a, b, b1, b2, b3, b4, rfl, rfl⟩ := (hL x y).1 he
      obtain ⟨s, c1, _, _, _, c5⟩ := hget k row F b1 b2
      have hs' := h (F, s) (List.mem_of_getElem? c1)
      exact (hmeets k row F P a b b1 b2 b3 b4).1 (c5.1 hs' a b b4)
    · rintro h ⟨F, s⟩ hmem
      obtain ⟨k, hk⟩ := List.mem_iff_getElem?.1 hmem
      obtain ⟨row, hrow⟩ : ∃ row, rows[k]? = some row := by
        have : k < rows.length := by rw [hlenres]; exact (List.getElem?_eq_some_iff.1 hk).1
        exact ⟨_, List.getElem?_eq_getElem this⟩
      have hF : (results.map Prod.fst)[k]? = some F := by rw [List.getElem?_map, hk]; rfl
      obtain ⟨s', c1, _, c3, _, c5⟩ := hget k row F hrow hF
      rw [hk] at c1
      have : s = s' := by simpa using c1
      rw [this]
      refine c5.2 fun a b hab => ?_
      obtain ⟨P, hP⟩ := hrange row (List.mem_of_getElem? hrow)
      rw [← c3] at hP
      exact (hmeets k row F P a b hrow hF hP hab).2
        (h (_, _) ((hL _ _).2 ⟨k, row, F, P, a, b, hrow, hF, hP, hab, rfl, rfl⟩))
  · -- the segments
    have hseg : ∀ (k : Nat) (r : ℝ × ℝ), erange[k]? = some r → ∃ g : Nat × Segment × List Int × Bool,
        o.RangeResult pre m scale r g.1 g.2.1 g.2.2.1 g.2.2.2 ∧
        (results.map Prod.fst)[k]? = some g.2.2.1 ∧ flatnonzero (rowOf o pre r) = List.range' g.1 g.2.2.1.length := by
      intro k r hr
      have hrow : rows[k]? = some (rowOf o pre r) := by rw [hrowsdef, List.getElem?_map, hr]; rfl
      obtain ⟨F, hF⟩ : ∃ F, (results.map Prod.fst)[k]? = some F := by
        have : k < (results.map Prod.fst).length := by
          rw [List.length_map, ← hlenres]; exact (List.getElem?_eq_some_iff.1 hrow).1
        exact ⟨_, List.getElem?_eq_getElem this⟩
      obtain ⟨s, c1, c2, c3, _, _⟩ := hget k _ F hrow hF
      have hrm := List.mem_of_getElem? hrow
      obtain ⟨P, hP⟩ := hrange _ hrm
      refine ⟨(P, d0.slice (rowOf o pre r), F, s), ⟨?_, ?_, c2, ?_⟩, hF, by rw [← c3] at hP; exact hP⟩
      · intro a b
        have hmem : ∀ p, p ∈ flatnonzero (rowOf o pre r) ↔ P ≤ p ∧ p < P + F.length := by
          intro p; rw [hP, List.mem_range'_1, c3]
        constructor
        · rintro ⟨h1, h2⟩
          obtain ⟨p, hp, hk⟩ := hidx a b h1
          have : p ∈ flatnonzero (rowOf o pre r) := by
            rw [mem_flatnonzero, rowOf_iff ho hpl h0, (startPos_kth hk).1, (startPos_kth hk).2]
            exact ⟨hp, h2⟩
          rw [hmem] at this
          exact ⟨p, this.1, this.2, hk⟩
        · rintro ⟨p, h1, h2, hk⟩
          have := (hmem p).2 ⟨h1, h2⟩
          rw [mem_flatnonzero, rowOf_iff ho hpl h0, (startPos_kth hk).1, (startPos_kth hk).2] at this
          exact ⟨hk.1, this.2⟩
      · have := slice_of hdof (rowOf o pre r)
        change Segment.Of o _ (rowSets o pre _) at this
        rw [hsetsEq _ hrm P hP, ← c3] at this
        exact this
      · intro h
        have hnp : preserve = false := by
          unfold Obs.methodOk at hok
          rw [h] at hok
          cases preserve with
          | false => rfl
          | true => simp at hok
        have hones : pre = List.replicate n 1 := by
          rw [hpre, Obs.preFlags, hnp]; simp [ho.spec.counts]
        have hgl : (groupIdx pre).length = n := by
          rw [length_groupIdx, hones]
          simp
        have hrn : (rowOf o pre r).length = n := by rw [hrl _ hrm, hgl]
        have hcl : o.countsOpt.length = n := by
          unfold Obs.countsOpt
          split <;> simp [ho.spec.counts]
        have hlt : ∀ i ∈ List.range' P F.length, i < n := by
          intro i hi
          rw [c3, ← hP] at hi
          rw [← hrn]; exact flatnonzero_lt hi
        have hmask : ∀ xs : List ℝ, xs.length = n → applyMask (rowOf o pre r) xs =
            (List.range' P F.length).map fun i => at0 xs i := by
          intro xs hx
          rw [applyMask_eq_flatnonzero _ _ (by rw [hrn, hx]) 0, c3, ← hP]
          rfl
        simp only [Segment.slice, hdf, hdc]
        refine ⟨hmask _ (hfw h), fun hb => ?_, fun b hb hden => ?_⟩
        · rw [hmask _ hcl]
          simp only [Obs.countsOpt, hb]
        · rw [hmask _ hcl]
          apply List.map_congr_left
          intro i hi
          have hi' := hlt i hi
          have hd := hden i (by rw [ho.spec.counts]; exact hi')
          simp only [at0] at hd ⊢
          simp only [Obs.countsOpt, hb, List.getD, List.getElem?_map, List.getElem?_range, hi', ho.spec.counts,
            Option.map_some, Option.getD_some]
          rw [guardedDiv, if_pos (by simpa [List.getD] using hd)]
    classical
    choose f hf using fun (k : Fin erange.length) => hseg k erange[k] (List.getElem?_eq_getElem k.2)
    refine ⟨List.ofFn f, ?_, ?_⟩
    · rw [List.forall₂_iff_get]
      refine ⟨by simp, ?_⟩
      intro i h1 h2
      simp only [List.get_eq_getElem, List.getElem_ofFn]
      exact (hf ⟨i, h1⟩).1
    · intro x y
      rw [hL]
      constructor
      · rintro ⟨k, row, F, P, a, b, b1, b2, b3, b4, b5, b6⟩
        have hk : k < erange.length := by
          have := (List.getElem?_eq_some_iff.1 b1).1
          simpa [hrowsdef] using this
        refine ⟨f ⟨k, hk⟩, List.mem_ofFn.2 ⟨_, rfl⟩, ?_⟩
        obtain ⟨_, g2, g3⟩ := hf ⟨k, hk⟩
        have e1 : F = (f ⟨k, hk⟩).2.2.1 := by rw [b2] at g2; exact Option.some.inj g2
        have e2 : row = rowOf o pre erange[k] := by
          rw [hrowsdef, List.getElem?_map, List.getElem?_eq_getElem hk] at b1
          exact (Option.some.inj b1).symm
        have e3 : P = (f ⟨k, hk⟩).1 := by
          rw [e2] at b3
          have g3' : flatnonzero (rowOf o pre erange[k]) = _ := g3
          rw [b3, e1] at g3'
          have hpos : 0 < (f ⟨k, hk⟩).2.2.1.length := by
            rw [← e1]; have := (isGroup_iff.1 b4); omega
          have h5 : (List.range' P (f ⟨k, hk⟩).2.2.1.length)[0]? = (List.range' (f ⟨k, hk⟩).1 (f ⟨k, hk⟩).2.2.1.length)[0]? := by
            rw [g3']
          rw [List.getElem?_range' hpos, List.getElem?_range' hpos] at h5
          simpa using h5
        exact ⟨a, b, e1 ▸ b4, e3 ▸ b5, e3 ▸ b6⟩
      · rintro ⟨g, hg, a, b, h1, h2, h3⟩
        obtain ⟨k, rfl⟩ := List.mem_ofFn.1 hg
        obtain ⟨_, g2, g3⟩ := hf k
        exact ⟨k, rowOf o pre erange[k], _, _, a, b, by
          rw [hrowsdef, List.getElem?_map, List.getElem?_eq_getElem k.2]; rfl, g2, g3, h1, h2, h3⟩

/-- **C17**, the arguments: a missing scale (except for `opt`), an unknown method, an optimal method together with
`preserve_data_group`, a minimum of background counts without a Poisson background, or a background
significance without a background is refused with a `ValueError` before anything is changed. -/
theorem C17_arguments (o : Obs) (erange : List (ℝ × ℝ)) (m : Method) (scale : Option ℝ) (preserve : Bool)
    (h : (scale = none ∧ m ≠ .opt) ∨ m = .unknown ∨ (m.isOpt = true ∧ preserve = true) ∨
      ((m = .bmin ∨ m = .optbmin) ∧ ∀ b, o.back = some b → b.poisson = false) ∨
      ((m = .bsig ∨ m = .optbsig) ∧ o.back = none)) :
    o.group erange m scale preserve = .error .valueError := by
  have hf : o.methodOk m scale preserve = false := by
    unfold Obs.methodOk
    rcases h with ⟨h1, h2⟩ | h | ⟨h1, h2⟩ | ⟨h1, h2⟩ | ⟨h1, h2⟩
    · subst h1
      have : (m == Method.opt) = false := by simpa using h2
      simp [this]
    · subst h; simp
    · simp [h1, h2]
    · have : o.back.any (·.poisson) = false := by
        cases hb : o.back with
        | none => rfl
        | some b => simpa using h2 b hb
      rcases h1 with rfl | rfl <;> simp [this]
    · rcases h1 with rfl | rfl <;> simp [h2]
  unfold Obs.group
  simp [hf, bind, Except.bind]

/-- `opt` without a scale is accepted by these checks, `min` without a scale is not -/
example (o : Obs) (erange : List (ℝ × ℝ)) : o.methodOk .opt none false = true ∧
    o.group erange .min none false = .error .valueError :=
  ⟨by simp [Obs.methodOk, Method.isOpt], C17_arguments o erange .min none false (.inl ⟨rfl, by simp⟩)⟩

/-- **C17 for `min`, partial**, in terms of the counts handed to the fit. -/
theorem C17_min_partial (o : Obs) (n : Nat) (ho : o.Legal n) (erange : List (ℝ × ℝ)) (scale : ℝ)
    (hp : o.spec.poisson = true) (hs : 0 < truncInt scale)
    (ht : o.GroupTidy erange (List.replicate n 1)) :
    ∃ res, o.group erange .min (some scale) false = .ok res ∧
      (res.success = true ↔ ∀ x ∈ res.st.specCounts, (truncInt scale : ℝ) ≤ x) := by
  have hpre : o.preFlags false = List.replicate n 1 := by simp [Obs.preFlags, ho.spec.counts]
  obtain ⟨res, L, h1, _, _, h4, h5, _⟩ := C17_group_partial o n ho erange .min scale false
    (by simp [Obs.methodOk, Method.isOpt]) hs (by rw [hpre]; exact ht)
    (fun _ => ho.spec.poissonCounts hp) (by intro h; simp at h) (by intro h; simp [Method.isOpt] at h)
    (by intro h; simp at h)
  refine ⟨res, h1, ?_⟩
  rw [h5, h4.specCounts]
  simp only [Obs.SetMeets, List.mem_map, forall_exists_index, and_imp, forall_apply_eq_imp_iff₂]

end Elisa.Data
