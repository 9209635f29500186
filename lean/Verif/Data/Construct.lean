import Verif.Data.ObsExamples
import Mathlib.Data.List.Sort
import Mathlib.Data.List.Perm.Basic

/-!
# Properties C15 and C21: construction, energy ranges, histories of an observation
-/

namespace Elisa.Data

open Elisa Elisa.Grouping

/-! ## C21: accepted spectra, responses and observations -/

theorem resetZero_length {q : List Int} {s : List ℝ} (h : s.length = q.length) :
    (resetZero q s).length = q.length := by simp [resetZero, h]

theorem expand_length {n : Nat} {x : ℝ ⊕ List ℝ} (h : shapeOk n x = true) : (expand n x).length = n := by
  cases x with
  | inl x => simp [expand]
  | inr xs => simpa [shapeOk, expand] using h

theorem zip_all_pos {xs : List ℝ} {q : List Int} (hl : xs.length = q.length)
    (h : ((List.zip xs q).all fun p => decide (0 < p.1 ∨ p.2 = 1)) = true) (i : Nat)
    (hq : q[i]? ≠ some 1) (hi : i < q.length) : 0 < xs.getD i 0 := by
  rw [List.all_eq_true] at h
  have h1 : (List.zip xs q)[i]? = some (xs[i], q[i]) := by
    rw [List.getElem?_zip_eq_some]; simp [hi, hl]
  have h2 := h _ (List.mem_of_getElem? h1)
  rw [decide_eq_true_iff] at h2
  rcases h2 with h2 | h2
  · simpa [List.getD, hl, hi] using h2
  · exact absurd (by simp [hi]; exact h2) hq

/-- What `SpectrumData(...)` is documented to accept, stated on the arguments (`n` channels) (specification, models no code). -/
structure SpecInput.Acceptable (i : SpecInput) : Prop where
  nonempty : 0 < i.counts.length
  errors : i.errors.length = i.counts.length
  quality : ∀ q, i.quality = some q → q.length = i.counts.length ∧
    ∀ x ∈ q, x = 0 ∨ x = 1 ∨ x = 2 ∨ x = 5 ∨ x = -1
  grouping : ∀ g, i.grouping = some g → g.length = i.counts.length
  area : ∀ xs, i.areaScale = .inr xs → xs.length = i.counts.length
  back : ∀ xs, i.backScale = .inr xs → xs.length = i.counts.length
  sys : ∀ xs, i.sysErrors = .inr xs → xs.length = i.counts.length
  poisson : i.poisson = true → ∀ c ∈ i.counts, 0 ≤ c
  errorsNonneg : ∀ e ∈ i.errors, 0 ≤ e
  sysNonneg : (∀ x, i.sysErrors = .inl x → 0 ≤ x) ∧ ∀ xs, i.sysErrors = .inr xs → ∀ x ∈ xs, 0 ≤ x
  exposure : 0 < i.exposure
  areaNonneg : (∀ x, i.areaScale = .inl x → 0 ≤ x) ∧ ∀ xs, i.areaScale = .inr xs → ∀ x ∈ xs, 0 ≤ x
  backNonneg : (∀ x, i.backScale = .inl x → 0 ≤ x) ∧ ∀ xs, i.backScale = .inr xs → ∀ x ∈ xs, 0 ≤ x

theorem any_neg_false {xs : List ℝ} :
    (xs.any fun c => decide (c < 0)) = false ↔ ∀ c ∈ xs, 0 ≤ c := by
  rw [List.any_eq_false]
  simp

theorem resetZero_nonneg {q : List Int} {xs : List ℝ} (hl : xs.length = q.length) :
    ((resetZero q xs).any fun c => decide (c < 0)) = false ↔ ∀ c ∈ xs, 0 ≤ c := by
  rw [any_neg_false]
  constructor
  · intro h c hc
    obtain ⟨k, hk, rfl⟩ := List.mem_iff_getElem.1 hc
    have := h ((resetZero q xs)[k]'(by rw [resetZero_length hl, ← hl]; exact hk)) (List.getElem_mem _)
    simp only [resetZero, List.getElem_zipWith] at this
    split at this
    · rename_i h; rw [h.1]
    · exact this
  · intro h c hc
    obtain ⟨k, hk, rfl⟩ := List.mem_iff_getElem.1 hc
    simp only [resetZero, List.getElem_zipWith]
    split
    · norm_num
    · exact h _ (List.getElem_mem _)

theorem resetZero_valid {q : List Int} {xs : List ℝ} (hl : xs.length = q.length)
    (h : ∀ c ∈ xs, 0 ≤ c) :
    ((List.zip (resetZero q xs) q).all fun p => decide (0 < p.1 ∨ p.2 = 1)) = true := by
  rw [List.all_eq_true]
  intro p hp
  obtain ⟨k, hk, rfl⟩ := List.mem_iff_getElem.1 hp
  rw [decide_eq_true_iff]
  simp only [List.getElem_zip, resetZero, List.getElem_zipWith]
  have hk' : k < xs.length := by
    rw [List.length_zip, resetZero_length hl] at hk; rw [hl]; simpa using hk
  have hx : 0 ≤ xs[k] := h _ (List.getElem_mem hk')
  by_cases h1 : q[k]'(hl ▸ hk') = 1
  · right; exact h1
  · left
    split
    · norm_num
    · rename_i hn
      rcases lt_or_eq_of_le hx with h2 | h2
      · exact h2
      · exact absurd ⟨h2.symm, h1⟩ hn

theorem expand_nonneg {n : Nat} {x : ℝ ⊕ List ℝ} (hn : 0 < n) :
    (∀ c ∈ expand n x, 0 ≤ c) ↔
      (∀ y, x = .inl y → 0 ≤ y) ∧ ∀ xs, x = .inr xs → ∀ y ∈ xs, 0 ≤ y := by
  cases x with
  | inl x =>
    simp only [expand, List.mem_replicate, Sum.inl.injEq, forall_eq', reduceCtorEq, false_implies,
      implies_true, and_true]
    constructor
    · intro h; exact h x ⟨by omega, rfl⟩
    · rintro h c ⟨_, rfl⟩; exact h
  | inr xs => simp [expand]

theorem shapeOk_iff {n : Nat} {x : ℝ ⊕ List ℝ} :
    shapeOk n x = true ↔ ∀ xs, x = .inr xs → xs.length = n := by
  cases x <;> simp [shapeOk]

/-- A scalar-or-array argument at channel `k` (base.py:1196-1204). -/
noncomputable def scalarOrAt : ℝ ⊕ List ℝ → Nat → ℝ
  | .inl x, _ => x
  | .inr xs, k => at0 xs k

theorem at0_expand {n k : Nat} (x : ℝ ⊕ List ℝ) (hk : k < n) : at0 (expand n x) k = scalarOrAt x k := by
  cases x with
  | inl x => simp [expand, scalarOrAt, at0, List.getD, hk]
  | inr xs => rfl

/-- **C21.**  `SpectrumData(...)` succeeds exactly on acceptable arguments, and then the object
satisfies the documented invariants, stores the given counts, and for non-Poisson data adds the
systematic error in quadrature. -/
theorem C21_spectrum (i : SpecInput) :
    ((∃ s, Spectrum.init i = .ok s) ↔ i.Acceptable) ∧
    ∀ s, Spectrum.init i = .ok s → s.Legal i.counts.length ∧ s.counts = i.counts ∧
      s.exposure = i.exposure ∧ s.poisson = i.poisson ∧
      (i.poisson = true → s.errors = i.errors) ∧
      (i.poisson = false → ∀ k, k < i.counts.length → at0 s.errors k =
        Real.sqrt (at0 i.errors k ^ 2 + (scalarOrAt i.sysErrors k * at0 i.counts k) ^ 2)) := by
  classical
  unfold Spectrum.init
  set n := i.counts.length with hn
  by_cases h1 : i.errors.length = n
  swap
  · simp only [h1, ne_eq, not_false_eq_true, if_true]
    refine ⟨⟨by simp, fun h => absurd h.errors h1⟩, by simp⟩
  by_cases h2 : (i.quality.getD (List.replicate n 0)).length = n
  swap
  · simp only [h1, h2, ne_eq, not_true_eq_false, not_false_eq_true, if_true, if_false]
    refine ⟨⟨by simp, fun h => absurd ?_ h2⟩, by simp⟩
    cases hq : i.quality with
    | none => simp
    | some q => simpa using (h.quality q hq).1
  by_cases h3 : (i.grouping.getD (List.replicate n 1)).length = n
  swap
  · simp only [h1, h2, h3, ne_eq, not_true_eq_false, not_false_eq_true, if_true, if_false]
    refine ⟨⟨by simp, fun h => absurd ?_ h3⟩, by simp⟩
    cases hq : i.grouping with
    | none => simp
    | some q => simpa using h.grouping q hq
  by_cases h4 : shapeOk n i.areaScale = true
  swap
  · simp only [h1, h2, h3, h4, ne_eq, not_true_eq_false, if_false, Bool.not_false, if_true]
    refine ⟨⟨by simp, fun h => absurd (shapeOk_iff.2 h.area) h4⟩, by simp⟩
  by_cases h5 : shapeOk n i.backScale = true
  swap
  · simp only [h1, h2, h3, h4, h5, ne_eq, not_true_eq_false, if_false, Bool.not_false, if_true, Bool.not_true, Bool.false_eq_true]
    refine ⟨⟨by simp, fun h => absurd (shapeOk_iff.2 h.back) h5⟩, by simp⟩
  by_cases h6 : shapeOk n i.sysErrors = true
  swap
  · simp only [h1, h2, h3, h4, h5, h6, ne_eq, not_true_eq_false, if_false, Bool.not_false, if_true, Bool.not_true, Bool.false_eq_true]
    refine ⟨⟨by simp, fun h => absurd (shapeOk_iff.2 h.sys) h6⟩, by simp⟩
  simp only [h1, h2, h3, h4, h5, h6, ne_eq, not_true_eq_false, if_false, Bool.not_true, Bool.false_eq_true]
  set Q := i.quality.getD (List.replicate n 0) with hQ
  have qv : (Q.all fun q => decide (q ∈ ([0, 1, 2, 5, -1] : List Int))) = true ↔
      ∀ x ∈ Q, x = 0 ∨ x = 1 ∨ x = 2 ∨ x = 5 ∨ x = -1 := by
    rw [List.all_eq_true]; simp
  by_cases h7 : (Q.all fun q => decide (q ∈ ([0, 1, 2, 5, -1] : List Int))) = true
  swap
  · rw [Bool.not_eq_true] at h7
    simp only [h7, Bool.not_false, if_true]
    refine ⟨⟨by simp, fun h => ?_⟩, by simp⟩
    exfalso
    have : (Q.all fun q => decide (q ∈ ([0, 1, 2, 5, -1] : List Int))) = true := by
      rw [qv, hQ]
      cases hq : i.quality with
      | none => intro x hx; simp at hx; left; exact hx.2
      | some q => exact (h.quality q hq).2
    rw [h7] at this; simp at this
  simp only [h7, Bool.not_true, Bool.false_eq_true, if_false]
  by_cases h8 : (i.poisson && i.counts.any (fun c => decide (c < 0))) = true
  · simp only [h8, if_true]
    refine ⟨⟨by simp, fun h => ?_⟩, by simp⟩
    exfalso
    rw [Bool.and_eq_true] at h8
    have := any_neg_false.2 (h.poisson h8.1)
    rw [this] at h8; simp at h8
  have h8' : i.poisson = true → ∀ c ∈ i.counts, 0 ≤ c := by
    intro hp
    rw [hp, Bool.true_and, Bool.not_eq_true] at h8
    exact any_neg_false.1 h8
  simp only [h8, Bool.false_eq_true, if_false]
  by_cases h9 : (i.errors.any fun e => decide (e < 0)) = true
  · simp only [h9, if_true]
    refine ⟨⟨by simp, fun h => ?_⟩, by simp⟩
    rw [any_neg_false.2 h.errorsNonneg] at h9; simp at h9
  rw [Bool.not_eq_true] at h9
  simp only [h9, Bool.false_eq_true, if_false]
  by_cases hpos : 0 < n
  swap
  · -- an empty spectrum is never accepted
    have hg : i.grouping.getD (List.replicate n 1) = [] := by
      apply List.length_eq_zero_iff.1; omega
    refine ⟨⟨?_, fun h => absurd h.nonempty (by rw [← hn]; exact hpos)⟩, ?_⟩
    · rintro ⟨s, hs⟩
      simp only [hg] at hs
      split_ifs at hs
    · intro s hs
      simp only [hg] at hs
      split_ifs at hs
  by_cases h10 : ((expand n i.sysErrors).any fun e => decide (e < 0)) = true
  · simp only [h10, if_true]
    refine ⟨⟨by simp, fun h => ?_⟩, by simp⟩
    rw [any_neg_false.2 ((expand_nonneg hpos).2 h.sysNonneg)] at h10; simp at h10
  rw [Bool.not_eq_true] at h10
  simp only [h10, Bool.false_eq_true, if_false]
  by_cases h11 : i.exposure ≤ 0
  · simp only [h11, if_true]
    refine ⟨⟨by simp, fun h => ?_⟩, by simp⟩
    have := h.exposure; linarith
  simp only [h11, if_false]
  have la : (expand n i.areaScale).length = Q.length := by rw [expand_length h4, h2]
  have lb : (expand n i.backScale).length = Q.length := by rw [expand_length h5, h2]
  by_cases h12 : ((resetZero Q (expand n i.areaScale)).any fun x => decide (x < 0)) = true
  · simp only [h12, if_true]
    refine ⟨⟨by simp, fun h => ?_⟩, by simp⟩
    rw [(resetZero_nonneg la).2 ((expand_nonneg hpos).2 h.areaNonneg)] at h12; simp at h12
  rw [Bool.not_eq_true] at h12
  simp only [h12, Bool.false_eq_true, if_false]
  by_cases h13 : ((resetZero Q (expand n i.backScale)).any fun x => decide (x < 0)) = true
  · simp only [h13, if_true]
    refine ⟨⟨by simp, fun h => ?_⟩, by simp⟩
    rw [(resetZero_nonneg lb).2 ((expand_nonneg hpos).2 h.backNonneg)] at h13; simp at h13
  rw [Bool.not_eq_true] at h13
  simp only [h13, Bool.false_eq_true, if_false]
  have va := resetZero_valid la ((resetZero_nonneg la).1 h12)
  have vb := resetZero_valid lb ((resetZero_nonneg lb).1 h13)
  simp only [va, vb, Bool.not_true, Bool.false_eq_true, if_false]
  obtain ⟨g0, gs, hg⟩ : ∃ g0 gs, i.grouping.getD (List.replicate n 1) = g0 :: gs := by
    cases hc : i.grouping.getD (List.replicate n 1) with
    | nil => rw [hc] at h3; simp at h3; omega
    | cons g0 gs => exact ⟨g0, gs, rfl⟩
  simp only [hg]
  have acc : i.Acceptable := by
    refine ⟨hpos, h1, ?_, ?_, shapeOk_iff.1 h4, shapeOk_iff.1 h5, shapeOk_iff.1 h6, h8',
      any_neg_false.1 h9, (expand_nonneg hpos).1 (any_neg_false.1 h10), not_le.1 h11,
      (expand_nonneg hpos).1 ((resetZero_nonneg la).1 h12),
      (expand_nonneg hpos).1 ((resetZero_nonneg lb).1 h13)⟩
    · intro q hq
      rw [hq] at hQ
      have hQ' : Q = q := hQ
      exact ⟨by rw [← hQ']; exact h2, by rw [← hQ']; exact qv.1 h7⟩
    · intro g hgg
      rw [hgg] at h3
      exact h3
  refine ⟨⟨fun _ => acc, fun _ => ⟨_, rfl⟩⟩, ?_⟩
  intro s hs
  obtain rfl := (Except.ok.inj hs).symm
  have hgl : gs.length + 1 = n := by rw [hg] at h3; simpa using h3
  have hsys : (expand n i.sysErrors).length = n := expand_length h6
  refine ⟨?_, rfl, rfl, rfl, fun hp => by simp [hp], ?_⟩
  · constructor
    · exact hpos
    · rfl
    · by_cases hp : i.poisson = true
      · simpa [hp] using h1
      · simp [hp, h1, hsys, ← hn]
    · exact h2
    · simpa using hgl
    · simp only; rw [resetZero_length la, h2]
    · simp only; rw [resetZero_length lb, h2]
    · exact qv.1 h7
    · exact h8'
    · by_cases hp : i.poisson = true
      · simpa [hp] using any_neg_false.1 h9
      · intro e he
        simp only [hp, Bool.false_eq_true, if_false] at he
        obtain ⟨k, hk, rfl⟩ := List.mem_iff_getElem.1 he
        rw [List.getElem_zipWith]; exact Real.sqrt_nonneg _
    · exact not_le.1 h11
    · intro k hk hkn
      exact zip_all_pos (resetZero_length la) va k hk (by rw [h2]; exact hkn)
    · intro k hk hkn
      exact zip_all_pos (resetZero_length lb) vb k hk (by rw [h2]; exact hkn)
    · exact any_neg_false.1 h12
    · exact any_neg_false.1 h13
    · refine ⟨_, rfl, ?_⟩
      split <;> simp_all
  · intro hp k hk
    have hk1 : k < i.errors.length := by rw [h1]; exact hk
    have hk2 : k < (expand n i.sysErrors).length := by rw [hsys]; exact hk
    have hk3 : k < i.counts.length := hk
    rw [← at0_expand i.sysErrors (show k < n from hk)]
    unfold at0
    simp only [hp, Bool.false_eq_true, if_false]
    rw [List.getD_eq_getElem _ _ (by simp [h1, hsys, ← hn]; exact hk), List.getD_eq_getElem _ _ hk1,
      List.getD_eq_getElem _ _ hk2, List.getD_eq_getElem _ _ hk3]
    simp

/-- Non-vacuity: default quality and grouping, a scalar and an array scale with a zero, and a systematic
error. -/
example : SpecInput.Acceptable { counts := [3, -1], errors := [1, 2], poisson := false, exposure := 10, quality := none, grouping := some [-1, 1], areaScale := .inl 1, backScale := .inr [0, 2], net := none, sysErrors := .inl (1 / 10) } := by
  constructor <;> norm_num <;> simp

/-- **C21 (observation).**  `ObservationData(...)` with legal parts succeeds exactly when the channel
numbers agree and a channel is good in both spectra, and the object is then legal.  A channel is bad
when either spectrum flags it (1 always; 2 and 5 unless `ignore_bad=False`). -/
theorem C21_observation (spec : Spectrum) (back : Option Spectrum) (resp : Response) (ignoreBad : Bool)
    (n m : Nat) (hs : spec.Legal n) (hr : resp.Legal m)
    (hb : ∀ b, back = some b → ∃ k, b.Legal k) :
    let isBad := fun (q : List Int) (i : Nat) =>
      q[i]? = some 1 ∨ (ignoreBad = true ∧ (q[i]? = some 2 ∨ q[i]? = some 5))
    ((∃ o, Obs.make spec back resp ignoreBad = .ok o) ↔
      n = m ∧ (∀ b, back = some b → b.counts.length = m) ∧
      ∃ i, i < n ∧ ¬ isBad spec.quality i ∧ ∀ b, back = some b → ¬ isBad b.quality i) ∧
    ∀ o, Obs.make spec back resp ignoreBad = .ok o → o.Legal n ∧ o.spec = spec ∧ o.back = back ∧
      o.resp = resp ∧ ∀ i, i < n → (o.good[i]? = some true ↔
        ¬ isBad spec.quality i ∧ ∀ b, back = some b → ¬ isBad b.quality i) := by
  intro isBad
  have goodOf_iff : ∀ (q : List Int) (i : Nat), i < q.length →
      ((goodOf ignoreBad q)[i]? = some true ↔ ¬ isBad q i) := by
    intro q i hi
    unfold goodOf
    simp only [isBad, List.getElem?_map, List.getElem?_eq_getElem hi, Option.map_some,
      Option.some.injEq]
    cases ignoreBad <;> simp
  have hgl : ∀ q : List Int, (goodOf ignoreBad q).length = q.length := by simp [goodOf]
  have hch : resp.channelNumber = m := hr.emin
  unfold Obs.make
  rw [hch, hs.counts]
  by_cases h1 : n = m
  swap
  · simp [h1]
  subst h1
  simp only [ne_eq, not_true_eq_false, if_false, true_and]
  by_cases h2 : (back.map fun b => b.counts.length).getD n = n
  swap
  · simp only [h2, not_false_eq_true, if_true]
    refine ⟨⟨by simp, ?_⟩, by simp⟩
    rintro ⟨h, _⟩
    exfalso
    apply h2
    cases back with
    | none => rfl
    | some b => simpa using h b rfl
  simp only [h2, not_true_eq_false, if_false]
  have hbl : ∀ b, back = some b → b.Legal n := by
    intro b hbb
    obtain ⟨k, hk⟩ := hb b hbb
    rw [hbb] at h2
    have : k = n := by rw [← hk.counts]; simpa using h2
    rw [← this]; exact hk
  set good : List Bool := goodBoth ignoreBad spec back with hgood
  have glen : good.length = n := by
    rw [hgood]
    cases hbk : back with
    | none => simp [goodBoth, hgl, hs.quality]
    | some b => simp [goodBoth, hgl, hs.quality, (hbl b hbk).quality]
  have giff : ∀ i, i < n → (good[i]? = some true ↔
      ¬ isBad spec.quality i ∧ ∀ b, back = some b → ¬ isBad b.quality i) := by
    intro i hi
    have hi1 : i < spec.quality.length := by rw [hs.quality]; exact hi
    rw [← goodOf_iff _ _ hi1, hgood]
    cases hbk : back with
    | none => simp [goodBoth]
    | some b =>
      have hi2 : i < b.quality.length := by rw [(hbl b hbk).quality]; exact hi
      simp only [Option.some.injEq, forall_eq']
      rw [← goodOf_iff _ _ hi2]
      have a1 : i < (goodOf ignoreBad spec.quality).length := by rw [hgl]; exact hi1
      have a2 : i < (goodOf ignoreBad b.quality).length := by rw [hgl]; exact hi2
      simp [goodBoth, List.getElem?_zipWith, a1, a2]
  have gany : good.any id = true ↔ ∃ i, i < n ∧ good[i]? = some true := by
    rw [List.any_eq_true]
    constructor
    · rintro ⟨x, hx, hx'⟩
      obtain ⟨i, hi, rfl⟩ := List.mem_iff_getElem.1 hx
      exact ⟨i, by rw [← glen]; exact hi, by simp [hi]; exact hx'⟩
    · rintro ⟨i, hi, h⟩
      exact ⟨true, List.mem_of_getElem? h, rfl⟩
  by_cases h3 : good.any id = true
  · simp only [h3, Bool.not_true, Bool.false_eq_true, if_false]
    obtain ⟨i, hi, hgi⟩ := gany.1 h3
    have notOne : ∀ j, good[j]? = some true → j < n := by
      intro j hj
      rw [← glen]; exact (List.getElem?_eq_some_iff.1 hj).1
    refine ⟨⟨fun _ => ⟨fun b hbb => (hbl b hbb).counts, i, hi, (giff i hi).1 hgi⟩, fun _ => ⟨_, rfl⟩⟩, ?_⟩
    intro o hoo
    obtain rfl := (Except.ok.inj hoo).symm
    refine ⟨⟨hs, hbl, hr, glen, ?_, ?_, ⟨i, hgi⟩⟩, rfl, rfl, rfl, giff⟩
    · intro j hj h
      exact ((giff j (notOne j hj)).1 hj).1 (Or.inl h)
    · intro b hbb j hj h
      exact ((giff j (notOne j hj)).1 hj).2 b hbb (Or.inl h)
  · rw [Bool.not_eq_true] at h3
    simp only [h3, Bool.not_false, if_true]
    refine ⟨⟨by simp, ?_⟩, by simp⟩
    rintro ⟨_, i, hi, h⟩
    exfalso
    rw [gany.2 ⟨i, hi, (giff i hi).2 h⟩] at h3
    simp at h3

/-- **C21 (response).**  `ResponseData(...)` with a rectangular matrix succeeds exactly when the sizes
agree, no channel has `emin > emax`, and the photon grid is strictly increasing. -/
theorem C21_response (egrid emin emax : List ℝ) (nchan ncol : Nat) (matrix : List (List ℝ))
    (fwhm : List ℝ) (hrect : ∀ row ∈ matrix, row.length = ncol) :
    ((∃ r, Response.init egrid emin emax nchan ncol matrix fwhm = .ok r) ↔
      emin.length = nchan ∧ emax.length = nchan ∧ ncol = nchan ∧ egrid.length = matrix.length + 1 ∧
      (∀ i, i < nchan → at0 emin i ≤ at0 emax i) ∧
      ∀ i, i + 1 < egrid.length → at0 egrid i < at0 egrid (i + 1)) ∧
    ∀ r, Response.init egrid emin emax nchan ncol matrix fwhm = .ok r →
      r.Legal nchan ∧ r.emin = emin ∧ r.emax = emax ∧ r.matrix = matrix := by
  unfold Response.init
  by_cases h1 : emin.length = emax.length ∧ emax.length = nchan
  swap
  · simp only [h1, not_false_eq_true, if_true]
    refine ⟨⟨by simp, ?_⟩, by simp⟩
    rintro ⟨a, b, _⟩
    exact absurd ⟨by rw [a, b], b⟩ h1
  rw [if_neg (not_not.2 h1)]
  by_cases h2 : egrid.length ≠ matrix.length + 1 ∨ nchan ≠ ncol
  · simp only [h2, if_true]
    refine ⟨⟨by simp, ?_⟩, by simp⟩
    rintro ⟨_, _, c, d, _⟩
    rcases h2 with h | h
    · exact absurd d h
    · exact absurd c.symm h
  simp only [h2, if_false]
  push Not at h2
  have z1 : ((List.zip emin emax).any fun p => decide (p.2 < p.1)) = false ↔
      ∀ i, i < nchan → at0 emin i ≤ at0 emax i := by
    rw [List.any_eq_false]
    constructor
    · intro h i hi
      have hi2 : i < emax.length := by omega
      have hi1 : i < emin.length := by omega
      have := h (emin[i], emax[i]) (List.mem_of_getElem? (i := i)
        (by rw [List.getElem?_zip_eq_some]; simp [hi1, hi2]))
      simpa [at0, List.getD, hi1, hi2] using this
    · intro h p hp
      obtain ⟨k, hk, rfl⟩ := List.mem_iff_getElem.1 hp
      rw [List.length_zip] at hk
      have := h k (by omega)
      have hi2 : k < emax.length := by omega
      have hi1 : k < emin.length := by omega
      simpa [at0, List.getD, hi1, hi2] using this
  have z2 : ((List.zip egrid egrid.tail).any fun p => decide (p.2 ≤ p.1)) = false ↔
      ∀ i, i + 1 < egrid.length → at0 egrid i < at0 egrid (i + 1) := by
    rw [List.any_eq_false]
    constructor
    · intro h i hi
      have hi1 : i < egrid.length := by omega
      have := h (egrid[i], egrid[i + 1]) (List.mem_of_getElem? (i := i)
        (by rw [List.getElem?_zip_eq_some]; simp [hi1, hi]))
      simpa [at0, List.getD, hi1, hi] using this
    · intro h p hp
      obtain ⟨k, hk, rfl⟩ := List.mem_iff_getElem.1 hp
      rw [List.length_zip, List.length_tail] at hk
      have hi : k + 1 < egrid.length := by omega
      have := h k hi
      have hi1 : k < egrid.length := by omega
      simpa [at0, List.getD, hi1, hi] using this
  by_cases h3 : ((List.zip emin emax).any fun p => decide (p.2 < p.1)) = true
  · simp only [h3, if_true]
    refine ⟨⟨by simp, ?_⟩, by simp⟩
    rintro ⟨_, _, _, _, e, _⟩
    rw [z1.2 e] at h3; simp at h3
  rw [Bool.not_eq_true] at h3
  simp only [h3, Bool.false_eq_true, if_false]
  by_cases h4 : ((List.zip egrid egrid.tail).any fun p => decide (p.2 ≤ p.1)) = true
  · simp only [h4, if_true]
    refine ⟨⟨by simp, ?_⟩, by simp⟩
    rintro ⟨_, _, _, _, _, f⟩
    rw [z2.2 f] at h4; simp at h4
  rw [Bool.not_eq_true] at h4
  simp only [h4, Bool.false_eq_true, if_false]
  refine ⟨⟨fun _ => ⟨by omega, h1.2, h2.2.symm, h2.1, z1.1 h3, z2.1 h4⟩, fun _ => ⟨_, rfl⟩⟩, ?_⟩
  intro r hr
  obtain rfl := (Except.ok.inj hr).symm
  exact ⟨⟨by simp only; omega, h1.2, fun row hrow => by rw [hrect row hrow, h2.2], z1.1 h3⟩, rfl, rfl, rfl⟩

example := C21_response [1, 2] [1, 2] [2, 3] 2 2 [[1, 4]] [1, 1] (by simp)

/-! ## C15: energy ranges and histories -/

/-- The mutable part of an `ObservationData` object: `_erange` and everything `set_grouping` stores.
Array aliasing (`np.asarray` keeps a reference to the caller's flags, base.py:274) is not modelled. -/
structure ObsObj where
  erange : List (ℝ × ℝ)
  st : ObsState

/-- The two tests of `set_erange` and the sort (base.py:241-252): returns the stored ranges.  `argsort`
is modelled by insertion sort; rows with equal `emin` are rejected by the second test in any order.
Only two-column input is modelled (one range per row).  An empty list gives an array of shape (1, 0), so
`erange[:, 0]` raises `IndexError`. -/
noncomputable def checkErange (r : List (ℝ × ℝ)) : Except PyErr (List (ℝ × ℝ)) :=
  if r = [] then .error .indexError
  else if r.any fun p => decide (p.2 - p.1 ≤ 0) then .error .valueError
  else
    let s := r.insertionSort (fun p q => p.1 ≤ q.1)
    let flat := s.flatMap fun p => [p.1, p.2]
    if (List.zip flat flat.tail).any fun p => decide (p.2 - p.1 ≤ 0) then .error .valueError
    else .ok s

/-- `set_grouping` on the object (base.py:258-369): the state is overwritten only on success (the size
test comes first, base.py:279). -/
noncomputable def ObsObj.setGrouping (o : Obs) (x : ObsObj) (flags : Option (List Int)) :
    ObsObj × Option PyErr :=
  match o.setGrouping x.erange flags with
  | .ok st => ({ x with st := st }, none)
  | .error e => (x, some e)

/-- `set_erange` on the object (base.py:233-256): `_erange` is stored first, then
`set_grouping(self.grouping)` is called. -/
noncomputable def ObsObj.setErange (o : Obs) (x : ObsObj) (r : List (ℝ × ℝ)) : ObsObj × Option PyErr :=
  match checkErange r with
  | .error e => (x, some e)
  | .ok s => ObsObj.setGrouping o { x with erange := s } (some x.st.grouping)

/-- The end of `ObservationData.__init__` (base.py:136-139). -/
noncomputable def ObsObj.new (o : Obs) (r : List (ℝ × ℝ)) : Except PyErr ObsObj := do
  let s ← checkErange r
  let st ← o.setGrouping s (some o.spec.grouping)
  return ⟨s, st⟩

/-- Ranges are good: there is one, each is a proper interval and any two of them are strictly
separated (specification, models no code). -/
def GoodRanges (r : List (ℝ × ℝ)) : Prop :=
  r ≠ [] ∧ (∀ p ∈ r, p.1 < p.2) ∧ r.Pairwise fun p q => p.2 < q.1 ∨ q.2 < p.1

theorem flat_ok (s : List (ℝ × ℝ)) (hp : ∀ p ∈ s, p.1 < p.2) :
    ((List.zip (s.flatMap fun p => [p.1, p.2]) (s.flatMap fun p => [p.1, p.2]).tail).any
      fun p => decide (p.2 - p.1 ≤ 0)) = false ↔ s.Pairwise fun p q => p.2 < q.1 := by
  induction s with
  | nil => simp
  | cons p t ih =>
    have iht := ih fun q hq => hp q (List.mem_cons_of_mem _ hq)
    have hp0 := hp p (by simp)
    cases t with
    | nil => simpa using hp0
    | cons q u =>
      have hq0 := hp q (by simp)
      simp only [List.flatMap_cons, List.cons_append, List.nil_append, List.tail_cons, List.zip_cons_cons,
        List.any_cons, Bool.or_eq_false_iff, decide_eq_false_iff_not, not_le, sub_pos] at iht ⊢
      rw [List.pairwise_cons, ← iht]
      constructor
      · rintro ⟨h1, h2, h3⟩
        refine ⟨?_, h3⟩
        have := iht.1 h3
        rw [List.pairwise_cons] at this
        intro x hx
        rcases List.mem_cons.1 hx with rfl | hx
        · exact h2
        · exact lt_trans (lt_trans h2 hq0) (this.1 x hx)
      · rintro ⟨h1, h2⟩
        exact ⟨hp0, h1 q (by simp), h2⟩

theorem checkErange_spec (r : List (ℝ × ℝ)) :
    ((∃ s, checkErange r = .ok s) ↔ GoodRanges r) ∧
    (¬ GoodRanges r → checkErange r = .error (if r = [] then .indexError else .valueError)) ∧
    ∀ s, checkErange r = .ok s → s.Perm r ∧ s.Pairwise fun p q => p.2 < q.1 := by
  classical
  unfold checkErange
  by_cases h0 : r = []
  · subst h0
    simp [GoodRanges]
  simp only [h0, if_false]
  set s := r.insertionSort (fun p q => p.1 ≤ q.1) with hs
  have hperm : s.Perm r := List.perm_insertionSort _ r
  have hsorted : s.Pairwise (fun p q => p.1 ≤ q.1) := by
    haveI : Std.Total (fun p q : ℝ × ℝ => p.1 ≤ q.1) := ⟨fun a b => le_total a.1 b.1⟩
    haveI : IsTrans (ℝ × ℝ) (fun p q : ℝ × ℝ => p.1 ≤ q.1) := ⟨fun a b c => le_trans⟩
    exact List.pairwise_insertionSort _ r
  by_cases h1 : (r.any fun p => decide (p.2 - p.1 ≤ 0)) = true
  · simp only [h1, if_true]
    have : ¬ GoodRanges r := by
      intro h
      rw [List.any_eq_true] at h1
      obtain ⟨p, hp, hp'⟩ := h1
      rw [decide_eq_true_iff] at hp'
      have := h.2.1 p hp
      linarith
    refine ⟨⟨by simp, fun h => absurd h this⟩, fun _ => trivial, by simp⟩
  · rw [Bool.not_eq_true] at h1
    have hpr : ∀ p ∈ r, p.1 < p.2 := by
      rw [List.any_eq_false] at h1
      intro p hp
      have := h1 p hp
      simpa using this
    have hps : ∀ p ∈ s, p.1 < p.2 := fun p hp => hpr p (hperm.mem_iff.1 hp)
    simp only [h1, Bool.false_eq_true, if_false]
    have key : s.Pairwise (fun p q => p.2 < q.1) ↔ GoodRanges r := by
      constructor
      · intro h
        refine ⟨h0, hpr, ?_⟩
        have h' : s.Pairwise fun p q => p.2 < q.1 ∨ q.2 < p.1 := h.imp Or.inl
        exact (hperm.pairwise_iff (fun {a b} h => Or.symm h)).1 h'
      · rintro ⟨_, _, h⟩
        have h' : s.Pairwise fun p q => p.2 < q.1 ∨ q.2 < p.1 :=
          (hperm.pairwise_iff (fun {a b} h => Or.symm h)).2 h
        refine List.Pairwise.imp_of_mem ?_ (hsorted.and h')
        rintro p q hp hq ⟨h1, h2 | h2⟩
        · exact h2
        · have := hps p hp; have := hps q hq; linarith
    by_cases h2 : ((List.zip (s.flatMap fun p => [p.1, p.2]) (s.flatMap fun p => [p.1, p.2]).tail).any
      fun p => decide (p.2 - p.1 ≤ 0)) = true
    · simp only [h2, if_true]
      have : ¬ GoodRanges r := by
        rw [← key, ← flat_ok s hps, h2]; simp
      refine ⟨⟨by simp, fun h => absurd h this⟩, fun _ => trivial, by simp⟩
    · rw [Bool.not_eq_true] at h2
      simp only [h2, Bool.false_eq_true, if_false]
      have hg := (flat_ok s hps).1 h2
      refine ⟨⟨fun _ => key.1 hg, fun _ => ⟨_, rfl⟩⟩, fun h => absurd (key.1 hg) h, ?_⟩
      intro s' hs'
      obtain rfl := Except.ok.inj hs'
      exact ⟨hperm, hg⟩

/-- One call on an observation object (base.py:233, 258, 371). -/
inductive Call where
  | setErange (r : List (ℝ × ℝ))
  | setGrouping (flags : Option (List Int))

/-- Performing a call; a raised exception is reported and the object is whatever the code left (base.py:233-256, 258-369, 371-694). -/
noncomputable def ObsObj.step (o : Obs) (x : ObsObj) : Call → ObsObj × Option PyErr
  | .setErange r => x.setErange o r
  | .setGrouping f => x.setGrouping o f

/-- The object after a history of calls (exceptions are caught by the caller) (a sequence of calls of base.py:233, 258, 371). -/
noncomputable def ObsObj.run (o : Obs) (x : ObsObj) (cs : List Call) : ObsObj :=
  cs.foldl (fun x c => (x.step o c).1) x

/-- The data always are those of the ranges and flags in force (specification, models no code). -/
structure ObsObj.Consistent (o : Obs) (n : Nat) (x : ObsObj) : Prop where
  data : o.setGrouping x.erange (some x.st.grouping) = .ok x.st
  len : x.st.grouping.length = n
  start : IsStart x.st.grouping 0
  ranges : GoodRanges x.erange
  sorted : x.erange.Pairwise fun p q => p.2 < q.1

theorem fixFirst_of_start {flags : List Int} (h : IsStart flags 0) : fixFirst flags = flags := by
  cases flags with
  | nil => rfl
  | cons f fs =>
    obtain ⟨g, h1, h2⟩ := h
    simp only [List.getElem?_cons_zero, Option.some.injEq] at h1
    subst h1
    simp [fixFirst, h2]

theorem setGrouping_ok {o : Obs} {n : Nat} (ho : o.Legal n) (erange : List (ℝ × ℝ)) (flags : List Int)
    (hf : flags.length = n) :
    ∃ st, o.setGrouping erange (some flags) = .ok st ∧ st.grouping = fixFirst flags ∧
      st.grouping.length = n ∧ IsStart st.grouping 0 ∧
      o.setGrouping erange (some st.grouping) = .ok st := by
  obtain ⟨st, h1, h2, _⟩ := setGrouping_describes ho erange flags hf
  have hst : IsStart (fixFirst flags) 0 := fixFirst_start (by rw [hf]; exact ho.spec.pos)
  refine ⟨st, h1, h2, by rw [h2, fixFirst_length, hf], by rw [h2]; exact hst, ?_⟩
  rw [h2]
  cases flags with
  | nil => have := ho.spec.pos; simp at hf; omega
  | cons f fs =>
    rw [← h1]
    unfold Obs.setGrouping
    have e : ∀ g : Int, (if (if g = -1 then (1 : Int) else g) = -1 then (1 : Int) else
        (if g = -1 then 1 else g)) = if g = -1 then 1 else g := by
      intro g; split <;> simp_all
    simp only [fixFirst, Option.getD_some, List.length_cons, e]

theorem step_consistent {o : Obs} {n : Nat} (ho : o.Legal n) {x : ObsObj} (hx : x.Consistent o n)
    (c : Call) : (x.step o c).1.Consistent o n ∧ ((x.step o c).2 ≠ none → (x.step o c).1 = x) := by
  have hsg : ∀ (y : ObsObj), GoodRanges y.erange → y.erange.Pairwise (fun p q => p.2 < q.1) →
      ∀ flags : List Int, flags.length = n →
        (y.setGrouping o (some flags)).1.Consistent o n ∧ (y.setGrouping o (some flags)).2 = none := by
    intro y hr hsrt flags hf
    obtain ⟨st, h1, _, h3, h4, h5⟩ := setGrouping_ok ho y.erange flags hf
    unfold ObsObj.setGrouping
    rw [h1]
    exact ⟨⟨h5, h3, h4, hr, hsrt⟩, rfl⟩
  cases c with
  | setErange r =>
    change (x.setErange o r).1.Consistent o n ∧ ((x.setErange o r).2 ≠ none → (x.setErange o r).1 = x)
    unfold ObsObj.setErange
    obtain ⟨k1, k2, k3⟩ := checkErange_spec r
    cases hc : checkErange r with
    | error e => exact ⟨hx, fun _ => rfl⟩
    | ok s =>
      obtain ⟨hperm, hs⟩ := k3 s hc
      have hg := k1.1 ⟨s, hc⟩
      have hgs : GoodRanges s := ⟨fun h => hg.1 (by rw [h] at hperm; exact hperm.nil_eq.symm), fun p hp => hg.2.1 p (hperm.mem_iff.1 hp), hs.imp Or.inl⟩
      have := hsg ⟨s, x.st⟩ hgs hs x.st.grouping hx.len
      exact ⟨this.1, fun h => absurd this.2 h⟩
  | setGrouping f =>
    change (x.setGrouping o f).1.Consistent o n ∧ ((x.setGrouping o f).2 ≠ none → (x.setGrouping o f).1 = x)
    by_cases hl : (f.getD o.spec.grouping).length = n
    · have := hsg x hx.ranges hx.sorted (f.getD o.spec.grouping) hl
      have he : x.setGrouping o f = x.setGrouping o (some (f.getD o.spec.grouping)) := by
        unfold ObsObj.setGrouping Obs.setGrouping; rfl
      rw [he]
      exact ⟨this.1, fun h => absurd this.2 h⟩
    · cases f with
      | none => exact absurd ho.spec.grouping hl
      | some f =>
        have := (C14_restore_and_reject o n ho x.erange).2 f hl
        unfold ObsObj.setGrouping
        rw [this]
        exact ⟨hx, fun _ => rfl⟩

/-- **C15.**  On an object in a consistent state: `set_erange` succeeds exactly when every range has
`emin < emax` and the ranges are pairwise strictly separated (touching ranges are refused), whatever
their order; the stored ranges are a permutation of the given ones in increasing order, the grouping
flags stay, and the data are those of the new ranges.  On failure a `ValueError` is raised (an
`IndexError` for an empty list) and nothing changes. -/
theorem C15_set_erange (o : Obs) (n : Nat) (ho : o.Legal n) (x : ObsObj) (hx : x.Consistent o n)
    (r : List (ℝ × ℝ)) :
    ((x.setErange o r).2 = none ↔ GoodRanges r) ∧
    ((x.setErange o r).2 = none → (x.setErange o r).1.erange.Perm r ∧
      (x.setErange o r).1.erange.Pairwise (fun p q => p.2 < q.1) ∧
      (x.setErange o r).1.st.grouping = x.st.grouping ∧
      o.setGrouping (x.setErange o r).1.erange (some x.st.grouping) = .ok (x.setErange o r).1.st) ∧
    ((x.setErange o r).2 ≠ none →
      (x.setErange o r).2 = some (if r = [] then .indexError else .valueError) ∧ (x.setErange o r).1 = x) := by
  obtain ⟨k1, k2, k3⟩ := checkErange_spec r
  unfold ObsObj.setErange
  cases hc : checkErange r with
  | error e =>
    have hn : ¬ GoodRanges r := fun h => by obtain ⟨s, hs⟩ := k1.2 h; rw [hc] at hs; simp at hs
    have he := k2 hn
    rw [hc] at he
    obtain rfl := Except.error.inj he
    simp [hn]
  | ok s =>
    obtain ⟨hperm, hs⟩ := k3 s hc
    have hg := k1.1 ⟨s, hc⟩
    obtain ⟨st, h1, h2, h3, h4, h5⟩ := setGrouping_ok ho s x.st.grouping hx.len
    have hst : st.grouping = x.st.grouping := by rw [h2, fixFirst_of_start hx.start]
    simp only [ObsObj.setGrouping, h1]
    refine ⟨by simp [hg], fun _ => ⟨hperm, hs, hst, trivial⟩, by simp⟩

/-- **C15 (histories).**  Creation succeeds exactly for good ranges; after any history of
`set_erange` / `set_grouping` calls, failed ones included, the stored ranges are good and sorted and
the data are exactly those that grouping with the flags in force and filtering with the ranges in force
gives. -/
theorem C15_history (o : Obs) (n : Nat) (ho : o.Legal n) (r : List (ℝ × ℝ)) (cs : List Call) :
    ((∃ x, ObsObj.new o r = .ok x) ↔ GoodRanges r) ∧
    ∀ x, ObsObj.new o r = .ok x → (x.run o cs).Consistent o n := by
  obtain ⟨k1, k2, k3⟩ := checkErange_spec r
  unfold ObsObj.new
  cases hc : checkErange r with
  | error e =>
    have hn : ¬ GoodRanges r := fun h => by obtain ⟨s, hs⟩ := k1.2 h; rw [hc] at hs; simp at hs
    simp [bind, Except.bind, hn]
  | ok s =>
    obtain ⟨hperm, hs⟩ := k3 s hc
    have hg := k1.1 ⟨s, hc⟩
    obtain ⟨st, h1, h2, h3, h4, h5⟩ := setGrouping_ok ho s o.spec.grouping ho.spec.grouping
    simp only [bind, Except.bind, h1, pure, Except.pure, Except.ok.injEq, exists_eq', true_iff]
    refine ⟨hg, ?_⟩
    rintro x rfl
    have hgs : GoodRanges s := ⟨fun h => hg.1 (by rw [h] at hperm; exact hperm.nil_eq.symm), fun p hp => hg.2.1 p (hperm.mem_iff.1 hp), hs.imp Or.inl⟩
    have base : (⟨s, st⟩ : ObsObj).Consistent o n := ⟨h5, h3, h4, hgs, hs⟩
    unfold ObsObj.run
    generalize (⟨s, st⟩ : ObsObj) = y at base
    induction cs generalizing y with
    | nil => exact base
    | cons c cs ih => exact ih _ (step_consistent ho base c).1

/-- Non-vacuity: two ranges given in decreasing order are good. -/
example : GoodRanges [(5, 6), (1, 2)] := by
  refine ⟨by simp, ?_, ?_⟩
  · intro p hp
    simp only [List.mem_cons, List.not_mem_nil, or_false] at hp
    rcases hp with rfl | rfl <;> norm_num
  · norm_num [List.pairwise_cons]

/-- Touching ranges are not. -/
example : ¬ GoodRanges [(1, 2), (2, 3)] := by
  rintro ⟨_, _, h⟩
  norm_num [List.pairwise_cons] at h

end Elisa.Data
