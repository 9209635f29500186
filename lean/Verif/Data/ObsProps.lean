import Verif.Data.ObsLemmas

/-!
# Properties C12, C13, C14, C16, C18: the data handed to a fit

Vocabulary: `IsGroup` (`Grouping/Spec.lean`), `effScale`, `goodIn`, `at0` (`Grouping/ScaleSpec.lean`),
`Obs.Legal`, `Obs.Noticed`, `Obs.NoticedGroups`, `Obs.goodSet`, `Obs.ratioOf` (`Data/ObsSpec.lean`).
-/

set_option linter.unusedSectionVars false

namespace Elisa.Data

open Elisa Elisa.Grouping

/-- All observable arrays of the state, described on the list `L` of noticed groups. -/
structure Obs.Describes (o : Obs) (L : List (Nat × Nat)) (st : ObsState) : Prop where
  specCounts : st.specCounts = L.map fun e => ∑ i ∈ o.goodSet e.1 e.2, at0 o.spec.counts i
  specErrors : st.specErrors =
    L.map fun e => Real.sqrt (∑ i ∈ o.goodSet e.1 e.2, at0 o.spec.errors i ^ 2)
  areaScale : st.areaScale = L.map fun e =>
    effScale (o.spec.net && o.back.isNone) (o.goodSet e.1 e.2) (at0 o.spec.counts)
      (at0 o.spec.areaScale)
  matrix : st.matrix = o.resp.matrix.map fun row => L.map fun e =>
    ∑ i ∈ o.goodSet e.1 e.2, at0 row i
  emin : st.emin = L.map fun e => minOf ((o.resp.emin.take e.2).drop e.1)
  emax : st.emax = L.map fun e => maxOf ((o.resp.emax.take e.2).drop e.1)
  noBack : o.back = none → st.back = none ∧ st.netCounts = st.specCounts ∧
    st.netErrors = st.specErrors
  withBack : ∀ b, o.back = some b →
    st.back = some (L.map (fun e => ∑ i ∈ o.goodSet e.1 e.2, at0 b.counts i),
      L.map (fun e => Real.sqrt (∑ i ∈ o.goodSet e.1 e.2, at0 b.errors i ^ 2)),
      L.map (fun e => o.ratioOf b (o.goodSet e.1 e.2))) ∧
    st.netCounts = L.map (fun e => ∑ i ∈ o.goodSet e.1 e.2, at0 o.spec.counts i
      - o.ratioOf b (o.goodSet e.1 e.2) * ∑ i ∈ o.goodSet e.1 e.2, at0 b.counts i) ∧
    st.netErrors = L.map (fun e => Real.sqrt (∑ i ∈ o.goodSet e.1 e.2, at0 o.spec.errors i ^ 2
      + o.ratioOf b (o.goodSet e.1 e.2) ^ 2 * ∑ i ∈ o.goodSet e.1 e.2, at0 b.errors i ^ 2))
  ce : st.ce.length = L.length ∧ ∀ (j : Nat) (x lo hi : ℝ), st.netCounts[j]? = some x → st.emin[j]? = some lo →
    st.emax[j]? = some hi → st.ce[j]? = some (x / ((hi - lo) * o.spec.exposure))
  ceErrors : st.ceErrors.length = L.length ∧
    ∀ (j : Nat) (x lo hi : ℝ), st.netErrors[j]? = some x → st.emin[j]? = some lo →
    st.emax[j]? = some hi → st.ceErrors[j]? = some (x / ((hi - lo) * o.spec.exposure))

theorem zipWith_map_map {α β γ δ : Type*} (f : β → γ → δ) (g : α → β) (h : α → γ) (L : List α) :
    List.zipWith f (L.map g) (L.map h) = L.map fun e => f (g e) (h e) := by
  induction L with
  | nil => rfl
  | cons x xs ih => simp [ih]

theorem setGrouping_describes {o : Obs} {n : Nat} (ho : o.Legal n) (erange : List (ℝ × ℝ))
    (flags : List Int) (hf : flags.length = n) :
    ∃ st, o.setGrouping erange (some flags) = .ok st ∧ st.grouping = fixFirst flags ∧
      o.Describes (noticedList o erange (fixFirst flags)) st := by
  have hf' : (fixFirst flags).length = n := by rw [fixFirst_length, hf]
  have hpos := ho.spec.pos
  obtain ⟨f0, fs, rfl⟩ : ∃ f0 fs, flags = f0 :: fs := by
    cases flags with
    | nil => simp at hf; omega
    | cons f fs => exact ⟨f, fs, rfl⟩
  have e1 := spectrum_group_eq ho.spec hf' ho.good
  have e2 := scaleArrays_eq ho hf'
  have e3 := groupEnergy_eq ho.resp hf' ho.good
  have e4 := mask_eq ho erange hf'
  have e5 := groupMatrix_eq ho erange hf'
  have hch : o.resp.channelNumber = n := ho.resp.emin
  unfold Obs.setGrouping
  simp only [Option.getD_some, hch, hf, ne_eq, not_true_eq_false, if_false]
  have hfix : ((if f0 = -1 then 1 else f0) :: fs) = fixFirst (f0 :: fs) := rfl
  simp only [hfix]
  generalize fixFirst (f0 :: fs) = G at *
  rw [e1, e2, e3]
  simp only [bind, Except.bind, e4]
  have aS : ∀ (net : Bool) (c s : Nat → ℝ),
      applyMask ((grp G).map (noticedB o erange)) (describe net c s (groupSets G (some o.good))).scale
      = (noticedList o erange G).map fun e => effScale net (o.goodSet e.1 e.2) c s := by
    intro net c s
    simp only [describe, groupSets_eq, List.map_map]
    rw [applyMask_filter]; rfl
  have hunit : ∀ (f : Nat × Nat → ℝ) (j : Nat) (x lo hi : ℝ),
      ((noticedList o erange G).map f)[j]? = some x →
      ((noticedList o erange G).map (fun e => minOf ((o.resp.emin.take e.2).drop e.1)))[j]? = some lo →
      ((noticedList o erange G).map (fun e => maxOf ((o.resp.emax.take e.2).drop e.1)))[j]? = some hi →
        (List.zipWith (· * ·) ((noticedList o erange G).map f)
          (List.zipWith (fun lo hi => 1 / ((hi - lo) * o.spec.exposure))
            ((noticedList o erange G).map fun e => minOf ((o.resp.emin.take e.2).drop e.1))
            ((noticedList o erange G).map fun e => maxOf ((o.resp.emax.take e.2).drop e.1))))[j]?
          = some (x / ((hi - lo) * o.spec.exposure)) := by
    intro f j x lo hi hx hlo hhi
    rw [zipWith_map_map, zipWith_map_map, List.getElem?_map]
    rw [List.getElem?_map] at hx hlo hhi
    cases he : (noticedList o erange G)[j]? with
    | none => rw [he] at hx; simp at hx
    | some e =>
      rw [he] at hx hlo hhi
      simp only [Option.map_some, Option.some.injEq] at hx hlo hhi ⊢
      rw [hx, hlo, hhi]; ring
  cases hb : o.back with
  | none =>
    simp only [Option.map_none, pure, Except.pure]
    refine ⟨_, rfl, rfl, ?_⟩
    simp only [applyMask_filter]
    refine { specCounts := rfl, specErrors := rfl, areaScale := ?_, matrix := e5, emin := rfl, emax := rfl, noBack := fun _ => ⟨rfl, rfl, rfl⟩, withBack := ?_, ce := ⟨?_, ?_⟩, ceErrors := ⟨?_, ?_⟩ }
    · rw [aS]; simp [Obs.netMean, hb]
    · intro b h; rw [hb] at h; simp at h
    · simp [zipWith_map_map, noticedList]
    · exact hunit _
    · simp [noticedList]
    · exact hunit _
  | some b =>
    have e6 := spectrum_group_eq (ho.back b hb) hf' ho.good
    simp only [Option.map_some, e6, pure, Except.pure]
    refine ⟨_, rfl, rfl, ?_⟩
    have hnet : o.netMean = false := by simp [Obs.netMean, hb]
    have hr : applyMask ((grp G).map (noticedB o erange))
        (groupBackRatio o.spec.exposure b.exposure
          (describe o.netMean (at0 o.spec.counts) (at0 o.spec.areaScale) (groupSets G (some o.good)))
          (describe o.netMean (at0 o.spec.counts) (at0 o.spec.backScale) (groupSets G (some o.good)))
          (describe false (at0 b.counts) (at0 b.areaScale) (groupSets G (some o.good)))
          (describe false (at0 b.counts) (at0 b.backScale) (groupSets G (some o.good))))
        = (noticedList o erange G).map fun e => o.ratioOf b (o.goodSet e.1 e.2) := by
      rw [hnet]
      have := groupBackRatio_describe (K := ℝ) (v := ⟨o.spec.counts, o.spec.areaScale, o.spec.backScale, b.counts, b.areaScale, b.backScale⟩) o.spec.exposure b.exposure (flags := G) (quality := some o.good)
      simp only at this
      rw [this, groupSets_eq, List.map_map, applyMask_filter]; rfl
    simp only [applyMask_filter, hr]
    have hsq : ∀ (S : Finset Nat) (f : Nat → ℝ), Real.sqrt (∑ i ∈ S, f i ^ 2) ^ 2 = ∑ i ∈ S, f i ^ 2 :=
      fun S f => Real.sq_sqrt (Finset.sum_nonneg fun i _ => sq_nonneg _)
    have hnetC : List.zipWith (· - ·)
        ((noticedList o erange G).map fun e => ∑ i ∈ goodIn (some o.good) e.1 e.2, o.spec.counts.getD i 0)
        (List.zipWith (· * ·) ((noticedList o erange G).map fun e => o.ratioOf b (o.goodSet e.1 e.2))
          ((noticedList o erange G).map fun e => ∑ i ∈ goodIn (some o.good) e.1 e.2, b.counts.getD i 0))
        = (noticedList o erange G).map (fun e => ∑ i ∈ o.goodSet e.1 e.2, at0 o.spec.counts i
          - o.ratioOf b (o.goodSet e.1 e.2) * ∑ i ∈ o.goodSet e.1 e.2, at0 b.counts i) := by
      rw [zipWith_map_map, zipWith_map_map]; rfl
    have hnetE : (List.zipWith (· + ·)
        (((noticedList o erange G).map fun e => Real.sqrt (∑ i ∈ goodIn (some o.good) e.1 e.2, o.spec.errors.getD i 0 ^ 2)).map (· ^ 2))
        ((List.zipWith (· * ·) ((noticedList o erange G).map fun e => o.ratioOf b (o.goodSet e.1 e.2))
          ((noticedList o erange G).map fun e => Real.sqrt (∑ i ∈ goodIn (some o.good) e.1 e.2, b.errors.getD i 0 ^ 2))).map (· ^ 2))).map Real.sqrt
        = (noticedList o erange G).map (fun e => Real.sqrt (∑ i ∈ o.goodSet e.1 e.2, at0 o.spec.errors i ^ 2
          + o.ratioOf b (o.goodSet e.1 e.2) ^ 2 * ∑ i ∈ o.goodSet e.1 e.2, at0 b.errors i ^ 2)) := by
      rw [zipWith_map_map, List.map_map, List.map_map, zipWith_map_map, List.map_map]
      apply List.map_congr_left
      intro e _
      simp only [Function.comp, mul_pow, hsq]
      rfl
    refine { specCounts := rfl, specErrors := rfl, areaScale := ?_, matrix := e5, emin := rfl, emax := rfl, noBack := ?_, withBack := ?_, ce := ⟨?_, ?_⟩, ceErrors := ⟨?_, ?_⟩ }
    · rw [aS]; rfl
    · intro h; rw [hb] at h; simp at h
    · intro b' h'
      rw [hb] at h'
      obtain rfl := Option.some.inj h'
      exact ⟨rfl, hnetC, hnetE⟩
    · simp [zipWith_map_map, noticedList]
    · intro j x lo hi hx
      have h := hnetC
      simp only [noticedList] at h hx ⊢
      rw [h] at hx ⊢
      exact hunit _ j x lo hi hx
    · simp [noticedList]
    · intro j x lo hi hx
      have h := hnetE
      simp only [noticedList] at h hx ⊢
      rw [h] at hx ⊢
      exact hunit _ j x lo hi hx

/-! ## C14, C16 -/

theorem isLeast_minOf {xs : List ℝ} {a b : Nat} (hab : a < b) (hb : b ≤ xs.length) :
    IsLeast {x | ∃ i, a ≤ i ∧ i < b ∧ x = at0 xs i} (minOf ((xs.take b).drop a)) ∧
    IsGreatest {x | ∃ i, a ≤ i ∧ i < b ∧ x = at0 xs i} (maxOf ((xs.take b).drop a)) := by
  have hmem : ∀ l : List ℝ, ∀ x : ℝ, l.foldl min x ∈ x :: l ∧ l.foldl max x ∈ x :: l := by
    intro l
    induction l with
    | nil => simp
    | cons y ys ih =>
      intro x
      simp only [List.foldl_cons]
      refine ⟨?_, ?_⟩
      · rcases List.mem_cons.1 (ih (min x y)).1 with h | h
        · rw [h]; rcases min_choice x y with h | h <;> simp [h]
        · simp [h]
      · rcases List.mem_cons.1 (ih (max x y)).2 with h | h
        · rw [h]; rcases max_choice x y with h | h <;> simp [h]
        · simp [h]
  have hne := slice_ne_nil hab hb
  have hin : ∀ y ∈ (xs.take b).drop a, ∃ i, a ≤ i ∧ i < b ∧ y = at0 xs i :=
    (mem_slice hb (P := fun y => ∃ i, a ≤ i ∧ i < b ∧ y = at0 xs i)).2
      fun i h1 h2 => ⟨i, h1, h2, rfl⟩
  have h2 := le_minOf hab hb (minOf ((xs.take b).drop a))
  have h3 := maxOf_le hab hb (maxOf ((xs.take b).drop a))
  cases hs : (xs.take b).drop a with
  | nil => exact absurd hs hne
  | cons y ys =>
    rw [hs] at hin h2 h3
    refine ⟨⟨hin _ (hmem ys y).1, ?_⟩, ⟨hin _ (hmem ys y).2, ?_⟩⟩
    · rintro x ⟨i, hi1, hi2, rfl⟩
      exact h2.1 (le_refl _) i hi1 hi2
    · rintro x ⟨i, hi1, hi2, rfl⟩
      exact h3.1 (le_refl _) i hi1 hi2

/-- **C14.**  `set_grouping` never fails on flags of the right length; a first flag `-1` counts as
`1`, every other flag is kept.  The groups in the data are exactly the groups of the flags that lie
inside one of the energy ranges (every channel of them) and hold a good channel, in increasing order;
their energy limits are the smallest / largest channel limits of the group. -/
theorem C14_noticed (o : Obs) (n : Nat) (ho : o.Legal n) (erange : List (ℝ × ℝ)) (flags : List Int)
    (hf : flags.length = n) :
    ∃ st L, o.setGrouping erange (some flags) = .ok st ∧ o.NoticedGroups erange st.grouping L ∧
      st.grouping.length = n ∧ IsStart st.grouping 0 ∧
      (∀ i, 0 < i ∨ flags[0]? ≠ some (-1) → st.grouping[i]? = flags[i]?) ∧
      st.emin.length = L.length ∧ st.emax.length = L.length ∧ st.specCounts.length = L.length ∧
      (∀ row ∈ st.matrix, row.length = L.length) ∧
      ∀ (j : Nat) (e : Nat × Nat), L[j]? = some e → ∃ lo hi, st.emin[j]? = some lo ∧
        st.emax[j]? = some hi ∧
        IsLeast {x | ∃ i, e.1 ≤ i ∧ i < e.2 ∧ x = at0 o.resp.emin i} lo ∧
        IsGreatest {x | ∃ i, e.1 ≤ i ∧ i < e.2 ∧ x = at0 o.resp.emax i} hi := by
  obtain ⟨st, h1, h2, h3⟩ := setGrouping_describes ho erange flags hf
  have hlen : (fixFirst flags).length = n := by rw [fixFirst_length, hf]
  have h0 : IsStart (fixFirst flags) 0 := fixFirst_start (by rw [hf]; exact ho.spec.pos)
  refine ⟨st, _, h1, by rw [h2]; exact noticedList_spec ho erange hlen h0, by rw [h2, hlen],
    by rw [h2]; exact h0, ?_, by rw [h3.emin]; simp, by rw [h3.emax]; simp,
    by rw [h3.specCounts]; simp, ?_, ?_⟩
  · intro i hi
    rw [h2]
    cases flags with
    | nil => rfl
    | cons f fs =>
      cases i with
      | succ i => rfl
      | zero =>
        rcases hi with hi | hi
        · omega
        · have : f ≠ -1 := by simpa using hi
          simp [fixFirst, this]
  · rw [h3.matrix]
    intro row hrow
    obtain ⟨r, _, rfl⟩ := List.mem_map.1 hrow
    simp
  · intro j e he
    have hmem := List.mem_of_getElem? he
    have hb := grp_bounds h0 (List.mem_filter.1 hmem).1
    have hb2 : e.2 ≤ n := by rw [← hlen]; exact hb.2
    refine ⟨_, _, ?_, ?_, (isLeast_minOf hb.1 (by rw [ho.resp.emin]; exact hb2)).1,
      (isLeast_minOf hb.1 (by rw [ho.resp.emax]; exact hb2)).2⟩
    · rw [h3.emin, List.getElem?_map, he]; rfl
    · rw [h3.emax, List.getElem?_map, he]; rfl

/-- Restoring the flags of the spectrum (`set_grouping(None)`) is `set_grouping` with these flags;
flags of the wrong length are refused. -/
theorem C14_restore_and_reject (o : Obs) (n : Nat) (ho : o.Legal n) (erange : List (ℝ × ℝ)) :
    o.setGrouping erange none = o.setGrouping erange (some o.spec.grouping) ∧
    ∀ flags, flags.length ≠ n → o.setGrouping erange (some flags) = .error .valueError := by
  refine ⟨rfl, ?_⟩
  intro flags h
  unfold Obs.setGrouping
  have hch : o.resp.channelNumber = n := ho.resp.emin
  simp [hch, h, bind, Except.bind]

/-- **C16.**  With `L` the noticed groups in increasing order: on counts and variance are sums over
the good channels; with a background, off counts and variance likewise, the ratio is that of the
effective exposures of the good channels, net counts = on - ratio * off, squared net error = on
variance + ratio^2 * off variance; without background net = on.  `ce` = net / (width * exposure). -/
theorem C16_net_spectrum (o : Obs) (n : Nat) (ho : o.Legal n) (erange : List (ℝ × ℝ))
    (flags : List Int) (hf : flags.length = n) :
    ∃ st L, o.setGrouping erange (some flags) = .ok st ∧ o.NoticedGroups erange st.grouping L ∧
      o.Describes L st := by
  obtain ⟨st, h1, h2, h3⟩ := setGrouping_describes ho erange flags hf
  refine ⟨st, _, h1, ?_, h3⟩
  rw [h2]
  exact noticedList_spec ho erange (by rw [fixFirst_length, hf])
    (fixFirst_start (by rw [hf]; exact ho.spec.pos))

/-! ## C12 -/

/-- **C12.**  For any flags that start a group at channel 0: one entry per start flag, the grouped
counts add up to the counts of all good channels, the squared grouped errors to their variances. -/
theorem C12_conserves (s : Spectrum) (n : Nat) (hs : s.Legal n) (flags : List Int)
    (hf : flags.length = n) (h0 : IsStart flags 0) (good : List Bool) (hg : good.length = n) :
    ∃ c e, s.group flags (some good) = .ok (c, e) ∧
      c.length = (flags.filter (· ≠ -1)).length ∧ e.length = (flags.filter (· ≠ -1)).length ∧
      c.sum = ∑ i ∈ goodIn (some good) 0 n, at0 s.counts i ∧
      (e.map (· ^ 2)).sum = ∑ i ∈ goodIn (some good) 0 n, at0 s.errors i ^ 2 ∧
      ∀ k a b, IsKthGroup flags k a b →
        c[k]? = some (∑ i ∈ goodIn (some good) a b, at0 s.counts i) ∧
        e[k]? = some (Real.sqrt (∑ i ∈ goodIn (some good) a b, at0 s.errors i ^ 2)) := by
  refine ⟨_, _, spectrum_group_eq hs hf hg, ?_, ?_, ?_, ?_, ?_⟩
  · rw [List.length_map, edges_length, length_groupIdx]
  · rw [List.length_map, edges_length, length_groupIdx]
  · exact sum_groups h0 hf hg _
  · rw [List.map_map]
    have : ((fun x : ℝ => x ^ 2) ∘ fun e : Nat × Nat =>
        Real.sqrt (∑ i ∈ goodIn (some good) e.1 e.2, s.errors.getD i 0 ^ 2)) =
        fun e => ∑ i ∈ goodIn (some good) e.1 e.2, s.errors.getD i 0 ^ 2 := by
      funext e
      exact Real.sq_sqrt (Finset.sum_nonneg fun i _ => sq_nonneg _)
    rw [this]
    exact sum_groups h0 hf hg fun i => s.errors.getD i 0 ^ 2
  · intro k a b hk
    have := edges_getElem?_of_kth hk
    constructor <;> rw [List.getElem?_map, this] <;> rfl

/-- **C12 (noticed data).**  The counts of the noticed groups add up to the counts of the good
channels that lie in a noticed group. -/
theorem C12_noticed_total (o : Obs) (n : Nat) (ho : o.Legal n) (erange : List (ℝ × ℝ))
    (flags : List Int) (hf : flags.length = n) (S : Finset Nat) :
    ∃ st, o.setGrouping erange (some flags) = .ok st ∧
      ((∀ i, i ∈ S ↔ o.good[i]? = some true ∧
          ∃ a b, a ≤ i ∧ i < b ∧ IsGroup st.grouping a b ∧ o.Noticed erange a b) →
        st.specCounts.sum = ∑ i ∈ S, at0 o.spec.counts i ∧
        (st.specErrors.map (· ^ 2)).sum = ∑ i ∈ S, at0 o.spec.errors i ^ 2) := by
  obtain ⟨st, L, h1, h2, h3⟩ := C16_net_spectrum o n ho erange flags hf
  refine ⟨st, h1, fun hS => ?_⟩
  have hSu : S = L.toFinset.biUnion fun e => o.goodSet e.1 e.2 := by
    ext i
    rw [hS, Finset.mem_biUnion]
    constructor
    · rintro ⟨hg, a, b, hi1, hi2, hG, hN⟩
      refine ⟨(a, b), List.mem_toFinset.2 ((h2.2 a b).2 ⟨hG, hN⟩), ?_⟩
      unfold Obs.goodSet goodIn
      simp [hi1, hi2, hg]
    · rintro ⟨e, he, hi⟩
      have := (h2.2 e.1 e.2).1 (List.mem_toFinset.1 he)
      unfold Obs.goodSet goodIn at hi
      simp only [Finset.mem_filter, Finset.mem_Ico, Option.some.injEq, forall_eq'] at hi
      exact ⟨hi.2, e.1, e.2, hi.1.1, hi.1.2, this.1, this.2⟩
  have hnd : L.Nodup := by
    refine (List.Pairwise.imp_of_mem ?_ h2.1)
    intro e f he hf' hef hh
    subst hh
    have := ((h2.2 e.1 e.2).1 he).1.1
    omega
  have hsum : ∀ f : Nat → ℝ, (L.map fun e => ∑ i ∈ o.goodSet e.1 e.2, f i).sum = ∑ i ∈ S, f i := by
    intro f
    rw [hSu, Finset.sum_biUnion, ← List.sum_toFinset _ hnd]
    intro e he f' hf' hne
    rw [Function.onFun, Finset.disjoint_left]
    intro i hi hi'
    unfold Obs.goodSet goodIn at hi hi'
    simp only [Finset.mem_filter, Finset.mem_Ico] at hi hi'
    have he := List.mem_toFinset.1 (Finset.mem_coe.1 he)
    have hf' := List.mem_toFinset.1 (Finset.mem_coe.1 hf')
    have hsym : L.Pairwise (fun e f => e.2 ≤ f.1 ∨ f.2 ≤ e.1) := h2.1.imp Or.inl
    haveI : Std.Symm (fun e f : Nat × Nat => e.2 ≤ f.1 ∨ f.2 ≤ e.1) := ⟨fun _ _ h => Or.symm h⟩
    rcases hsym.forall he hf' hne with h | h <;> omega
  constructor
  · rw [h3.specCounts, hsum]
  · rw [h3.specErrors, List.map_map, ← hsum]
    congr 1
    apply List.map_congr_left
    intro e _
    exact Real.sq_sqrt (Finset.sum_nonneg fun i _ => sq_nonneg _)

/-! ## C13 -/

/-- Two spectra agree on the channels marked good (exposure included). -/
structure Spectrum.AgreeOn (good : List Bool) (s t : Spectrum) : Prop where
  exposure : s.exposure = t.exposure
  counts : ∀ i, good[i]? = some true → at0 s.counts i = at0 t.counts i
  errors : ∀ i, good[i]? = some true → at0 s.errors i = at0 t.errors i
  area : ∀ i, good[i]? = some true → at0 s.areaScale i = at0 t.areaScale i
  back : ∀ i, good[i]? = some true → at0 s.backScale i = at0 t.backScale i

/-- Two observations with the same response energies and the same good channels agree on the good
channels: spectrum, background, and response columns. -/
structure Obs.AgreeOnGood (o p : Obs) : Prop where
  good : o.good = p.good
  spec : o.spec.AgreeOn o.good p.spec
  noBack : o.back = none ↔ p.back = none
  back : ∀ b c, o.back = some b → p.back = some c → b.AgreeOn o.good c
  emin : o.resp.emin = p.resp.emin
  emax : o.resp.emax = p.resp.emax
  rows : o.resp.matrix.length = p.resp.matrix.length
  cols : ∀ r i, o.good[i]? = some true →
    at0 (o.resp.matrix.getD r []) i = at0 (p.resp.matrix.getD r []) i

theorem mem_goodSet {o : Obs} {a b i : Nat} (h : i ∈ o.goodSet a b) : o.good[i]? = some true := by
  unfold Obs.goodSet goodIn at h
  simp only [Finset.mem_filter, Option.some.injEq, forall_eq'] at h
  exact h.2

theorem effScale_congr {net : Bool} {S : Finset Nat} {c d s t : Nat → ℝ}
    (h1 : ∀ i ∈ S, c i = d i) (h2 : ∀ i ∈ S, s i = t i) : effScale net S c s = effScale net S d t := by
  unfold effScale
  rw [Finset.sum_congr rfl h1, Finset.sum_congr rfl h2,
    Finset.sum_congr (s₁ := S) rfl (fun i hi => by rw [h1 i hi, h2 i hi] : ∀ i ∈ S, c i / s i = d i / t i),
    Finset.sum_congr (s₁ := S) rfl (fun i hi => by rw [h2 i hi] : ∀ i ∈ S, 1 / s i = 1 / t i)]

/-- **C13 (proved part).**  If two observations agree on their good channels and both declare the same
NET setting (or have a background), every array handed to a fit is the same, whatever the bad channels
contain.  Missing: the NET setting left open (`net=None`), see `C13_auto_net_refuted`. -/
theorem C13_bad_channels_ignored_partial (o p : Obs) (n : Nat) (ho : o.Legal n) (hp : p.Legal n)
    (h : o.AgreeOnGood p) (hnet : o.back = none → o.spec.net = p.spec.net)
    (erange : List (ℝ × ℝ)) (flags : List Int) :
    o.setGrouping erange (some flags) = p.setGrouping erange (some flags) := by
  by_cases hf : flags.length = n
  swap
  · rw [(C14_restore_and_reject o n ho erange).2 flags hf,
      (C14_restore_and_reject p n hp erange).2 flags hf]
  obtain ⟨st, h1, h2, h3⟩ := setGrouping_describes ho erange flags hf
  obtain ⟨st', h1', h2', h3'⟩ := setGrouping_describes hp erange flags hf
  rw [h1, h1']
  congr 1
  have hL : noticedList o erange (fixFirst flags) = noticedList p erange (fixFirst flags) := by
    unfold noticedList
    congr 1
    funext e
    unfold noticedB
    rw [h.emin, h.emax, h.good]
  rw [← hL] at h3'
  generalize noticedList o erange (fixFirst flags) = L at h3 h3'
  have hgs : ∀ a b, p.goodSet a b = o.goodSet a b := by intro a b; unfold Obs.goodSet; rw [h.good]
  have e1 : st.specCounts = st'.specCounts := by
    rw [h3.specCounts, h3'.specCounts]
    apply List.map_congr_left; intro e _
    rw [hgs]
    exact Finset.sum_congr rfl fun i hi => h.spec.counts i (mem_goodSet hi)
  have e2 : st.specErrors = st'.specErrors := by
    rw [h3.specErrors, h3'.specErrors]
    apply List.map_congr_left; intro e _
    rw [hgs]
    congr 1
    exact Finset.sum_congr rfl fun i hi => by rw [h.spec.errors i (mem_goodSet hi)]
  have e3 : st.areaScale = st'.areaScale := by
    rw [h3.areaScale, h3'.areaScale]
    apply List.map_congr_left; intro e _
    rw [hgs]
    have : (o.spec.net && o.back.isNone) = (p.spec.net && p.back.isNone) := by
      cases hb : o.back with
      | none => rw [hnet hb, h.noBack.1 hb]
      | some b =>
        have : p.back ≠ none := fun hh => by have := h.noBack.2 hh; rw [hb] at this; simp at this
        cases hc : p.back with
        | none => exact absurd hc this
        | some c => simp
    rw [this]
    exact effScale_congr (fun i hi => h.spec.counts i (mem_goodSet hi))
      (fun i hi => h.spec.area i (mem_goodSet hi))
  have e4 : st.matrix = st'.matrix := by
    rw [h3.matrix, h3'.matrix]
    apply List.ext_getElem
    · simp [h.rows]
    · intro r hr1 hr2
      simp only [List.length_map] at hr1 hr2
      simp only [List.getElem_map]
      apply List.map_congr_left; intro e _
      rw [hgs]
      apply Finset.sum_congr rfl
      intro i hi
      have := h.cols r i (mem_goodSet hi)
      simpa [List.getD, hr1, hr2] using this
  have e5 : st.emin = st'.emin := by rw [h3.emin, h3'.emin, h.emin]
  have e6 : st.emax = st'.emax := by rw [h3.emax, h3'.emax, h.emax]
  have e7 : st.back = st'.back ∧ st.netCounts = st'.netCounts ∧ st.netErrors = st'.netErrors := by
    cases hb : o.back with
    | none =>
      obtain ⟨x1, x2, x3⟩ := h3.noBack hb
      obtain ⟨y1, y2, y3⟩ := h3'.noBack (h.noBack.1 hb)
      rw [x1, x2, x3, y1, y2, y3]; exact ⟨rfl, e1, e2⟩
    | some b =>
      cases hc : p.back with
      | none => rw [h.noBack.2 hc] at hb; simp at hb
      | some c =>
        have hbc := h.back b c hb hc
        obtain ⟨x1, x2, x3⟩ := h3.withBack b hb
        obtain ⟨y1, y2, y3⟩ := h3'.withBack c hc
        have r1 : ∀ a d, p.ratioOf c (p.goodSet a d) = o.ratioOf b (o.goodSet a d) := by
          intro a d
          rw [hgs]
          unfold Obs.ratioOf
          rw [h.spec.exposure, hbc.exposure]
          have m : ∀ i ∈ o.goodSet a d, o.good[i]? = some true := fun i hi => mem_goodSet hi
          rw [effScale_congr (fun i hi => h.spec.counts i (m i hi)) (fun i hi => h.spec.area i (m i hi)),
            effScale_congr (fun i hi => h.spec.counts i (m i hi)) (fun i hi => h.spec.back i (m i hi)),
            effScale_congr (fun i hi => hbc.counts i (m i hi)) (fun i hi => hbc.area i (m i hi)),
            effScale_congr (fun i hi => hbc.counts i (m i hi)) (fun i hi => hbc.back i (m i hi))]
        have s1 : ∀ a d, ∑ i ∈ p.goodSet a d, at0 c.counts i = ∑ i ∈ o.goodSet a d, at0 b.counts i := by
          intro a d; rw [hgs]
          exact Finset.sum_congr rfl fun i hi => (hbc.counts i (mem_goodSet hi)).symm
        have s2 : ∀ a d, ∑ i ∈ p.goodSet a d, at0 c.errors i ^ 2 =
            ∑ i ∈ o.goodSet a d, at0 b.errors i ^ 2 := by
          intro a d; rw [hgs]
          exact Finset.sum_congr rfl fun i hi => by rw [hbc.errors i (mem_goodSet hi)]
        have s3 : ∀ a d, ∑ i ∈ p.goodSet a d, at0 p.spec.counts i =
            ∑ i ∈ o.goodSet a d, at0 o.spec.counts i := by
          intro a d; rw [hgs]
          exact Finset.sum_congr rfl fun i hi => (h.spec.counts i (mem_goodSet hi)).symm
        have s4 : ∀ a d, ∑ i ∈ p.goodSet a d, at0 p.spec.errors i ^ 2 =
            ∑ i ∈ o.goodSet a d, at0 o.spec.errors i ^ 2 := by
          intro a d; rw [hgs]
          exact Finset.sum_congr rfl fun i hi => by rw [h.spec.errors i (mem_goodSet hi)]
        rw [x1, x2, x3, y1, y2, y3]
        simp only [r1, s1, s2, s3, s4, and_self]
  have hne : ∀ l l' m m' : List ℝ, l.length = L.length → l'.length = L.length → m = m' →
      m.length = L.length → (∀ (j : Nat) (x lo hi : ℝ), m[j]? = some x → st.emin[j]? = some lo →
        st.emax[j]? = some hi → l[j]? = some (x / ((hi - lo) * o.spec.exposure))) →
      (∀ (j : Nat) (x lo hi : ℝ), m'[j]? = some x → st'.emin[j]? = some lo →
        st'.emax[j]? = some hi → l'[j]? = some (x / ((hi - lo) * p.spec.exposure))) → l = l' := by
    intro l l' m m' hl hl' hm hml hx hy
    subst hm
    apply List.ext_getElem?
    intro j
    by_cases hj : j < L.length
    · have q1 : m[j]? = some m[j] := List.getElem?_eq_getElem (by rw [hml]; exact hj)
      have l1 : st.emin.length = L.length := by rw [h3.emin]; simp
      have l2 : st.emax.length = L.length := by rw [h3.emax]; simp
      have q2 : st.emin[j]? = some st.emin[j] := List.getElem?_eq_getElem (by rw [l1]; exact hj)
      have q3 : st.emax[j]? = some st.emax[j] := List.getElem?_eq_getElem (by rw [l2]; exact hj)
      rw [hx j _ _ _ q1 q2 q3, hy j _ _ _ q1 (by rw [← e5]; exact q2) (by rw [← e6]; exact q3),
        h.spec.exposure]
    · rw [List.getElem?_eq_none (by omega), List.getElem?_eq_none (by omega)]
  have hnl : st.netCounts.length = L.length ∧ st.netErrors.length = L.length := by
    cases hb : o.back with
    | none =>
      obtain ⟨x1, x2, x3⟩ := h3.noBack hb
      rw [x2, x3, h3.specCounts, h3.specErrors]; simp
    | some b =>
      obtain ⟨x1, x2, x3⟩ := h3.withBack b hb
      rw [x2, x3]; simp
  have e8 : st.ce = st'.ce := hne _ _ _ _ h3.ce.1 h3'.ce.1 e7.2.1 hnl.1 h3.ce.2 h3'.ce.2
  have e9 : st.ceErrors = st'.ceErrors :=
    hne _ _ _ _ h3.ceErrors.1 h3'.ceErrors.1 e7.2.2 hnl.2 h3.ceErrors.2 h3'.ceErrors.2
  have e0 : st.grouping = st'.grouping := by rw [h2, h2']
  cases st; cases st'
  simp only [ObsState.mk.injEq]
  exact ⟨e0, e5, e6, e4, e1, e2, e3, e7.1, e7.2.1, e7.2.2, e8, e9⟩

/-- **C13 (exclusion).**  A group without a good channel is never in the data. -/
theorem C13_no_good_channel_excluded (o : Obs) (erange : List (ℝ × ℝ)) (flags : List Int)
    (L : List (Nat × Nat)) (hL : o.NoticedGroups erange flags L) (a b : Nat)
    (h : ∀ i, a ≤ i → i < b → o.good[i]? ≠ some true) : (a, b) ∉ L := by
  intro hm
  obtain ⟨_, _, i, h1, h2, h3⟩ := (hL.2 a b).1 hm
  exact h i h1 h2 h3

/-! ## C18 -/

/-- Counts per channel of a photon spectrum `v` (one value per photon energy bin) folded through a
matrix: channel `c` holds the sum over photon bins of `v_r * M_rc`. -/
noncomputable def foldAt (v : List ℝ) (M : List (List ℝ)) (c : Nat) : ℝ :=
  ∑ r ∈ Finset.range M.length, at0 v r * at0 (M.getD r []) c

/-- **C18.**  Folding through the grouped response gives, in the `j`-th noticed group `[a, b)`, the sum
over the good channels of the group of the counts folded through the original response. -/
theorem C18_fold_commutes (o : Obs) (n : Nat) (ho : o.Legal n) (erange : List (ℝ × ℝ))
    (flags : List Int) (hf : flags.length = n) (v : List ℝ) :
    ∃ st L, o.setGrouping erange (some flags) = .ok st ∧ o.NoticedGroups erange st.grouping L ∧
      ∀ (j a b : Nat), L[j]? = some (a, b) →
        foldAt v st.matrix j = ∑ i ∈ o.goodSet a b, foldAt v o.resp.matrix i := by
  obtain ⟨st, L, h1, h2, h3⟩ := C16_net_spectrum o n ho erange flags hf
  refine ⟨st, L, h1, h2, ?_⟩
  intro j a b hj
  unfold foldAt
  rw [h3.matrix, List.length_map, Finset.sum_comm]
  apply Finset.sum_congr rfl
  intro r hr
  rw [Finset.mem_range] at hr
  rw [← Finset.mul_sum]
  congr 1
  simp only [List.getD, List.getElem?_map, List.getElem?_eq_getElem hr, Option.map_some,
    Option.getD_some]
  unfold at0
  simp [List.getD, hj]

end Elisa.Data
