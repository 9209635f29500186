import Verif.Data.ObsSpec
import Verif.Grouping.ScaleProps

/-! Helper lemmas: the state computed by `setGrouping` as maps over the list of noticed groups. -/

set_option linter.unusedSectionVars false

namespace Elisa.Data

open Elisa Elisa.Grouping

theorem applyMask_filter {α β : Type*} (p : α → Bool) (f : α → β) (xs : List α) :
    applyMask (xs.map p) (xs.map f) = (xs.filter p).map f := by
  unfold applyMask
  induction xs with
  | nil => rfl
  | cons x xs ih =>
    by_cases h : p x = true
    · simpa [h] using ih
    · simpa [h] using ih

theorem le_foldl_min (r : ℝ) (xs : List ℝ) (x : ℝ) :
    r ≤ xs.foldl min x ↔ r ≤ x ∧ ∀ y ∈ xs, r ≤ y := by
  induction xs generalizing x with
  | nil => simp
  | cons y ys ih => simp only [List.foldl_cons, ih, le_min_iff, List.mem_cons, forall_eq_or_imp]; tauto

theorem foldl_max_le (r : ℝ) (xs : List ℝ) (x : ℝ) :
    xs.foldl max x ≤ r ↔ x ≤ r ∧ ∀ y ∈ xs, y ≤ r := by
  induction xs generalizing x with
  | nil => simp
  | cons y ys ih => simp only [List.foldl_cons, ih, max_le_iff, List.mem_cons, forall_eq_or_imp]; tauto

theorem mem_slice {xs : List ℝ} {a b : Nat} (hb : b ≤ xs.length) {P : ℝ → Prop} :
    (∀ y ∈ (xs.take b).drop a, P y) ↔ ∀ i, a ≤ i → i < b → P (xs.getD i 0) := by
  constructor
  · intro h i h1 h2
    apply h
    have hi : i < xs.length := by omega
    rw [List.mem_iff_getElem?]
    refine ⟨i - a, ?_⟩
    rw [List.getElem?_drop, List.getElem?_take]
    simp [show a + (i - a) = i by omega, h2, hi, List.getD]
  · intro h y hy
    obtain ⟨k, hk⟩ := List.mem_iff_getElem?.1 hy
    rw [List.getElem?_drop, List.getElem?_take] at hk
    split at hk
    · rename_i hlt
      have := h (a + k) (by omega) hlt
      rw [List.getD, hk] at this
      simpa using this
    · simp at hk

theorem slice_ne_nil {xs : List ℝ} {a b : Nat} (hab : a < b) (hb : b ≤ xs.length) :
    (xs.take b).drop a ≠ [] := by
  intro h
  have := congrArg List.length h
  simp at this
  omega

theorem le_minOf {xs : List ℝ} {a b : Nat} (hab : a < b) (hb : b ≤ xs.length) (r : ℝ) :
    r ≤ minOf ((xs.take b).drop a) ↔ ∀ i, a ≤ i → i < b → r ≤ xs.getD i 0 := by
  rw [← mem_slice hb (P := fun y => r ≤ y)]
  have := slice_ne_nil hab hb
  cases hs : (xs.take b).drop a with
  | nil => exact absurd hs this
  | cons y ys => simp [minOf, le_foldl_min]

theorem maxOf_le {xs : List ℝ} {a b : Nat} (hab : a < b) (hb : b ≤ xs.length) (r : ℝ) :
    maxOf ((xs.take b).drop a) ≤ r ↔ ∀ i, a ≤ i → i < b → xs.getD i 0 ≤ r := by
  rw [← mem_slice hb (P := fun y => y ≤ r)]
  have := slice_ne_nil hab hb
  cases hs : (xs.take b).drop a with
  | nil => exact absurd hs this
  | cons y ys => simp [maxOf, foldl_max_le]

/-- the groups as intervals -/
abbrev grp (flags : List Int) : List (Nat × Nat) := edges (groupIdx flags) flags.length

theorem grp_bounds {flags : List Int} (h0 : IsStart flags 0) {e : Nat × Nat} (h : e ∈ grp flags) :
    e.1 < e.2 ∧ e.2 ≤ flags.length := by
  have := (mem_edges_groupIdx h0 (a := e.1) (b := e.2)).1 h
  exact ⟨this.1, this.2.1⟩

theorem edges_pairwise (l : List Nat) (n : Nat) (h : l.Pairwise (· < ·)) :
    (edges l n).Pairwise (fun e f => e.2 ≤ f.1) ∧ ∀ e ∈ edges l n, l.head? = some e.1 ∨ ∃ a, l.head? = some a ∧ a < e.1 := by
  induction l with
  | nil => simp [edges]
  | cons a t ih =>
    cases t with
    | nil => simp [edges]
    | cons b r =>
      obtain ⟨h1, h2⟩ := List.pairwise_cons.1 h
      obtain ⟨i1, i2⟩ := ih h2
      have hab := h1 b (by simp)
      simp only [edges]
      refine ⟨List.pairwise_cons.2 ⟨?_, i1⟩, ?_⟩
      · intro f hf
        rcases i2 f hf with h | ⟨c, h, hc⟩
        · simp only [List.head?_cons, Option.some.injEq] at h; simp [h]
        · simp only [List.head?_cons, Option.some.injEq] at h; simp; omega
      · intro e he
        rcases List.mem_cons.1 he with rfl | he
        · left; rfl
        · right
          refine ⟨a, rfl, ?_⟩
          rcases i2 e he with h | ⟨c, h, hc⟩
          · simp only [List.head?_cons, Option.some.injEq] at h; omega
          · simp only [List.head?_cons, Option.some.injEq] at h; omega

theorem grp_pairwise (flags : List Int) : (grp flags).Pairwise (fun e f => e.2 ≤ f.1) :=
  (edges_pairwise _ _ (pairwise_groupIdx flags)).1

theorem edges_range (m n : Nat) (s : Nat) (hm : s + m = n) :
    edges (List.range' s m) n = (List.range' s m).map fun i => (i, i + 1) := by
  induction m generalizing s with
  | zero => rfl
  | succ m ih =>
    cases m with
    | zero => simp [edges]; omega
    | succ m =>
      rw [List.range'_succ, List.range'_succ]
      simp only [edges, List.map_cons]
      have := ih (s + 1) (by omega)
      rw [List.range'_succ] at this
      rw [this]
      simp

theorem groupIdx_full {flags : List Int} (h : (groupIdx flags).length = flags.length) :
    groupIdx flags = List.range flags.length := by
  unfold groupIdx flatnonzero at *
  rw [List.length_map] at *
  have hs : ((List.range flags.length).filter fun k => (flags.map (· != -1)).getD k false).Sublist
    (List.range flags.length) := List.filter_sublist
  exact hs.eq_of_length (by simpa using h)

theorem grp_full {flags : List Int} (h : (groupIdx flags).length = flags.length) :
    grp flags = (List.range flags.length).map fun i => (i, i + 1) := by
  unfold grp
  rw [groupIdx_full h, List.range_eq_range']
  exact edges_range _ _ 0 (by simp)

theorem minOf_single {xs : List ℝ} {i : Nat} (h : i < xs.length) :
    minOf ((xs.take (i + 1)).drop i) = xs.getD i 0 ∧ maxOf ((xs.take (i + 1)).drop i) = xs.getD i 0 := by
  have : (xs.take (i + 1)).drop i = [xs[i]] := by
    rw [List.take_succ_eq_append_getElem h, List.drop_append_of_le_length (by simp; omega)]
    simp
  rw [this]; simp [minOf, maxOf, List.getD, h]

/-- group energies -/
theorem groupEnergy_eq {r : Response} {n : Nat} (hr : r.Legal n) {flags : List Int}
    (hf : flags.length = n) {good : List Bool} (hg : good.length = n) :
    r.groupEnergy flags (some good) = .ok
      ((grp flags).map (fun e => minOf ((r.emin.take e.2).drop e.1)),
       (grp flags).map (fun e => maxOf ((r.emax.take e.2).drop e.1))) := by
  unfold Response.groupEnergy Response.channelNumber
  simp only [hr.emin, hf, hg, ne_eq, not_true_eq_false, if_false, Option.map_some, Option.getD_some]
  split
  · rw [← hf]
  · rename_i hlen
    have hlen : (groupIdx flags).length = flags.length := by rw [hf]; exact not_not.1 hlen
    rw [grp_full hlen, List.map_map, List.map_map]
    congr 2
    · apply List.ext_getElem
      · simp [hr.emin, hf]
      · intro i h1 h2
        simp only [List.getElem_map, List.getElem_range, Function.comp]
        rw [(minOf_single h1).1]; simp [List.getD, h1]
    · apply List.ext_getElem
      · simp [hr.emax, hf]
      · intro i h1 h2
        simp only [List.getElem_map, List.getElem_range, Function.comp]
        rw [(minOf_single h1).2]; simp [List.getD, h1]

theorem spectrum_group_eq {s : Spectrum} {n : Nat} (hs : s.Legal n) {flags : List Int}
    (hf : flags.length = n) {good : List Bool} (hg : good.length = n) :
    s.group flags (some good) = .ok
      ((grp flags).map (fun e => ∑ i ∈ goodIn (some good) e.1 e.2, s.counts.getD i 0),
       (grp flags).map (fun e => Real.sqrt (∑ i ∈ goodIn (some good) e.1 e.2, s.errors.getD i 0 ^ 2))) := by
  unfold Spectrum.group
  simp only [hs.counts, hf, hg, ne_eq, not_true_eq_false, if_false, Option.map_some, Option.getD_some]
  have key : ∀ (xs : List ℝ), xs.length = n →
      reduceat (mulArr (qualityFactor (some good) n) xs) (groupIdx flags) =
      (grp flags).map (fun e => ∑ i ∈ goodIn (some good) e.1 e.2, xs.getD i 0) := by
    intro xs hx
    have hq : ((some good).map List.length).getD xs.length = xs.length := by simp [hg, hx]
    have h1 := mulArr_factor (some good) xs hq
    rw [hx] at h1
    rw [reduceat_flags (by rw [h1.1, hf])]
    apply List.map_congr_left
    intro e _
    have h2 := total_mulArr (some good) xs hq e.1 e.2
    rw [hx] at h2
    exact h2
  have h2 : mulArr (mulArr (qualityFactor (some good) n) s.errors) s.errors =
      mulArr (qualityFactor (some good) n) (s.errors.map (· ^ 2)) := by
    unfold mulArr
    apply List.ext_getElem
    · simp
    · intro i h1 h2
      simp only [List.getElem_zipWith, List.getElem_map]; ring
  rw [key _ hs.counts, h2, key _ (by simpa using hs.errors), List.map_map]
  congr 2
  apply List.map_congr_left
  intro e _
  simp only [Function.comp]
  congr 1
  apply Finset.sum_congr rfl
  intro i _
  by_cases h : i < s.errors.length <;> simp [List.getD, h]

theorem nGood_eq {good : List Bool} {flags : List Int} (hg : good.length = flags.length) :
    nGood good flags = (grp flags).map fun e => (goodIn (some good) e.1 e.2).card := by
  unfold nGood
  rw [reduceat_flags (by simpa using hg)]
  apply List.map_congr_left
  intro e _
  unfold total goodIn
  rw [Finset.card_eq_sum_ones, Finset.sum_filter]
  apply Finset.sum_congr rfl
  intro i _
  by_cases h : i < good.length
  · cases hgi : good[i] <;> simp [List.getD, h, hgi]
  · simp [List.getD, h]

/-- decidable version of `Noticed` -/
noncomputable def noticedB (o : Obs) (erange : List (ℝ × ℝ)) (e : Nat × Nat) : Bool :=
  (erange.any fun r => decide (r.1 ≤ minOf ((o.resp.emin.take e.2).drop e.1)) &&
      decide (maxOf ((o.resp.emax.take e.2).drop e.1) ≤ r.2)) &&
    decide (0 < (goodIn (some o.good) e.1 e.2).card)

theorem noticedB_iff {o : Obs} {n : Nat} (ho : o.Legal n) (erange : List (ℝ × ℝ)) {e : Nat × Nat}
    (h1 : e.1 < e.2) (h2 : e.2 ≤ n) : noticedB o erange e = true ↔ o.Noticed erange e.1 e.2 := by
  unfold noticedB Obs.Noticed
  rw [Bool.and_eq_true, List.any_eq_true, decide_eq_true_iff, Finset.card_pos]
  apply and_congr
  · apply exists_congr
    intro r
    apply and_congr Iff.rfl
    rw [Bool.and_eq_true, decide_eq_true_iff, decide_eq_true_iff,
      le_minOf h1 (by rw [ho.resp.emin]; exact h2), maxOf_le h1 (by rw [ho.resp.emax]; exact h2)]
    constructor
    · rintro ⟨x, y⟩ i hi hj
      exact ⟨x i hi hj, y i hi hj⟩
    · intro h
      exact ⟨fun i hi hj => (h i hi hj).1, fun i hi hj => (h i hi hj).2⟩
  · unfold Finset.Nonempty goodIn
    apply exists_congr
    intro i
    simp only [Finset.mem_filter, Finset.mem_Ico, Option.some.injEq, forall_eq', and_assoc]

/-- the noticed groups -/
noncomputable def noticedList (o : Obs) (erange : List (ℝ × ℝ)) (flags : List Int) : List (Nat × Nat) :=
  (grp flags).filter (noticedB o erange)

theorem noticedList_spec {o : Obs} {n : Nat} (ho : o.Legal n) (erange : List (ℝ × ℝ))
    {flags : List Int} (hf : flags.length = n) (h0 : IsStart flags 0) :
    o.NoticedGroups erange flags (noticedList o erange flags) := by
  refine ⟨(grp_pairwise flags).sublist List.filter_sublist, ?_⟩
  intro a b
  unfold noticedList
  rw [List.mem_filter, mem_edges_groupIdx h0]
  apply and_congr_right
  intro h
  exact noticedB_iff ho erange h.1 (hf ▸ h.2.1)

theorem mask_eq {o : Obs} {n : Nat} (ho : o.Legal n) (erange : List (ℝ × ℝ))
    {flags : List Int} (hf : flags.length = n) :
    List.zipWith (fun m g => m && decide (0 < g))
      (anyRow (channelMask erange ((grp flags).map (fun e => minOf ((o.resp.emin.take e.2).drop e.1)))
        ((grp flags).map (fun e => maxOf ((o.resp.emax.take e.2).drop e.1))))
        ((grp flags).map (fun e => minOf ((o.resp.emin.take e.2).drop e.1))).length)
      (nGood o.good flags) = (grp flags).map (noticedB o erange) := by
  rw [nGood_eq (by rw [ho.good, hf])]
  apply List.ext_getElem
  · simp [anyRow]
  · intro k h1 h2
    have hk : k < (grp flags).length := by simpa using h2
    simp only [List.getElem_zipWith, anyRow, List.getElem_map, List.getElem_range, channelMask,
      List.any_map, noticedB]
    congr 2
    funext r
    simp [List.getD, hk]

/-- The matrix part: noticed columns hold the sums over the good channels. -/
theorem groupMatrix_eq {o : Obs} {n : Nat} (ho : o.Legal n) (erange : List (ℝ × ℝ))
    {flags : List Int} (hf : flags.length = n) :
    (o.resp.groupMatrix flags o.good).map (applyMask ((grp flags).map (noticedB o erange))) =
      o.resp.matrix.map fun row => (noticedList o erange flags).map fun e =>
        ∑ i ∈ goodIn (some o.good) e.1 e.2, row.getD i 0 := by
  unfold Response.groupMatrix Response.channelNumber
  simp only [ho.resp.emin, ← hf]
  split
  · rw [List.map_map]
    apply List.map_congr_left
    intro row hrow
    simp only [Function.comp]
    rw [applyMask_filter]
    apply List.map_congr_left
    intro e _
    have hr := ho.resp.rows row hrow
    have hq : ((some o.good).map List.length).getD row.length = row.length := by
      simp [ho.good, hr]
    have h2 := total_mulArr (some o.good) row hq e.1 e.2
    rw [total_eq_sliceSum, hr, ← hf] at h2
    exact h2
  · rename_i hlen
    have hlen : (groupIdx flags).length = flags.length := not_not.1 hlen
    apply List.map_congr_left
    intro row hrow
    have hr := ho.resp.rows row hrow
    have h1 : row = (grp flags).map fun e => row.getD e.1 0 := by
      rw [grp_full hlen, List.map_map]
      apply List.ext_getElem
      · simp [hr, hf]
      · intro i h1 h2
        simp [List.getD, h1]
    conv_lhs => rw [h1]
    rw [applyMask_filter]
    apply List.map_congr_left
    intro e he
    have hmem := List.mem_filter.1 he
    rw [grp_full hlen] at hmem
    obtain ⟨i, hi, rfl⟩ := List.mem_map.1 hmem.1
    have hg := hmem.2
    unfold noticedB at hg
    rw [Bool.and_eq_true, decide_eq_true_iff, Finset.card_pos] at hg
    have hS : goodIn (some o.good) i (i + 1) = {i} := by
      obtain ⟨j, hj⟩ := hg.2
      have hj' := hj
      unfold goodIn at hj'
      rw [Finset.mem_filter, Finset.mem_Ico] at hj'
      have : j = i := by omega
      subst this
      apply Finset.eq_singleton_iff_unique_mem.2
      refine ⟨hj, fun x hx => ?_⟩
      unfold goodIn at hx
      rw [Finset.mem_filter, Finset.mem_Ico] at hx
      omega
    rw [hS]; simp

theorem sum_groups {flags : List Int} (h0 : IsStart flags 0) {n : Nat} (hf : flags.length = n)
    {good : List Bool} (hg : good.length = n) (f : Nat → ℝ) :
    ((grp flags).map fun e => ∑ i ∈ goodIn (some good) e.1 e.2, f i).sum =
      ∑ i ∈ goodIn (some good) 0 n, f i := by
  have hq : ((some good).map List.length).getD ((List.range n).map f).length
      = ((List.range n).map f).length := by simp [hg]
  have h1 := mulArr_factor (some good) ((List.range n).map f) hq
  have h2 := sum_reduceat (xs := mulArr (qualityFactor (some good) ((List.range n).map f).length)
    ((List.range n).map f)) h0 (by rw [h1.1]; simp [hf])
  rw [reduceat_flags (by rw [h1.1]; simp [hf]), hf, total_mulArr _ _ hq] at h2
  have h3 : ∀ a b, b ≤ n → ∑ i ∈ goodIn (some good) a b, ((List.range n).map f).getD i 0 =
      ∑ i ∈ goodIn (some good) a b, f i := by
    intro a b hb
    apply Finset.sum_congr rfl
    intro i hi
    unfold goodIn at hi
    rw [Finset.mem_filter, Finset.mem_Ico] at hi
    simp [List.getD, show i < n by omega]
  rw [h3 0 n (le_refl _)] at h2
  rw [← h2]
  congr 1
  rw [← hf]
  apply List.map_congr_left
  intro e he
  rw [hf, total_mulArr _ _ hq, h3 _ _ (hf ▸ (grp_bounds h0 he).2)]

/-- The flags in force: the first one is reset from `-1` to `1`. -/
def fixFirst : List Int → List Int
  | [] => []
  | f :: fs => (if f = -1 then 1 else f) :: fs

theorem fixFirst_length (flags : List Int) : (fixFirst flags).length = flags.length := by
  cases flags <;> rfl

theorem fixFirst_start {flags : List Int} (h : 0 < flags.length) : IsStart (fixFirst flags) 0 := by
  cases flags with
  | nil => simp at h
  | cons f fs =>
    unfold IsStart fixFirst
    refine ⟨_, rfl, ?_⟩
    split <;> simp_all

/-- whether the source scales are averaged as net -/
noncomputable def Obs.netMean (o : Obs) : Bool := o.spec.net && o.back.isNone

theorem scaleArrays_eq {o : Obs} {n : Nat} (ho : o.Legal n) {flags : List Int}
    (hf : flags.length = n) :
    o.scaleArrays flags = .ok
      (describe o.netMean (at0 o.spec.counts) (at0 o.spec.areaScale) (groupSets flags (some o.good)),
       describe o.netMean (at0 o.spec.counts) (at0 o.spec.backScale) (groupSets flags (some o.good)),
       o.back.map fun b =>
        (describe false (at0 b.counts) (at0 b.areaScale) (groupSets flags (some o.good)),
         describe false (at0 b.counts) (at0 b.backScale) (groupSets flags (some o.good)))) := by
  unfold Obs.scaleArrays
  have hs := ho.spec
  have hg := ho.good
  simp only [Obs.netMean]
  rw [groupScaleData_first _ (by rw [hs.area, hs.counts]) (by rw [hf, hs.counts]) (by simp [hg, hs.counts]),
    groupScaleData_first _ (by rw [hs.back, hs.counts]) (by rw [hf, hs.counts]) (by simp [hg, hs.counts])]
  cases hb : o.back with
  | none => simp [pure, Except.pure, bind, Except.bind]
  | some b =>
    have hs := ho.back b hb
    simp only [bind, Except.bind, pure, Except.pure, Option.map_some]
    rw [groupScaleData_first _ (by rw [hs.area, hs.counts]) (by rw [hf, hs.counts]) (by simp [hg, hs.counts]),
      groupScaleData_first _ (by rw [hs.back, hs.counts]) (by rw [hf, hs.counts]) (by simp [hg, hs.counts])]

theorem groupSets_eq (flags : List Int) (q : Option (List Bool)) :
    groupSets flags q = (grp flags).map fun e => goodIn q e.1 e.2 := rfl

end Elisa.Data
