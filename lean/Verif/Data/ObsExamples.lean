import Verif.Data.ObsProps

/-!
# Concrete observations: the hypotheses of C12-C18 are met, and the C13 counterexample
-/

namespace Elisa.Data

open Elisa Elisa.Grouping

/-- A three-channel Poisson spectrum; the last channel is flagged bad. -/
noncomputable def exSpec (c2 : ℝ) (net : Option Bool) : Spectrum :=
  { counts := [1, 1, c2], errors := [1, 1, 1], quality := [0, 0, 1], grouping := [1, -1, 1],
    poisson := false, exposure := 1, areaScale := [1, 2, 1], backScale := [1, 1, 1], netOpt := net }

noncomputable def exResp : Response :=
  { emin := [1, 2, 3], emax := [2, 3, 4], matrix := [[1, 2, 3], [4, 5, 6]], fwhm := [1, 1, 1] }

noncomputable def exObs (c2 : ℝ) (net : Option Bool) (back : Option Spectrum) : Obs :=
  { spec := exSpec c2 net, back := back, resp := exResp, good := [true, true, false] }

theorem lt3 {i : Nat} (h : i < 3) : i = 0 ∨ i = 1 ∨ i = 2 := by omega

theorem exSpec_legal (c2 : ℝ) (net : Option Bool) : (exSpec c2 net).Legal 3 := by
  constructor <;> try (first | rfl | norm_num [exSpec])
  · intro i h1 h2
    rcases lt3 h2 with rfl | rfl | rfl <;> norm_num [exSpec]
  · intro i h1 h2
    rcases lt3 h2 with rfl | rfl | rfl <;> norm_num [exSpec]

theorem exResp_legal : exResp.Legal 3 := by
  constructor <;> try (first | rfl | simp [exResp])
  intro i h2
  rcases lt3 h2 with rfl | rfl | rfl <;> norm_num [exResp]

theorem exObs_legal (c2 : ℝ) (net : Option Bool) (back : Option Spectrum)
    (hb : back = none ∨ ∃ c net', back = some (exSpec c net')) : (exObs c2 net back).Legal 3 := by
  constructor
  · exact exSpec_legal c2 net
  · intro b h
    rcases hb with rfl | ⟨c, net', rfl⟩
    · simp [exObs] at h
    · simp only [exObs, Option.some.injEq] at h; subst h; exact exSpec_legal _ _
  · exact exResp_legal
  · rfl
  · intro i h
    match i, h with
    | 0, _ => simp [exObs, exSpec]
    | 1, _ => simp [exObs, exSpec]
    | 2, h => simp [exObs] at h
    | i + 3, h => simp [exObs] at h
  · intro b hbb i h
    rcases hb with rfl | ⟨c, net', rfl⟩
    · simp [exObs] at hbb
    · simp only [exObs, Option.some.injEq] at hbb; subst hbb
      match i, h with
      | 0, _ => simp [exSpec]
      | 1, _ => simp [exSpec]
      | 2, h => simp [exObs] at h
      | i + 3, h => simp [exObs] at h
  · exact ⟨0, rfl⟩

/-- The hypotheses of C12, C14, C16, C18 are met by an observation with a background and merged
channels. -/
example : ∃ st, (exObs 7 none (some (exSpec 3 none))).setGrouping [(1, 4)] (some [1, -1, 1]) = .ok st ∧
    st.grouping = [1, -1, 1] := by
  obtain ⟨st, h1, h2, _⟩ := setGrouping_describes
    (exObs_legal 7 none (some (exSpec 3 none)) (Or.inr ⟨3, none, rfl⟩)) [(1, 4)] [1, -1, 1] rfl
  exact ⟨st, h1, h2⟩

theorem agree_ex (c d : ℝ) (net : Option Bool) (back : Option Spectrum) :
    (exObs c net back).AgreeOnGood (exObs d net back) := by
  have hg : ∀ i : Nat, ([true, true, false] : List Bool)[i]? = some true → i = 0 ∨ i = 1 := by
    intro i h
    match i, h with
    | 0, _ => simp
    | 1, _ => simp
    | 2, h => simp at h
    | i + 3, h => simp at h
  refine ⟨rfl, ⟨rfl, ?_, fun i h => rfl, fun i h => rfl, fun i h => rfl⟩, Iff.rfl, ?_, rfl, rfl, rfl,
    fun r i h => rfl⟩
  · intro i h
    rcases hg i h with rfl | rfl <;> simp [exObs, exSpec, at0]
  · intro b c h1 h2
    have h1 : back = some b := h1
    have h2 : back = some c := h2
    rw [h1] at h2
    obtain rfl := Option.some.inj h2
    exact ⟨rfl, fun _ _ => rfl, fun _ _ => rfl, fun _ _ => rfl, fun _ _ => rfl⟩

/-- The hypotheses of `C13_bad_channels_ignored_partial` are met by two observations that differ in a
bad channel. -/
example : (exObs 7 (some true) none).setGrouping [(1, 4)] (some [1, -1, 1]) =
    (exObs (-100) (some true) none).setGrouping [(1, 4)] (some [1, -1, 1]) :=
  C13_bad_channels_ignored_partial (exObs 7 (some true) none) (exObs (-100) (some true) none) 3
    (exObs_legal _ _ _ (Or.inl rfl)) (exObs_legal _ _ _ (Or.inl rfl)) (agree_ex _ _ _ _)
    (fun _ => by simp [exObs, exSpec, Spectrum.net]) _ _

/-- The hypotheses of the other theorems on an observation. -/
theorem exObs_back : (exObs 7 none (some (exSpec 3 none))).Legal 3 := exObs_legal 7 none (some (exSpec 3 none)) (Or.inr ⟨3, none, rfl⟩)

example := C14_noticed _ 3 exObs_back [(1, 4)] [1, -1, 1] rfl
example := C14_restore_and_reject _ 3 exObs_back [(1, 4)]
example := C16_net_spectrum _ 3 exObs_back [(1, 4)] [1, -1, 1] rfl
example := C12_conserves (exSpec 7 none) 3 (exSpec_legal 7 none) [1, -1, 1] rfl (by simp [IsStart]) [true, true, false] rfl
example := C12_noticed_total _ 3 exObs_back [(1, 4)] [1, -1, 1] rfl
example := C18_fold_commutes _ 3 exObs_back [(1, 4)] [1, -1, 1] rfl [2, 5]
example : ∃ st L, (exObs 7 none (some (exSpec 3 none))).setGrouping [(1, 4)] (some [1, -1, 1]) = .ok st ∧
    (exObs 7 none (some (exSpec 3 none))).NoticedGroups [(1, 4)] st.grouping L ∧ (2, 3) ∉ L := by
  obtain ⟨st, L, h1, h2, -⟩ := C14_noticed _ 3 exObs_back [(1, 4)] [1, -1, 1] rfl
  refine ⟨st, L, h1, h2, C13_no_good_channel_excluded _ _ _ L h2 2 3 fun i hi hi' => ?_⟩
  have : i = 2 := by omega
  subst this
  simp [exObs]

theorem nil_or_single {L : List (Nat × Nat)} {a b : Nat} (hp : L.Pairwise (fun e f => e.2 ≤ f.1))
    (hab : a < b) (hm : ∀ e, e ∈ L ↔ e = (a, b)) : L = [(a, b)] := by
  match L, hp, hm with
  | [], _, hm => simpa using (hm (a, b)).2 rfl
  | [e], _, hm => rw [(hm e).1 (by simp)]
  | e :: f :: t, hp, hm =>
    have h1 := (hm e).1 (by simp)
    have h2 := (hm f).1 (by simp)
    have := (List.pairwise_cons.1 hp).1 f (by simp)
    rw [h1, h2] at this
    simp at this; omega

/-- With `net=None` (the default) and no background, the content of a *bad* channel decides how the
scales of the good ones are averaged. -/
theorem exArea (c2 : ℝ) (st : ObsState)
    (h : (exObs c2 none none).setGrouping [(1, 4)] (some [1, -1, 1]) = .ok st) :
    st.areaScale = [if c2 < 0 then 3 / 2 else 4 / 3] := by
  have ho := exObs_legal c2 none none (Or.inl rfl)
  obtain ⟨st', h1, h2, h3⟩ := setGrouping_describes ho [(1, 4)] [1, -1, 1] rfl
  rw [h] at h1
  obtain rfl : st = st' := by simpa using h1
  have hs := noticedList_spec ho [(1, 4)] (flags := fixFirst [1, -1, 1]) rfl (fixFirst_start (by simp))
  have h0 : IsStart (fixFirst [1, -1, 1]) 0 := fixFirst_start (by simp)
  have hL : noticedList (exObs c2 none none) [(1, 4)] (fixFirst [1, -1, 1]) = [(0, 2)] := by
    apply nil_or_single hs.1 (by omega)
    rintro ⟨a, b⟩
    rw [hs.2 a b, ← mem_edges_groupIdx h0]
    have : edges (groupIdx (fixFirst [1, -1, 1])) (fixFirst [1, -1, 1]).length = [(0, 2), (2, 3)] := by
      decide
    rw [this]
    constructor
    · rintro ⟨h1, h2⟩
      simp only [List.mem_cons, List.not_mem_nil, or_false] at h1
      rcases h1 with h1 | h1
      · exact h1
      · exfalso
        simp only [Prod.mk.injEq] at h1
        obtain ⟨rfl, rfl⟩ := h1
        obtain ⟨_, i, hi1, hi2, hi3⟩ := h2
        obtain rfl : i = 2 := by omega
        simp [exObs] at hi3
    · intro h1
      refine ⟨by rw [h1]; simp, ?_⟩
      simp only [Prod.mk.injEq] at h1
      obtain ⟨rfl, rfl⟩ := h1
      refine ⟨⟨(1, 4), by simp, ?_⟩, 0, by omega, by omega, rfl⟩
      intro i _ hi
      have : i = 0 ∨ i = 1 := by omega
      rcases this with rfl | rfl <;> norm_num [exObs, exResp]
  rw [h3.areaScale, hL]
  have hS : (exObs c2 none none).goodSet 0 2 = {0, 1} := by
    change goodIn (some [true, true, false]) 0 2 = {0, 1}
    ext i
    unfold goodIn
    simp only [Finset.mem_filter, Finset.mem_Ico, Option.some.injEq, forall_eq', Finset.mem_insert,
      Finset.mem_singleton]
    constructor
    · rintro ⟨h, _⟩; omega
    · rintro (rfl | rfl) <;> simp
  simp only [List.map_cons, List.map_nil, hS]
  by_cases hc : c2 < 0
  · simp [hc, exObs, exSpec, Spectrum.net, effScale, at0]; norm_num
  · have : ¬ (2⁻¹ + 1 : ℝ) = 0 := by norm_num
    have h' : ¬ (1 + 2⁻¹ : ℝ) = 0 := by norm_num
    simp [hc, exObs, exSpec, Spectrum.net, effScale, at0, h', not_lt.2]; norm_num

/-- **C13 fails for `net=None`.**  Two legal observations that agree on all good channels but give
different data. -/
theorem C13_auto_net_refuted : ∃ (o p : Obs) (n : Nat) (erange : List (ℝ × ℝ)) (flags : List Int),
    o.Legal n ∧ p.Legal n ∧ o.AgreeOnGood p ∧
      o.setGrouping erange (some flags) ≠ p.setGrouping erange (some flags) := by
  have l1 := exObs_legal (-1) none none (Or.inl rfl)
  have l2 := exObs_legal 0 none none (Or.inl rfl)
  refine ⟨exObs (-1) none none, exObs 0 none none, 3, [(1, 4)], [1, -1, 1], l1, l2,
    agree_ex _ _ _ _, ?_⟩
  intro h
  obtain ⟨st, h1, _⟩ := setGrouping_describes l1 [(1, 4)] [1, -1, 1] rfl
  have h2 := exArea (-1) st h1
  have h3 := exArea 0 st (h ▸ h1)
  rw [h2] at h3
  norm_num at h3

end Elisa.Data
