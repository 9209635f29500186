import Verif.Data.GroupProps
import Verif.Data.ObsExamples

/-!
# C17: counterexamples and non-vacuity
-/

set_option linter.unusedSectionVars false

namespace Elisa.Data

open Elisa Elisa.Grouping

theorem anyRow_single (row : List Bool) : anyRow [row] row.length = row := by
  unfold anyRow
  apply List.ext_getElem
  · simp
  · intro i h1 h2
    simp [List.getD, h2]

/-- evaluation of `group` for one energy range -/
theorem group_eval {o : Obs} {n : Nat} (ho : o.Legal n) {r : ℝ × ℝ} {m : Method} {scale : ℝ} {preserve : Bool}
    {row : List Bool} {F final : List Int} {s : Bool} (hok : o.methodOk m (some scale) preserve = true)
    (hrow : rowOf o (o.preFlags preserve) r = row)
    (hrun : ∀ d, Segment.Of o d (applyMask row (groupSets (o.preFlags preserve) (some o.good))) →
      o.runMethod m scale d = .ok (F, s))
    (hasm : assemble row (nChanOf (o.preFlags preserve)) F = .ok final) (hf : final.length = n) :
    ∃ st, o.group [r] m (some scale) preserve = .ok ⟨final, s, st⟩ ∧ st.grouping = fixFirst final ∧
      o.Describes (noticedList o [r] (fixFirst final)) st := by
  obtain ⟨hpl, h0⟩ := preFlags_ok ho preserve
  obtain ⟨d0, hd0, hdof, _⟩ := preData_of ho hpl
  obtain ⟨st, hst, hst2, hst3⟩ := setGrouping_describes ho [r] final hf
  refine ⟨st, ?_, hst2, hst3⟩
  have hr := hrun _ (slice_of hdof row)
  have hlen : row.length = (groupIdx (o.preFlags preserve)).length := by
    rw [← hrow]; simp [rowOf, grp_length]
  unfold Obs.group
  simp only [hok, Bool.not_true, Bool.false_eq_true, if_false, Option.getD_some, maskRows_eq ho [r] hpl,
    bind, Except.bind, pure, Except.pure, hd0, List.map_cons, List.map_nil, hrow, Obs.segResults, hr,
    List.flatten_cons, List.flatten_nil, List.append_nil, List.all_cons, List.all_nil, Bool.and_true]
  rw [← hlen, anyRow_single, hasm]
  simp only [hst]

/-- a two- or three-channel Poisson spectrum without background -/
noncomputable def spec3 (c : List ℝ) (q g : List Int) : Spectrum :=
  { counts := c, errors := [1, 1, 1], quality := q, grouping := g,
    poisson := true, exposure := 1, areaScale := [1, 1, 1], backScale := [1, 1, 1], netOpt := some false }

noncomputable def obs3 (c : List ℝ) (q g : List Int) (good : List Bool) : Obs :=
  { spec := spec3 c q g, back := none, resp := exResp, good := good }

theorem obs3_legal {c : List ℝ} {q g : List Int} {good : List Bool} (hc : c.length = 3) (hq : q.length = 3)
    (hg : g.length = 3) (hgd : good.length = 3) (hqv : ∀ x ∈ q, x = 0 ∨ x = 1) (hcp : ∀ x ∈ c, 0 ≤ x)
    (hg0 : ∃ f, g[0]? = some f ∧ f ≠ -1) (hgs : ∀ i : Nat, good[i]? = some true → q[i]? ≠ some 1)
    (hsome : ∃ i : Nat, good[i]? = some true) : (obs3 c q g good).Legal 3 := by
  refine ⟨⟨by omega, hc, rfl, hq, hg, rfl, rfl, ?_, fun _ => hcp, by simp [obs3, spec3], by norm_num [obs3, spec3], ?_, ?_, by simp [obs3, spec3], by simp [obs3, spec3], hg0⟩, ?_, exResp_legal, hgd, hgs, ?_, hsome⟩
  · intro x hx; rcases hqv x hx with h | h <;> simp [h]
  · intro i _ hi; rcases lt3 hi with rfl | rfl | rfl <;> norm_num [obs3, spec3]
  · intro i _ hi; rcases lt3 hi with rfl | rfl | rfl <;> norm_num [obs3, spec3]
  · intro b h; simp [obs3] at h
  · intro b h; simp [obs3] at h

theorem noticedB_obs3 {c : List ℝ} {q g : List Int} {good : List Bool} (ho : (obs3 c q g good).Legal 3)
    (lo hi : ℝ) {a b : Nat} (hab : a < b) (hb : b ≤ 3) :
    noticedB (obs3 c q g good) [(lo, hi)] (a, b) = true ↔
      (lo ≤ (a : ℝ) + 1 ∧ (b : ℝ) + 1 ≤ hi) ∧ ∃ i, a ≤ i ∧ i < b ∧ good[i]? = some true := by
  rw [noticedB_iff (e := (a, b)) ho _ hab hb]
  unfold Obs.Noticed
  apply and_congr _ Iff.rfl
  simp only [List.mem_singleton, exists_eq_left]
  have h1 : ∀ i, i < 3 → (obs3 c q g good).resp.emin.getD i 0 = (i : ℝ) + 1 := by
    intro i hi
    rcases lt3 hi with rfl | rfl | rfl <;> norm_num [obs3, exResp]
  have h2 : ∀ i, i < 3 → (obs3 c q g good).resp.emax.getD i 0 = (i : ℝ) + 2 := by
    intro i hi
    rcases lt3 hi with rfl | rfl | rfl <;> norm_num [obs3, exResp]
  constructor
  · intro h
    have ha := (h a (le_refl _) hab).1
    have hb' := (h (b - 1) (by omega) (by omega)).2
    rw [h1 a (by omega)] at ha
    rw [h2 (b - 1) (by omega)] at hb'
    have : ((b - 1 : Nat) : ℝ) = (b : ℝ) - 1 := by
      rw [Nat.cast_sub (by omega)]; norm_num
    rw [this] at hb'
    exact ⟨ha, by linarith⟩
  · rintro ⟨ha, hb'⟩ i hi1 hi2
    rw [h1 i (by omega), h2 i (by omega)]
    have e1 : (a : ℝ) ≤ i := by exact_mod_cast hi1
    have e2 : (i : ℝ) + 1 ≤ b := by exact_mod_cast hi2
    exact ⟨by linarith, by linarith⟩

theorem not_noticedB {c : List ℝ} {q g : List Int} {good : List Bool} {r : ℝ × ℝ} {e : Nat × Nat}
    (h : ¬ noticedB (obs3 c q g good) [r] e = true) : noticedB (obs3 c q g good) [r] e = false := by
  simpa using h

theorem groupMin_11 : groupMin ([1, 1] : List ℝ) ((2 : ℤ) : ℝ) = .ok ([1, -1], true) := by
  norm_num [groupMin, minLoop, setFlags, reduceat, edges, sliceSum]
  decide

/-- **C17 refuted: a bad channel inside a group.**  Three channels with 1, 7, 1 counts, the middle one
flagged bad, everything in range; `group('min', 2)` reports success, but the flags it writes are
`[1, 1, -1]` and both noticed groups hold a single count. -/
theorem C17_bad_channel_refuted :
    ∃ o : Obs, o.Legal 3 ∧ ∃ res, o.group [(0, 10)] .min (some 2) false = .ok res ∧ res.success = true ∧
      res.final = [1, 1, -1] ∧ res.st.specCounts = [1, 1] := by
  have ho : (obs3 [1, 7, 1] [0, 1, 0] [1, 1, 1] [true, false, true]).Legal 3 := by
    apply obs3_legal <;> try first | rfl | simp
    · intro i h
      match i, h with
      | 0, _ => simp
      | 1, h => simp at h
      | 2, _ => simp
      | i + 3, h => simp at h
    · exact ⟨0, rfl⟩
  refine ⟨_, ho, ?_⟩
  set o := obs3 [1, 7, 1] [0, 1, 0] [1, 1, 1] [true, false, true] with hodef
  have hpre : o.preFlags false = [1, 1, 1] := rfl
  have hgrp : grp [1, 1, 1] = [(0, 1), (1, 2), (2, 3)] := by decide
  have hgrp2 : grp [1, 1, -1] = [(0, 1), (1, 3)] := by decide
  have n01 : noticedB o [(0, 10)] (0, 1) = true :=
    (noticedB_obs3 ho 0 10 (by omega) (by omega)).2 ⟨by norm_num, 0, by omega, by omega, rfl⟩
  have n23 : noticedB o [(0, 10)] (2, 3) = true :=
    (noticedB_obs3 ho 0 10 (by omega) (by omega)).2 ⟨by norm_num, 2, by omega, by omega, rfl⟩
  have n13 : noticedB o [(0, 10)] (1, 3) = true :=
    (noticedB_obs3 ho 0 10 (by omega) (by omega)).2 ⟨by norm_num, 2, by omega, by omega, rfl⟩
  have n12 : noticedB o [(0, 10)] (1, 2) = false := by
    apply not_noticedB
    rw [noticedB_obs3 ho 0 10 (by omega) (by omega)]
    rintro ⟨_, i, h1, h2, h3⟩
    have : i = 1 := by omega
    subst this; simp at h3
  have g01 : goodIn (some [true, false, true]) 0 1 = {0} := by decide +kernel
  have g23 : goodIn (some [true, false, true]) 2 3 = {2} := by decide +kernel
  have g13 : goodIn (some [true, false, true]) 1 3 = {2} := by decide +kernel
  have tr : truncInt 2 = 2 := by
    unfold truncInt
    rw [if_pos (by norm_num), show (2 : ℝ) = ((2 : ℤ) : ℝ) by norm_num, Int.floor_intCast]
  obtain ⟨st, h1, _, h3⟩ := group_eval ho (r := (0, 10)) (m := .min) (scale := 2) (preserve := false)
    (row := [true, false, true]) (F := [1, -1]) (final := [1, 1, -1]) (s := true) rfl
    (by rw [hpre, rowOf, hgrp]; simp [n01, n23, n12])
    (by
      intro d hd
      have hsets : applyMask [true, false, true] (groupSets (o.preFlags false) (some o.good)) = [{0}, {2}] := by
        rw [hpre, groupSets_eq, hgrp]
        change applyMask [true, false, true] [goodIn (some [true, false, true]) 0 1,
          goodIn (some [true, false, true]) 1 2, goodIn (some [true, false, true]) 2 3] = _
        rw [g01, g23]; rfl
      rw [hsets] at hd
      have hc : d.specCounts = [1, 1] := by rw [hd.spec]; simp [at0, hodef, obs3, spec3]
      unfold Obs.runMethod
      simp only [hc, tr]
      exact groupMin_11)
    (by rw [hpre]; decide) rfl
  refine ⟨_, h1, rfl, rfl, ?_⟩
  have hfix : fixFirst [1, 1, -1] = [1, 1, -1] := by decide
  rw [hfix] at h3
  rw [h3.specCounts]
  have hL : noticedList o [(0, 10)] [1, 1, -1] = [(0, 1), (1, 3)] := by
    unfold noticedList
    rw [hgrp2]; simp [n01, n13]
  rw [hL]
  change [∑ i ∈ goodIn (some [true, false, true]) 0 1, at0 [1, 7, 1] i,
    ∑ i ∈ goodIn (some [true, false, true]) 1 3, at0 [1, 7, 1] i] = ([1, 1] : List ℝ)
  rw [g01, g13]; simp [at0]

/-- **C17 refuted: `preserve_data_group=True`.**  Flags `[1, -1, 1]` in the data, energy range `[2, 4]`
that cuts through the first group, counts `[1, 1, 5]`: `group('min', 5, preserve_data_group=True)`
reports success, but it dissolves the stored first group into single channels, and channel 1, alone
in range, becomes a noticed group with one count. -/
theorem C17_preserve_refuted :
    ∃ o : Obs, o.Legal 3 ∧ o.spec.grouping = [1, -1, 1] ∧
      ∃ res, o.group [(2, 4)] .min (some 5) true = .ok res ∧ res.success = true ∧
      res.final = [1, 1, 1] ∧ res.st.specCounts = [1, 5] := by
  have ho : (obs3 [1, 1, 5] [0, 0, 0] [1, -1, 1] [true, true, true]).Legal 3 := by
    apply obs3_legal <;> try first | rfl | simp
    · intro i h
      match i, h with
      | 0, _ => simp
      | 1, _ => simp
      | 2, _ => simp
      | i + 3, h => simp at h
    · exact ⟨0, rfl⟩
  refine ⟨_, ho, rfl, ?_⟩
  set o := obs3 [1, 1, 5] [0, 0, 0] [1, -1, 1] [true, true, true] with hodef
  have hpre : o.preFlags true = [1, -1, 1] := rfl
  have hgrp : grp [1, -1, 1] = [(0, 2), (2, 3)] := by decide
  have hgrp2 : grp [1, 1, 1] = [(0, 1), (1, 2), (2, 3)] := by decide
  have n02 : noticedB o [(2, 4)] (0, 2) = false := by
    apply not_noticedB
    rw [noticedB_obs3 ho 2 4 (by omega) (by omega)]
    rintro ⟨⟨h, _⟩, _⟩
    norm_num at h
  have n01 : noticedB o [(2, 4)] (0, 1) = false := by
    apply not_noticedB
    rw [noticedB_obs3 ho 2 4 (by omega) (by omega)]
    rintro ⟨⟨h, _⟩, _⟩
    norm_num at h
  have n12 : noticedB o [(2, 4)] (1, 2) = true :=
    (noticedB_obs3 ho 2 4 (by omega) (by omega)).2 ⟨by norm_num, 1, by omega, by omega, rfl⟩
  have n23 : noticedB o [(2, 4)] (2, 3) = true :=
    (noticedB_obs3 ho 2 4 (by omega) (by omega)).2 ⟨by norm_num, 2, by omega, by omega, rfl⟩
  have g12 : goodIn (some [true, true, true]) 1 2 = {1} := by decide +kernel
  have g23 : goodIn (some [true, true, true]) 2 3 = {2} := by decide +kernel
  have tr : truncInt 5 = 5 := by
    unfold truncInt
    rw [if_pos (by norm_num), show (5 : ℝ) = ((5 : ℤ) : ℝ) by norm_num, Int.floor_intCast]
  obtain ⟨st, h1, _, h3⟩ := group_eval ho (r := (2, 4)) (m := .min) (scale := 5) (preserve := true)
    (row := [false, true]) (F := [1]) (final := [1, 1, 1]) (s := true) rfl
    (by rw [hpre, rowOf, hgrp]; simp [n02, n23])
    (by
      intro d hd
      have hsets : applyMask [false, true] (groupSets (o.preFlags true) (some o.good)) = [{2}] := by
        rw [hpre, groupSets_eq, hgrp]
        change applyMask [false, true] [goodIn (some [true, true, true]) 0 2,
          goodIn (some [true, true, true]) 2 3] = _
        rw [g23]; rfl
      rw [hsets] at hd
      have hc : d.specCounts = [5] := by rw [hd.spec]; simp [at0, hodef, obs3, spec3]
      unfold Obs.runMethod
      simp only [hc, tr]
      norm_num [groupMin, minLoop, setFlags, reduceat, edges, sliceSum])
    (by rw [hpre]; decide) rfl
  refine ⟨_, h1, rfl, rfl, ?_⟩
  have hfix : fixFirst [1, 1, 1] = [1, 1, 1] := by decide
  rw [hfix] at h3
  rw [h3.specCounts]
  have hL : noticedList o [(2, 4)] [1, 1, 1] = [(1, 2), (2, 3)] := by
    unfold noticedList
    rw [hgrp2]; simp [n01, n12, n23]
  rw [hL]
  change [∑ i ∈ goodIn (some [true, true, true]) 1 2, at0 [1, 1, 5] i,
    ∑ i ∈ goodIn (some [true, true, true]) 2 3, at0 [1, 1, 5] i] = ([1, 5] : List ℝ)
  rw [g12, g23]; simp [at0]

/-- **C17 refuted: a scale that is not an integer is truncated.**  Counts `[2, 1, 1]`, all good and in
range: `group('min', 2.5)` reports success although a noticed group holds 2 < 2.5 counts. -/
theorem C17_fractional_scale_refuted :
    ∃ o : Obs, o.Legal 3 ∧ ∃ res, o.group [(0, 10)] .min (some 2.5) false = .ok res ∧ res.success = true ∧
      ∃ x ∈ res.st.specCounts, x < 2.5 := by
  have ho : (obs3 [2, 1, 1] [0, 0, 0] [1, 1, 1] [true, true, true]).Legal 3 := by
    apply obs3_legal <;> try first | rfl | simp
    · intro i h
      match i, h with
      | 0, _ => simp
      | 1, _ => simp
      | 2, _ => simp
      | i + 3, h => simp at h
    · exact ⟨0, rfl⟩
  refine ⟨_, ho, ?_⟩
  set o := obs3 [2, 1, 1] [0, 0, 0] [1, 1, 1] [true, true, true] with hodef
  have hpre : o.preFlags false = [1, 1, 1] := rfl
  have hgrp : grp [1, 1, 1] = [(0, 1), (1, 2), (2, 3)] := by decide
  have hgrp2 : grp [1, 1, -1] = [(0, 1), (1, 3)] := by decide
  have nn : ∀ a b, a < b → b ≤ 3 → noticedB o [(0, 10)] (a, b) = true := by
    intro a b hab hb
    refine (noticedB_obs3 ho 0 10 hab hb).2 ⟨⟨by positivity, ?_⟩, a, le_refl _, hab, ?_⟩
    · have : (b : ℝ) ≤ 3 := by exact_mod_cast hb
      linarith
    · have : a < 3 := by omega
      rcases lt3 this with rfl | rfl | rfl <;> rfl
  have g01 : goodIn (some [true, true, true]) 0 1 = {0} := by decide +kernel
  have g12 : goodIn (some [true, true, true]) 1 2 = {1} := by decide +kernel
  have g23 : goodIn (some [true, true, true]) 2 3 = {2} := by decide +kernel
  have tr : truncInt 2.5 = 2 := by
    unfold truncInt
    rw [if_pos (by norm_num), Int.floor_eq_iff]; norm_num
  obtain ⟨st, h1, _, h3⟩ := group_eval ho (r := (0, 10)) (m := .min) (scale := 2.5) (preserve := false)
    (row := [true, true, true]) (F := [1, 1, -1]) (final := [1, 1, -1]) (s := true) rfl
    (by rw [hpre, rowOf, hgrp]; simp [nn])
    (by
      intro d hd
      have hsets : applyMask [true, true, true] (groupSets (o.preFlags false) (some o.good)) = [{0}, {1}, {2}] := by
        rw [hpre, groupSets_eq, hgrp]
        change applyMask [true, true, true] [goodIn (some [true, true, true]) 0 1,
          goodIn (some [true, true, true]) 1 2, goodIn (some [true, true, true]) 2 3] = _
        rw [g01, g12, g23]; rfl
      rw [hsets] at hd
      have hc : d.specCounts = [2, 1, 1] := by rw [hd.spec]; simp [at0, hodef, obs3, spec3]
      unfold Obs.runMethod
      simp only [hc, tr]
      norm_num [groupMin, minLoop, setFlags, reduceat, edges, sliceSum]
      decide)
    (by rw [hpre]; decide) rfl
  refine ⟨_, h1, rfl, 2, ?_, by norm_num⟩
  have hfix : fixFirst [1, 1, -1] = [1, 1, -1] := by decide
  rw [hfix] at h3
  rw [h3.specCounts]
  have hL : noticedList o [(0, 10)] [1, 1, -1] = [(0, 1), (1, 3)] := by
    unfold noticedList
    rw [hgrp2]; simp [nn]
  rw [hL]
  change (2 : ℝ) ∈ [∑ i ∈ goodIn (some [true, true, true]) 0 1, at0 [2, 1, 1] i,
    ∑ i ∈ goodIn (some [true, true, true]) 1 3, at0 [2, 1, 1] i]
  rw [g01]; simp [at0]

/-- Gaussian spectrum and background, source area scale varying over the channels. -/
noncomputable def vObs : Obs :=
  { spec :=
      { counts := [1, 3, 0], errors := [1, 0, 0], quality := [0, 0, 0], grouping := [1, 1, 1],
        poisson := false, exposure := 1, areaScale := [1, 3, 1], backScale := [1, 1, 1], netOpt := none },
    back := some
      { counts := [2, 0, 0], errors := [0, 0, 0], quality := [0, 0, 0], grouping := [1, 1, 1],
        poisson := false, exposure := 1, areaScale := [1, 1, 1], backScale := [1, 1, 1], netOpt := none },
    resp := exResp, good := [true, true, true] }

theorem vObs_legal : vObs.Legal 3 := by
  refine ⟨⟨by omega, rfl, rfl, rfl, rfl, rfl, rfl, by simp [vObs], by simp [vObs], by simp [vObs], by norm_num [vObs], ?_, ?_, by simp [vObs], by simp [vObs], ⟨1, rfl, by decide⟩⟩, ?_, exResp_legal, rfl, ?_, ?_, ⟨0, rfl⟩⟩
  · intro i _ hi; rcases lt3 hi with rfl | rfl | rfl <;> norm_num [vObs]
  · intro i _ hi; rcases lt3 hi with rfl | rfl | rfl <;> norm_num [vObs]
  · intro b hb
    obtain rfl := Option.some.inj hb
    refine ⟨by omega, rfl, rfl, rfl, rfl, rfl, rfl, by simp, by simp, by simp, by norm_num, ?_, ?_, by simp, by simp, ⟨1, rfl, by decide⟩⟩
    · intro i _ hi; rcases lt3 hi with rfl | rfl | rfl <;> norm_num
    · intro i _ hi; rcases lt3 hi with rfl | rfl | rfl <;> norm_num
  · intro i h
    match i, h with
    | 0, _ => simp [vObs]
    | 1, _ => simp [vObs]
    | 2, _ => simp [vObs]
    | i + 3, h => simp [vObs] at h
  · intro b hb i h
    obtain rfl := Option.some.inj hb
    match i, h with
    | 0, _ => simp
    | 1, _ => simp
    | 2, _ => simp
    | i + 3, h => simp [vObs] at h

theorem noticedB_vObs (lo hi : ℝ) {a b : Nat} (hab : a < b) (hb : b ≤ 3) :
    noticedB vObs [(lo, hi)] (a, b) = true ↔ lo ≤ (a : ℝ) + 1 ∧ (b : ℝ) + 1 ≤ hi := by
  have h0 : (obs3 [1, 3, 0] [0, 0, 0] [1, 1, 1] [true, true, true]).Legal 3 := by
    apply obs3_legal <;> try first | rfl | simp
    · intro i h
      match i, h with
      | 0, _ => simp
      | 1, _ => simp
      | 2, _ => simp
      | i + 3, h => simp at h
    · exact ⟨0, rfl⟩
  have := noticedB_obs3 h0 lo hi hab hb
  have he : noticedB vObs [(lo, hi)] (a, b) = noticedB (obs3 [1, 3, 0] [0, 0, 0] [1, 1, 1] [true, true, true]) [(lo, hi)] (a, b) := rfl
  rw [he, this]
  refine ⟨fun h => h.1, fun h => ⟨h, a, le_refl _, hab, ?_⟩⟩
  have : a < 3 := by omega
  rcases lt3 this with rfl | rfl | rfl <;> rfl

/-- **C17 refuted: Gaussian significance with scales that vary over the channels.**  `group('sig', 1)`
adds the background-subtracted channels, `Σ (c_i - r_i b_i) = 2` with error 1, and reports success;
the fit sees `Σ c_i - R Σ b_i = 0` with error 1 for the same group. -/
theorem C17_varying_ratio_refuted :
    ∃ o : Obs, o.Legal 3 ∧ ∃ res, o.group [(1, 3)] .sig (some 1) false = .ok res ∧ res.success = true ∧
      res.st.netCounts = [0] ∧ res.st.netErrors = [1] := by
  have ho := vObs_legal
  refine ⟨_, ho, ?_⟩
  have hpre : vObs.preFlags false = [1, 1, 1] := rfl
  have hgrp : grp [1, 1, 1] = [(0, 1), (1, 2), (2, 3)] := by decide
  have hgrp2 : grp [1, -1, 1] = [(0, 2), (2, 3)] := by decide
  have n01 : noticedB vObs [(1, 3)] (0, 1) = true := by
    rw [noticedB_vObs 1 3 (by omega) (by omega)]; norm_num
  have n12 : noticedB vObs [(1, 3)] (1, 2) = true := by
    rw [noticedB_vObs 1 3 (by omega) (by omega)]; norm_num
  have n02 : noticedB vObs [(1, 3)] (0, 2) = true := by
    rw [noticedB_vObs 1 3 (by omega) (by omega)]; norm_num
  have n23 : noticedB vObs [(1, 3)] (2, 3) = false := by
    have h : ¬ noticedB vObs [(1, 3)] (2, 3) = true := by
      rw [noticedB_vObs 1 3 (by omega) (by omega)]; norm_num
    simpa using h
  have g01 : goodIn (some [true, true, true]) 0 1 = {0} := by decide +kernel
  have g12 : goodIn (some [true, true, true]) 1 2 = {1} := by decide +kernel
  have g02 : goodIn (some [true, true, true]) 0 2 = {0, 1} := by decide +kernel
  obtain ⟨b, hb⟩ : ∃ b, vObs.back = some b := ⟨_, rfl⟩
  have hbd := Option.some.inj hb
  have r0 : vObs.ratioOf b {0} = 1 := by
    rw [← hbd]; norm_num [Obs.ratioOf, effScale, at0, vObs]
  have r01 : vObs.ratioOf b {0, 1} = 2 := by
    rw [← hbd]; norm_num [Obs.ratioOf, effScale, at0, vObs]
  obtain ⟨st, h1, _, h3⟩ := group_eval ho (r := (1, 3)) (m := .sig) (scale := 1) (preserve := false)
    (row := [true, true, false]) (F := [1, -1]) (final := [1, -1, 1]) (s := true) rfl
    (by rw [hpre, rowOf, hgrp]; simp [n01, n12, n23])
    (by
      intro d hd
      have hsets : applyMask [true, true, false] (groupSets (vObs.preFlags false) (some vObs.good)) = [{0}, {1}] := by
        rw [hpre, groupSets_eq, hgrp]
        change applyMask [true, true, false] [goodIn (some [true, true, true]) 0 1,
          goodIn (some [true, true, true]) 1 2, goodIn (some [true, true, true]) 2 3] = _
        rw [g01, g12]; rfl
      rw [hsets] at hd
      obtain ⟨_, _, h3, h4, _⟩ := hd.back b hb
      have e1 : d.netCounts = [-1, 3] := by
        rw [h3]
        simp only [List.map_cons, List.map_nil, Finset.sum_singleton, r0]
        rw [← hbd]; norm_num [at0, vObs]
      have e2 : d.netErrors = [1, 0] := by
        rw [h4]
        simp only [List.map_cons, List.map_nil, Finset.sum_singleton, r0]
        rw [← hbd]; norm_num [at0, vObs]
      have : vObs.runMethod .sig 1 d = groupSigNormal d.netCounts d.netErrors 1 := rfl
      rw [this, e1, e2]
      norm_num [groupSigNormal, normalLoop, normalSuccess, setFlags, reduceat, edges, sliceSum]
      try decide)
    (by rw [hpre]; decide) rfl
  refine ⟨_, h1, rfl, ?_⟩
  have hfix : fixFirst [1, -1, 1] = [1, -1, 1] := by decide
  rw [hfix] at h3
  have hL : noticedList vObs [(1, 3)] [1, -1, 1] = [(0, 2)] := by
    unfold noticedList
    rw [hgrp2]; simp [n02, n23]
  obtain ⟨_, k2, k3⟩ := h3.withBack b hb
  have hgs : vObs.goodSet 0 2 = {0, 1} := g02
  rw [k2, k3, hL]
  simp only [List.map_cons, List.map_nil, hgs, r01]
  rw [← hbd]
  constructor <;> norm_num [at0, vObs]

/-- The hypotheses of `C17_min_partial` are met: three good channels, two energy ranges. -/
example : ∃ res, (obs3 [2, 1, 1] [0, 0, 0] [1, 1, 1] [true, true, true]).group [(0, 3), (3, 10)] .min (some 2) false
    = .ok res ∧ (res.success = true ↔ ∀ x ∈ res.st.specCounts, (truncInt 2 : ℝ) ≤ x) := by
  have ho : (obs3 [2, 1, 1] [0, 0, 0] [1, 1, 1] [true, true, true]).Legal 3 := by
    apply obs3_legal <;> try first | rfl | simp
    · intro i h
      match i, h with
      | 0, _ => simp
      | 1, _ => simp
      | 2, _ => simp
      | i + 3, h => simp at h
    · exact ⟨0, rfl⟩
  have tr : truncInt 2 = 2 := by
    unfold truncInt
    rw [if_pos (by norm_num), show (2 : ℝ) = ((2 : ℤ) : ℝ) by norm_num, Int.floor_intCast]
  apply C17_min_partial _ 3 ho _ _ rfl (by rw [tr]; decide)
  apply groupTidy_of_ascending ho (by simp) (by simp)
  · intro i hi; rcases lt3 hi with rfl | rfl | rfl <;> norm_num [obs3, exResp]
  · intro i j hij hj
    have : i = 0 ∧ j = 1 ∨ i = 0 ∧ j = 2 ∨ i = 1 ∧ j = 2 := by omega
    rcases this with ⟨rfl, rfl⟩ | ⟨rfl, rfl⟩ | ⟨rfl, rfl⟩ <;> norm_num [obs3, exResp]
  · intro r hr
    simp only [List.mem_cons, List.not_mem_nil, or_false] at hr
    rcases hr with rfl | rfl
    · exact ⟨0, by omega, (noticedB_iff (e := (0, 1)) ho _ (by omega) (by omega)).1
        ((noticedB_obs3 ho 0 3 (by omega) (by omega)).2 ⟨by norm_num, 0, by omega, by omega, rfl⟩)⟩
    · exact ⟨2, by omega, (noticedB_iff (e := (2, 3)) ho _ (by omega) (by omega)).1
        ((noticedB_obs3 ho 3 10 (by omega) (by omega)).2 ⟨by norm_num, 2, by omega, by omega, rfl⟩)⟩
  · intro r hr i j k hij hjk hk _ _
    have : j = 1 := by omega
    subst this; rfl

end Elisa.Data
