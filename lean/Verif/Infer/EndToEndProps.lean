import Verif.Infer.EndToEndLemmas

/-!
# C97: the statistic of a fit follows from the files
-/

namespace Elisa.Infer

open Elisa Elisa.Grouping Elisa.Data

/-- the columns of a spectrum that was read -/
noncomputable def colsOf (s : Spectrum) : Columns :=
  ⟨s.poisson, fun i => s.quality.getD i 0, at0 s.counts, fun i => at0 s.errors i ^ 2, at0 s.areaScale, at0 s.backScale, s.exposure⟩

theorem colsOf_from {p : Pha} {arg : Option Bool} {s : Spectrum} {n : ℕ} (h : p.read arg = .ok s) (hl : s.Legal n) : (colsOf s).From p arg n := by
  obtain ⟨h1, h2, h3, h4, h5, -, h7, -, h9, -⟩ := (C58_spectrum p arg).2.2.2 s h
  have hn : s.counts.length = n := hl.counts
  refine ⟨h1, h3, ⟨s.counts, h2, hn, fun i => rfl⟩, ⟨?_, ?_⟩, ?_, ?_, ?_, ?_⟩
  · intro hq i hi
    show s.quality.getD i 0 = 0
    rw [h5 hq]
    simp [List.getD, List.getElem?_replicate]
    split <;> rfl
  · intro l hq i
    show s.quality.getD i 0 = _
    rw [h7 l hq]
  · intro hp i hi
    show at0 s.errors i ^ 2 = at0 s.counts i
    have hi' : i < s.counts.length := by omega
    rw [h4 hp]
    simp only [at0, List.getD, List.getElem?_map, List.getElem?_eq_getElem hi', Option.map_some, Option.getD_some]
    exact Real.sq_sqrt (hl.poissonCounts hp _ (List.getElem_mem hi'))
  · intro hp hk
    obtain ⟨e, a1, -, -, -, -, -, a7⟩ := read_errors h hp
    refine ⟨e, a1, fun i hi => ?_⟩
    show at0 s.errors i ^ 2 = _
    rw [a7 i (by omega), Real.sq_sqrt (by positivity), sysArr_at hk]
    rfl
  · intro i hi
    exact (h9 i (by omega)).1
  · intro i hi
    exact (h9 i (by omega)).2

theorem net_iff {p : Pha} {arg : Option Bool} {s : Spectrum} (h : p.read arg = .ok s) : s.net = true ↔ NetSpectrum p (colsOf s) := by
  obtain ⟨-, -, -, -, -, -, -, -, -, h10, h11⟩ := (C58_spectrum p arg).2.2.2 s h
  have hneg : (s.counts.any fun x => decide (x < 0)) = true ↔ ∃ i, (colsOf s).c i < 0 := by
    rw [List.any_eq_true]
    constructor
    · rintro ⟨x, hx, hx0⟩
      obtain ⟨i, hi, rfl⟩ := List.mem_iff_getElem.1 hx
      refine ⟨i, ?_⟩
      simpa [colsOf, at0, List.getD, List.getElem?_eq_getElem hi] using hx0
    · rintro ⟨i, hi⟩
      by_cases hl : i < s.counts.length
      · refine ⟨s.counts[i], List.getElem_mem hl, ?_⟩
        simpa [colsOf, at0, List.getD, List.getElem?_eq_getElem hl] using hi
      · simp [colsOf, at0, List.getD, List.getElem?_eq_none (not_lt.1 hl)] at hi
  unfold NetSpectrum Spectrum.net
  cases hn : s.netOpt with
  | none =>
    rw [hn] at h10 h11
    simp only [reduceCtorEq, false_iff, not_or] at h10 h11
    rw [Option.getD_none, hneg]
    simp [h10, h11]
  | some b =>
    rw [hn] at h10 h11
    cases b with
    | true => simp only [true_iff] at h10; simp [h10]
    | false =>
      simp only [true_iff] at h11
      have h10' : p.hduclas2 ≠ "NET" := fun e => by simp [e] at h10
      simp only [Option.getD_some, Bool.false_eq_true, false_iff, not_or, h10', not_false_eq_true, true_and]
      rintro ⟨h1, h2, -⟩
      rcases h11 with h | h
      · exact h1 h
      · exact h2 h

theorem good_used {int : Path → Option Int} {fs : Files} {a : LoadArgs} {d : Loaded} {S : Sources} {n : ℕ} (F : Facts int fs a d S n) {i : ℕ} (hi : i < n) :
    d.obs.good[i]? = some true ↔ Used a.ignoreBad (colsOf d.obs.spec) (d.obs.back.map colsOf) i := by
  have ex : ∀ (s : Spectrum), s.Legal n → (¬ Excluded a.ignoreBad s.quality i ↔ (colsOf s).q i ≠ 1 ∧ (a.ignoreBad = true → (colsOf s).q i ≠ 2 ∧ (colsOf s).q i ≠ 5)) := by
    intro s hs
    have hq : s.quality[i]? = some (s.quality.getD i 0) := by
      rw [List.getD_eq_getElem?_getD, List.getElem?_eq_getElem (by rw [hs.quality]; exact hi)]
      rfl
    unfold Excluded colsOf
    simp only [hq, Option.some.injEq, not_or, not_and]
  rw [F.good i hi, ex _ F.legal.spec, Used]
  constructor
  · rintro ⟨h1, h2⟩
    refine ⟨h1, fun b hb => ?_⟩
    cases hbk : d.obs.back with
    | none => rw [hbk] at hb; cases hb
    | some y =>
      rw [hbk] at hb
      cases hb
      exact (ex y (F.legal.back y hbk)).1 (h2 y hbk)
  · rintro ⟨h1, h2⟩
    refine ⟨h1, fun y hy => (ex y (F.legal.back y hy)).2 (h2 _ (by rw [hy]; rfl))⟩

theorem likelihood_total {stat : Stat} {d : FitData} {u : List ℝ} (h : Admissible d stat) : ∃ sites, likelihood stat d u = .ok sites ∧ sites.loglike.length = d.size := by
  unfold likelihood
  cases stat with
  | chi2 => exact ⟨_, rfl, by simp⟩
  | cstat => exact ⟨_, rfl, by simp⟩
  | pstat => obtain ⟨-, b, hb⟩ := h; rw [hb]; exact ⟨_, rfl, by simp⟩
  | pgstat => obtain ⟨-, b, hb, -⟩ := h; rw [hb]; exact ⟨_, rfl, by simp⟩
  | wstat => obtain ⟨-, ⟨b, hb⟩, -⟩ := h; rw [hb]; exact ⟨_, rfl, by simp⟩

/-- **C97 (one data set).**  For every data set loaded from files, whatever was then done with its energy ranges and grouping, and every statistic accepted for it: the
likelihood can be evaluated for any model fluxes, and the deviances of its channels are explained by the contents of the files. -/
theorem C97_member (int : Path → Option Int) (fs : Files) (m : Member) (h : loadData int fs m.args = .ok m.data)
    (hacc : checkStat m.fitData m.stat = .ok ()) :
    ∃ sites, likelihood m.stat m.fitData m.flux = .ok sites ∧ m.Explained int fs (sites.loglike.map (-2 * ·)) := by
  obtain ⟨S, n, F⟩ := load_facts h
  have hcons : m.obj.Consistent m.data.obs n := useAll_consistent F.legal F.cons m.uses
  obtain ⟨st, L, h1, h2, h3⟩ := C16_net_spectrum m.data.obs n F.legal m.obj.erange m.obj.st.grouping hcons.len
  rw [hcons.data] at h1
  obtain rfl := Except.ok.inj h1
  have had := ((C43_check _ _).1).1 hacc
  obtain ⟨-, hemin, hemax, hmat⟩ := build_matrix F.resp F.chans
  have hsize : m.fitData.size = L.length := by
    show m.obj.st.specCounts.length = L.length
    rw [h3.specCounts, List.length_map]
  obtain ⟨sites, hlik, hlen⟩ := likelihood_total (u := m.flux) had
  refine ⟨sites, hlik, S, n, colsOf m.data.obs.spec, m.data.obs.back.map colsOf, m.data.obs.spec.net && m.data.obs.back.isNone, L, F.srcs, F.chans,
    colsOf_from F.src F.legal.spec, ?_, ?_, ?_, h2.1, ?_, ?_, ?_⟩
  · intro hn
    rcases F.back with ⟨-, hb⟩ | ⟨p, s, hb, -, -⟩
    · rw [hb]; rfl
    · rw [hn] at hb; cases hb
  · intro p hp
    rcases F.back with ⟨hb, -⟩ | ⟨p', s, hb, hs, hr⟩
    · rw [hp] at hb; cases hb
    · rw [hp] at hb
      cases hb
      exact ⟨colsOf s, by rw [hs]; rfl, colsOf_from hr (F.legal.back s hs)⟩
  · rw [Bool.and_eq_true, net_iff F.src]
    have : m.data.obs.back.isNone = true ↔ S.back = none := by
      rcases F.back with ⟨hb, hb'⟩ | ⟨p', s, hb, hs, hr⟩
      · simp [hb, hb']
      · simp [hb, hs]
    rw [this]
  · intro a c
    rw [h2.2 a c, FitGroup, ← hemin, ← hemax]
    constructor
    · rintro ⟨g1, g2, i, i1, i2, i3⟩
      exact ⟨g1, g2, i, i1, i2, (good_used F (by have := g1.2.1; rw [hcons.len] at this; omega)).1 i3⟩
    · rintro ⟨g1, g2, i, i1, i2, i3⟩
      exact ⟨g1, g2, i, i1, i2, (good_used F (by have := g1.2.1; rw [hcons.len] at this; omega)).2 i3⟩
  · rw [List.length_map, hlen, hsize]
  · intro M hM hflux hpg s hs T hT hrange j D hD
    obtain ⟨hmlen, hment⟩ := hmat M hM
    have hTe : ∀ j (hj : j < L.length), T j = m.data.obs.goodSet L[j].1 L[j].2 := by
      intro j hj
      have hg := ((h2.2 L[j].1 L[j].2).1 (List.getElem_mem hj)).1
      have hb : L[j].2 ≤ n := by have := hg.2.1; rwa [hcons.len] at this
      ext i
      rw [hT j L[j] (List.getElem?_eq_getElem hj) i]
      unfold Data.Obs.goodSet goodIn
      simp only [Finset.mem_filter, Finset.mem_Ico, Option.some.injEq, forall_eq']
      constructor
      · rintro ⟨a1, a2, a3⟩
        exact ⟨⟨a1, a2⟩, (good_used F (by omega)).2 a3⟩
      · rintro ⟨⟨a1, a2⟩, a3⟩
        exact ⟨a1, a2, (good_used F (by omega)).1 a3⟩
    have hTn : ∀ j (hj : j < L.length), ∀ i ∈ T j, i < n := by
      intro j hj i hi
      have hg := ((h2.2 L[j].1 L[j].2).1 (List.getElem_mem hj)).1
      have hb : L[j].2 ≤ n := by have := hg.2.1; rwa [hcons.len] at this
      have := ((hT j L[j] (List.getElem?_eq_getElem hj) i).1 hi).2.1
      omega
    have hfold : ∀ j (hj : j < L.length), m.fitData.folded m.flux j = s (T j) := by
      intro j hj
      rw [hs, sourceCounts, FitData.folded]
      have e1 : nth m.fitData.areaScale j = effScale (m.data.obs.spec.net && m.data.obs.back.isNone) (T j) (colsOf m.data.obs.spec).c (colsOf m.data.obs.spec).area := by
        show nth m.obj.st.areaScale j = _
        rw [h3.areaScale, nth_map_list _ _ hj, hTe j hj]
        rfl
      have e2 : m.fitData.matrix.length = S.rmf.rows.length := by
        show m.obj.st.matrix.length = _
        rw [h3.matrix, List.length_map, hmlen]
      rw [e1, e2]
      show m.data.obs.spec.exposure * _ * _ = m.data.obs.spec.exposure * _ * _
      congr 1
      apply Finset.sum_congr rfl
      intro k hk
      have hk := Finset.mem_range.1 hk
      have hk' : k < m.data.obs.resp.matrix.length := by rw [hmlen]; exact hk
      have e3 : nth (m.fitData.matrix.getD k []) j = ∑ i ∈ T j, at0 (m.data.obs.resp.matrix.getD k []) i := by
        show nth (m.obj.st.matrix.getD k []) j = _
        rw [h3.matrix, List.getD_eq_getElem?_getD, List.getElem?_map, List.getElem?_eq_getElem hk', Option.map_some, Option.getD_some,
          nth_map_list _ _ hj, hTe j hj, List.getD_eq_getElem?_getD, List.getElem?_eq_getElem hk']
        rfl
      rw [e3]
      have e4 : ∑ i ∈ T j, at0 (m.data.obs.resp.matrix.getD k []) i = ∑ i ∈ T j, M k i * (S.arf.map (·.getD k 0)).getD 1 :=
        Finset.sum_congr rfl fun i hi => hment k hk i (hTn j hj i hi)
      rw [e4, ← Finset.sum_mul]
      ring
    have hj : j < L.length := by
      have := (List.getElem?_eq_some_iff.1 hD).1
      rwa [List.length_map, hlen, hsize] at this
    have hrat : ∀ y j (hj : j < L.length), m.data.obs.ratioOf y (m.data.obs.goodSet L[j].1 L[j].2) = onOffRatio (colsOf m.data.obs.spec) (colsOf y) (T j) := by
      intro y j hj
      rw [hTe j hj]; rfl
    have hbackE : ∀ fb, m.fitData.back = some fb → ∃ y, m.data.obs.back = some y ∧ ∀ j, j < L.length → nth fb.counts j = ∑ i ∈ T j, (colsOf y).c i ∧
        nth fb.errors j = Real.sqrt (∑ i ∈ T j, (colsOf y).v i) ∧ nth fb.ratio j = onOffRatio (colsOf m.data.obs.spec) (colsOf y) (T j) := by
      intro fb hfb
      cases hbk : m.data.obs.back with
      | none =>
        have := (h3.noBack hbk).1
        simp [Member.fitData, FitData.ofObs, this] at hfb
      | some y =>
        obtain ⟨w, -⟩ := h3.withBack y hbk
        simp only [Member.fitData, FitData.ofObs, w, Option.map_some, Option.some.injEq] at hfb
        subst hfb
        refine ⟨y, rfl, fun j hj => ⟨?_, ?_, ?_⟩⟩
        · rw [nth_map_list _ _ hj, hTe j hj]; rfl
        · rw [nth_map_list _ _ hj, hTe j hj]; rfl
        · rw [nth_map_list _ _ hj, hrat y j hj]
    have hbackN : m.fitData.back = none → m.data.obs.back = none := by
      intro hn
      cases hbk : m.data.obs.back with
      | none => rfl
      | some y =>
        obtain ⟨w, -⟩ := h3.withBack y hbk
        simp [Member.fitData, FitData.ofObs, w] at hn
    have hexp : ∀ j, j < L.length → expected m.stat m.fitData j (s (T j)) =
        if m.stat = .pstat then s (T j) + ((m.data.obs.back.map colsOf).map fun y => onOffRatio (colsOf m.data.obs.spec) y (T j) * ∑ i ∈ T j, y.c i).getD 0 else s (T j) := by
      intro j hj
      unfold expected
      cases hst : m.stat with
      | pstat =>
        cases hfb : m.fitData.back with
        | none => simp [hbackN hfb]
        | some fb =>
          obtain ⟨y, hy, hv⟩ := hbackE fb hfb
          obtain ⟨v1, v2, v3⟩ := hv j hj
          simp [hy, v1, v3]
      | chi2 => simp
      | cstat => simp
      | pgstat => simp
      | wstat => simp
    have hin : InRange m.stat m.fitData m.flux (fun j => s (T j)) := by
      refine ⟨fun r hr => hflux r ?_, fun j hj => ?_⟩
      · have : m.fitData.matrix.length = S.rmf.rows.length := by
          show m.obj.st.matrix.length = _
          rw [h3.matrix, List.length_map, hmlen]
        rwa [this] at hr
      · rw [hsize] at hj
        refine ⟨hfold j hj, ?_⟩
        rw [hexp j hj]
        exact hrange j hj
    have hus : Usable m.stat m.fitData := by
      obtain ⟨st', u1, u2⟩ := C43_accepted_usable m.data.obs n F.legal m.obj.erange m.obj.st.grouping hcons.len m.stat (by
        intro hp y hy c hc
        obtain ⟨i, hi, rfl⟩ := List.mem_iff_getElem.1 hc
        have := hpg hp (colsOf y) (by rw [hy]; rfl) i
        simpa [colsOf, at0, List.getD, List.getElem?_eq_getElem hi] using this)
      rw [hcons.data] at u1
      obtain rfl := Except.ok.inj u1
      exact u2 hacc
    obtain ⟨sites', k1, -, k3⟩ := likelihood_point hus hin
    rw [hlik] at k1
    obtain rfl := Except.ok.inj k1
    obtain ⟨k4, k5⟩ := k3 j (by rw [hsize]; exact hj)
    have hDe : D = -2 * nth sites.loglike j := by
      rw [List.getElem?_map, Option.map_eq_some_iff] at hD
      obtain ⟨x, hx, rfl⟩ := hD
      simp [nth, List.getD, hx]
    rw [← hDe] at k5
    refine ⟨by rw [hDe]; linarith, ?_⟩
    have n1 : nth m.fitData.specCounts j = ∑ i ∈ T j, (colsOf m.data.obs.spec).c i := by
      show nth m.obj.st.specCounts j = _
      rw [h3.specCounts, nth_map_list _ _ hj, hTe j hj]; rfl
    unfold IsDeviance at k5
    unfold LikelihoodRatio
    cases hst : m.stat with
    | chi2 =>
      simp only [hst] at k5
      cases hbk : m.data.obs.back with
      | none =>
        obtain ⟨-, w2, w3⟩ := h3.noBack hbk
        have c1 : nth m.fitData.netCounts j = nth m.fitData.specCounts j := by show nth m.obj.st.netCounts j = nth m.obj.st.specCounts j; rw [w2]
        have c2 : nth m.fitData.netErrors j = Real.sqrt (∑ i ∈ T j, (colsOf m.data.obs.spec).v i) := by
          show nth m.obj.st.netErrors j = _
          rw [w3, h3.specErrors, nth_map_list _ _ hj, hTe j hj]; rfl
        simp only [Option.map_none]
        rw [k5, c1, c2, n1]
      | some y =>
        obtain ⟨-, w2, w3⟩ := h3.withBack y hbk
        have c1 : nth m.fitData.netCounts j = ∑ i ∈ T j, (colsOf m.data.obs.spec).c i -
            onOffRatio (colsOf m.data.obs.spec) (colsOf y) (T j) * ∑ i ∈ T j, (colsOf y).c i := by
          show nth m.obj.st.netCounts j = _
          rw [w2, nth_map_list _ _ hj, hrat y j hj, hTe j hj]; rfl
        have c2 : nth m.fitData.netErrors j = Real.sqrt (∑ i ∈ T j, (colsOf m.data.obs.spec).v i +
            onOffRatio (colsOf m.data.obs.spec) (colsOf y) (T j) ^ 2 * ∑ i ∈ T j, (colsOf y).v i) := by
          show nth m.obj.st.netErrors j = _
          rw [w3, nth_map_list _ _ hj, hrat y j hj, hTe j hj]; rfl
        simp only [Option.map_some]
        rw [k5, c1, c2]
    | cstat =>
      simp only [hst] at k5
      have hbn : m.data.obs.back = none := by
        rw [hst] at had
        exact hbackN had.2
      simp only [hbn, Option.map_none]
      rw [k5, n1]
    | pstat =>
      cases hfb : m.fitData.back with
      | none => simp [hst, hfb] at k5
      | some fb =>
        obtain ⟨y, hy, hv⟩ := hbackE fb hfb
        obtain ⟨v1, v2, v3⟩ := hv j hj
        simp only [hst, hfb] at k5
        simp only [hy, Option.map_some]
        rw [k5, n1, v1, v3]
    | pgstat =>
      cases hfb : m.fitData.back with
      | none => simp [hst, hfb] at k5
      | some fb =>
        obtain ⟨y, hy, hv⟩ := hbackE fb hfb
        obtain ⟨v1, v2, v3⟩ := hv j hj
        simp only [hst, hfb] at k5
        simp only [hy, Option.map_some]
        rw [n1, v1, v2, v3] at k5
        exact k5
    | wstat =>
      cases hfb : m.fitData.back with
      | none => simp [hst, hfb] at k5
      | some fb =>
        obtain ⟨y, hy, hv⟩ := hbackE fb hfb
        obtain ⟨v1, v2, v3⟩ := hv j hj
        simp only [hst, hfb] at k5
        simp only [hy, Option.map_some]
        rw [n1, v1, v3] at k5
        exact k5

/-- **C97 (a fit).**  For any number of data sets loaded from files and used in any way, with accepted statistics: the total statistic is the sum of the deviances of all
channels of all data sets, each explained by the contents of the files. -/
theorem C97_fit (int : Path → Option Int) (fs : Files) (ms : List Member)
    (h : ∀ m ∈ ms, loadData int fs m.args = .ok m.data ∧ checkStat m.fitData m.stat = .ok ()) :
    ∃ sites Ds, fitSites (ms.map fun m => (m.stat, m.fitData, m.flux)) = .ok sites ∧ List.Forall₂ (fun m D => m.Explained int fs D) ms Ds ∧
      (deviance (getLoglike sites)).point = Ds ∧ (deviance (getLoglike sites)).group = Ds.map List.sum ∧
      (deviance (getLoglike sites)).total = (Ds.map List.sum).sum := by
  have key : ∃ sites, fitSites (ms.map fun m => (m.stat, m.fitData, m.flux)) = .ok sites ∧
      List.Forall₂ (fun m D => m.Explained int fs D) ms (sites.map fun s => s.loglike.map (-2 * ·)) := by
    induction ms with
    | nil => exact ⟨[], rfl, .nil⟩
    | cons m ms ih =>
      obtain ⟨sites, h1, h2⟩ := ih fun x hx => h x (by simp [hx])
      obtain ⟨s, k1, k2⟩ := C97_member int fs m (h m (by simp)).1 (h m (by simp)).2
      refine ⟨s :: sites, ?_, ?_⟩
      · unfold fitSites at h1 ⊢
        rw [List.map_cons, List.mapM_cons]
        simp only [k1, h1, bind, Except.bind, pure, Except.pure]
      · rw [List.map_cons]
        exact .cons k2 h2
  obtain ⟨sites, h1, h2⟩ := key
  obtain ⟨t1, t2, t3, -⟩ := C25_total_deviance sites
  exact ⟨sites, _, h1, h2, t3, by rw [t2, t3], by rw [t1, t2, t3]⟩

end Elisa.Infer
