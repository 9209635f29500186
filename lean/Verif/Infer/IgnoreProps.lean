import Verif.Infer.EndToEndSpec
import Verif.Data.GroupExamples

/-!
# C142: data outside the chosen energy ranges never influence a fit
-/

namespace Elisa.Infer.Ignore

open Elisa Elisa.Grouping Elisa.Data

/-- Channel `i` is good and lies inside one of the energy ranges `R`. -/
def Counted (o : Obs) (R : List (ℝ × ℝ)) (i : ℕ) : Prop :=
  o.good[i]? = some true ∧ ∃ r ∈ R, r.1 ≤ o.resp.emin.getD i 0 ∧ o.resp.emax.getD i 0 ≤ r.2

/-- Two spectra of the same kind, exposure and stored grouping flags hold the same counts, errors and scales in the channels `used`. -/
structure SameOn (used : ℕ → Prop) (s t : Spectrum) : Prop where
  poisson : s.poisson = t.poisson
  exposure : s.exposure = t.exposure
  grouping : s.grouping = t.grouping
  counts : ∀ i, used i → at0 s.counts i = at0 t.counts i
  errors : ∀ i, used i → at0 s.errors i = at0 t.errors i
  area : ∀ i, used i → at0 s.areaScale i = at0 t.areaScale i
  back : ∀ i, used i → at0 s.backScale i = at0 t.backScale i

/-- Two observations hold the same data (spectrum, background, response columns, resolution) in the good channels inside the ranges `R`; the same channels are
good, the channel energies are the same, and the spectra are both net spectra or both not (needed without a background only).  Nothing is said about the other channels. -/
structure SameInside (R : List (ℝ × ℝ)) (o p : Obs) : Prop where
  good : o.good = p.good
  spec : SameOn (Counted o R) o.spec p.spec
  net : o.back = none → o.spec.net = p.spec.net
  noBack : o.back = none ↔ p.back = none
  back : ∀ b c, o.back = some b → p.back = some c → SameOn (Counted o R) b c
  emin : o.resp.emin = p.resp.emin
  emax : o.resp.emax = p.resp.emax
  rows : o.resp.matrix.length = p.resp.matrix.length
  cols : ∀ r i, Counted o R i → at0 (o.resp.matrix.getD r []) i = at0 (p.resp.matrix.getD r []) i
  fwhm : ∀ i, Counted o R i → o.resp.fwhm[i]? = p.resp.fwhm[i]?

theorem counted_of_noticed {o : Obs} {R : List (ℝ × ℝ)} {a b i : ℕ} (h : o.Noticed R a b) (hi : i ∈ o.goodSet a b) : Counted o R i := by
  obtain ⟨⟨r, hr, h1⟩, -⟩ := h
  have hm := hi
  unfold Obs.goodSet goodIn at hm
  simp only [Finset.mem_filter, Finset.mem_Ico] at hm
  exact ⟨mem_goodSet hi, r, hr, h1 i hm.1.1 hm.1.2⟩

theorem SameOn.mono {u v : ℕ → Prop} {s t : Spectrum} (h : SameOn u s t) (huv : ∀ i, v i → u i) : SameOn v s t :=
  ⟨h.poisson, h.exposure, h.grouping, fun i hi => h.counts i (huv i hi), fun i hi => h.errors i (huv i hi), fun i hi => h.area i (huv i hi),
    fun i hi => h.back i (huv i hi)⟩

theorem SameInside.mono {R Q : List (ℝ × ℝ)} {o p : Obs} (h : SameInside R o p) (hs : ∀ r ∈ Q, r ∈ R) : SameInside Q o p := by
  have hu : ∀ i, Counted o Q i → Counted o R i := fun i ⟨h1, r, hr, h2⟩ => ⟨h1, r, hs r hr, h2⟩
  exact ⟨h.good, h.spec.mono hu, h.net, h.noBack, fun b c hb hc => (h.back b c hb hc).mono hu, h.emin, h.emax, h.rows,
    fun r i hi => h.cols r i (hu i hi), fun i hi => h.fwhm i (hu i hi)⟩

theorem ratio_congr {u : ℕ → Prop} {o p : Obs} {b c : Spectrum} {S : Finset ℕ} (h : SameOn u o.spec p.spec) (hbc : SameOn u b c)
    (m : ∀ i ∈ S, u i) : p.ratioOf c S = o.ratioOf b S := by
  unfold Obs.ratioOf
  rw [h.exposure, hbc.exposure]
  rw [effScale_congr (fun i hi => h.counts i (m i hi)) (fun i hi => h.area i (m i hi)),
    effScale_congr (fun i hi => h.counts i (m i hi)) (fun i hi => h.back i (m i hi)),
    effScale_congr (fun i hi => hbc.counts i (m i hi)) (fun i hi => hbc.area i (m i hi)),
    effScale_congr (fun i hi => hbc.counts i (m i hi)) (fun i hi => hbc.back i (m i hi))]

/-- **C142 (grouping flags).**  Two observations that hold the same data in the good channels inside the energy ranges hand the same arrays to a fit, for all
grouping flags, whatever the channels outside the ranges contain. -/
theorem C142_flags_partial (o p : Obs) (n : ℕ) (ho : o.Legal n) (hp : p.Legal n) (erange : List (ℝ × ℝ)) (h : SameInside erange o p)
    (flags : List Int) : o.setGrouping erange (some flags) = p.setGrouping erange (some flags) := by
  by_cases hf : flags.length = n
  swap
  · rw [(C14_restore_and_reject o n ho erange).2 flags hf,
      (C14_restore_and_reject p n hp erange).2 flags hf]
  obtain ⟨st, h1, h2, h3⟩ := setGrouping_describes ho erange flags hf
  obtain ⟨st', h1', h2', h3'⟩ := setGrouping_describes hp erange flags hf
  rw [h1, h1']
  congr 1
  have hL : noticedList o erange (fixFirst flags) = noticedList p erange (fixFirst flags) := by
    unfold noticedList
    congr 1
    funext e
    unfold noticedB
    rw [h.emin, h.emax, h.good]
  rw [← hL] at h3'
  have hu : ∀ e ∈ noticedList o erange (fixFirst flags), ∀ i ∈ o.goodSet e.1 e.2, Counted o erange i :=
    fun e he i hi => counted_of_noticed
      ((((noticedList_spec ho erange (by rw [fixFirst_length, hf]) (fixFirst_start (by rw [hf]; exact ho.spec.pos))).2 e.1 e.2).1 he).2) hi
  generalize noticedList o erange (fixFirst flags) = L at h3 h3' hu
  have hgs : ∀ a b, p.goodSet a b = o.goodSet a b := by intro a b; unfold Obs.goodSet; rw [h.good]
  have e1 : st.specCounts = st'.specCounts := by
    rw [h3.specCounts, h3'.specCounts]
    apply List.map_congr_left; intro e he
    rw [hgs]
    exact Finset.sum_congr rfl fun i hi => h.spec.counts i (hu e he i hi)
  have e2 : st.specErrors = st'.specErrors := by
    rw [h3.specErrors, h3'.specErrors]
    apply List.map_congr_left; intro e he
    rw [hgs]
    congr 1
    exact Finset.sum_congr rfl fun i hi => by rw [h.spec.errors i (hu e he i hi)]
  have e3 : st.areaScale = st'.areaScale := by
    rw [h3.areaScale, h3'.areaScale]
    apply List.map_congr_left; intro e he
    rw [hgs]
    have : (o.spec.net && o.back.isNone) = (p.spec.net && p.back.isNone) := by
      cases hb : o.back with
      | none => rw [h.net hb, h.noBack.1 hb]
      | some b =>
        have : p.back ≠ none := fun hh => by have := h.noBack.2 hh; rw [hb] at this; simp at this
        cases hc : p.back with
        | none => exact absurd hc this
        | some c => simp
    rw [this]
    exact effScale_congr (fun i hi => h.spec.counts i (hu e he i hi))
      (fun i hi => h.spec.area i (hu e he i hi))
  have e4 : st.matrix = st'.matrix := by
    rw [h3.matrix, h3'.matrix]
    apply List.ext_getElem
    · simp [h.rows]
    · intro r hr1 hr2
      simp only [List.length_map] at hr1 hr2
      simp only [List.getElem_map]
      apply List.map_congr_left; intro e he
      rw [hgs]
      apply Finset.sum_congr rfl
      intro i hi
      have := h.cols r i (hu e he i hi)
      simpa [List.getD, hr1, hr2] using this
  have e5 : st.emin = st'.emin := by rw [h3.emin, h3'.emin, h.emin]
  have e6 : st.emax = st'.emax := by rw [h3.emax, h3'.emax, h.emax]
  have e7 : st.back = st'.back ∧ st.netCounts = st'.netCounts ∧ st.netErrors = st'.netErrors := by
    cases hb : o.back with
    | none =>
      obtain ⟨x1, x2, x3⟩ := h3.noBack hb
      obtain ⟨y1, y2, y3⟩ := h3'.noBack (h.noBack.1 hb)
      rw [x1, x2, x3, y1, y2, y3]; exact ⟨rfl, e1, e2⟩
    | some b =>
      cases hc : p.back with
      | none => rw [h.noBack.2 hc] at hb; simp at hb
      | some c =>
        have hbc := h.back b c hb hc
        obtain ⟨x1, x2, x3⟩ := h3.withBack b hb
        obtain ⟨y1, y2, y3⟩ := h3'.withBack c hc
        have r1 : ∀ e ∈ L, p.ratioOf c (o.goodSet e.1 e.2) = o.ratioOf b (o.goodSet e.1 e.2) :=
          fun e he => ratio_congr h.spec hbc (hu e he)
        have s1 : ∀ e ∈ L, ∑ i ∈ o.goodSet e.1 e.2, at0 c.counts i = ∑ i ∈ o.goodSet e.1 e.2, at0 b.counts i :=
          fun e he => Finset.sum_congr rfl fun i hi => (hbc.counts i (hu e he i hi)).symm
        have s2 : ∀ e ∈ L, ∑ i ∈ o.goodSet e.1 e.2, at0 c.errors i ^ 2 = ∑ i ∈ o.goodSet e.1 e.2, at0 b.errors i ^ 2 :=
          fun e he => Finset.sum_congr rfl fun i hi => by rw [hbc.errors i (hu e he i hi)]
        have s3 : ∀ e ∈ L, ∑ i ∈ o.goodSet e.1 e.2, at0 p.spec.counts i = ∑ i ∈ o.goodSet e.1 e.2, at0 o.spec.counts i :=
          fun e he => Finset.sum_congr rfl fun i hi => (h.spec.counts i (hu e he i hi)).symm
        have s4 : ∀ e ∈ L, ∑ i ∈ o.goodSet e.1 e.2, at0 p.spec.errors i ^ 2 = ∑ i ∈ o.goodSet e.1 e.2, at0 o.spec.errors i ^ 2 :=
          fun e he => Finset.sum_congr rfl fun i hi => by rw [h.spec.errors i (hu e he i hi)]
        rw [x1, x2, x3, y1, y2, y3]
        simp only [hgs]
        refine ⟨?_, ?_, ?_⟩
        · congr 2
          · exact List.map_congr_left fun e he => (s1 e he).symm
          · congr 1
            · exact List.map_congr_left fun e he => by rw [s2 e he]
            · exact List.map_congr_left fun e he => (r1 e he).symm
        · exact List.map_congr_left fun e he => by rw [r1 e he, s1 e he, s3 e he]
        · exact List.map_congr_left fun e he => by rw [r1 e he, s2 e he, s4 e he]
  have hne : ∀ l l' m m' : List ℝ, l.length = L.length → l'.length = L.length → m = m' →
      m.length = L.length → (∀ (j : Nat) (x lo hi : ℝ), m[j]? = some x → st.emin[j]? = some lo →
        st.emax[j]? = some hi → l[j]? = some (x / ((hi - lo) * o.spec.exposure))) →
      (∀ (j : Nat) (x lo hi : ℝ), m'[j]? = some x → st'.emin[j]? = some lo →
        st'.emax[j]? = some hi → l'[j]? = some (x / ((hi - lo) * p.spec.exposure))) → l = l' := by
    intro l l' m m' hl hl' hm hml hx hy
    subst hm
    apply List.ext_getElem?
    intro j
    by_cases hj : j < L.length
    · have q1 : m[j]? = some m[j] := List.getElem?_eq_getElem (by rw [hml]; exact hj)
      have l1 : st.emin.length = L.length := by rw [h3.emin]; simp
      have l2 : st.emax.length = L.length := by rw [h3.emax]; simp
      have q2 : st.emin[j]? = some st.emin[j] := List.getElem?_eq_getElem (by rw [l1]; exact hj)
      have q3 : st.emax[j]? = some st.emax[j] := List.getElem?_eq_getElem (by rw [l2]; exact hj)
      rw [hx j _ _ _ q1 q2 q3, hy j _ _ _ q1 (by rw [← e5]; exact q2) (by rw [← e6]; exact q3),
        h.spec.exposure]
    · rw [List.getElem?_eq_none (by omega), List.getElem?_eq_none (by omega)]
  have hnl : st.netCounts.length = L.length ∧ st.netErrors.length = L.length := by
    cases hb : o.back with
    | none =>
      obtain ⟨x1, x2, x3⟩ := h3.noBack hb
      rw [x2, x3, h3.specCounts, h3.specErrors]; simp
    | some b =>
      obtain ⟨x1, x2, x3⟩ := h3.withBack b hb
      rw [x2, x3]; simp
  have e8 : st.ce = st'.ce := hne _ _ _ _ h3.ce.1 h3'.ce.1 e7.2.1 hnl.1 h3.ce.2 h3'.ce.2
  have e9 : st.ceErrors = st'.ceErrors :=
    hne _ _ _ _ h3.ceErrors.1 h3'.ceErrors.1 e7.2.2 hnl.2 h3.ceErrors.2 h3'.ceErrors.2
  have e0 : st.grouping = st'.grouping := by rw [h2, h2']
  cases st; cases st'
  simp only [ObsState.mk.injEq]
  exact ⟨e0, e5, e6, e4, e1, e2, e3, e7.1, e7.2.1, e7.2.2, e8, e9⟩

/-! ### Adaptive grouping -/

theorem applyMask_same {α : Type} (mask : List Bool) (xs ys : List α) (h : ∀ i : ℕ, mask[i]? = some true → xs[i]? = ys[i]?)  :
    applyMask mask xs = applyMask mask ys := by
  induction mask generalizing xs ys with
  | nil => simp [applyMask]
  | cons b mask ih =>
    have h0 := h 0
    have hs := fun (i : ℕ) (hi : mask[i]? = some true) => h (i + 1) (by simpa using hi)
    cases xs with
    | nil =>
      cases ys with
      | nil => rfl
      | cons y ys =>
        have ht := ih [] ys (fun i hi => by simpa using hs i hi)
        cases b with
        | true => simp at h0
        | false => simpa [applyMask] using ht
    | cons x xs =>
      cases ys with
      | nil =>
        have ht := ih xs [] (fun i hi => by simpa using hs i hi)
        cases b with
        | true => simp at h0
        | false => simpa [applyMask] using ht
      | cons y ys =>
        have ht := ih xs ys (fun i hi => by simpa using hs i hi)
        cases b with
        | true =>
          have hxy : x = y := by simpa using h0
          subst hxy
          simpa [applyMask] using ht
        | false => simpa [applyMask] using ht

theorem describe_same {S : List (Finset ℕ)} {c d s t : ℕ → ℝ} (h1 : ∀ T ∈ S, ∀ i ∈ T, c i = d i) (h2 : ∀ T ∈ S, ∀ i ∈ T, s i = t i) :
    describe false c s S = describe false d t S := by
  unfold describe
  congr 1
  · exact List.map_congr_left fun T hT => effScale_congr (h1 T hT) (h2 T hT)
  · exact List.map_congr_left fun T hT => Finset.sum_congr rfl (h1 T hT)
  · exact List.map_congr_left fun T hT => Finset.sum_congr rfl fun i hi => by rw [h1 T hT i hi, h2 T hT i hi]
  · exact List.map_congr_left fun T hT => Finset.sum_congr rfl fun i hi => by rw [h2 T hT i hi]
  · exact List.map_congr_left fun T hT => Finset.sum_congr rfl (h2 T hT)

/-- Two segments hand the same numbers to the method. -/
structure SegEq (back opt : Bool) (d d' : Segment) : Prop where
  spec : d.specCounts = d'.specCounts
  net : d.netCounts = d'.netCounts
  netErr : d.netErrors = d'.netErrors
  backs : back = true → d.backCounts = d'.backCounts ∧ d.backErrors = d'.backErrors ∧ d.ratio = d'.ratio
  bins : opt = true → d.fwhm = d'.fwhm ∧ d.countsOpt = d'.countsOpt

theorem segEq_of {o p : Obs} {u : ℕ → Prop} {S : List (Finset ℕ)} {d d' : Segment} (hS : ∀ T ∈ S, ∀ i ∈ T, u i) (hspec : SameOn u o.spec p.spec)
    (hno : o.back = none ↔ p.back = none) (hback : ∀ b c, o.back = some b → p.back = some c → SameOn u b c)
    (hd : Segment.Of o d S) (hd' : Segment.Of p d' S) (opt : Bool) (ho : opt = true → d.fwhm = d'.fwhm ∧ d.countsOpt = d'.countsOpt) :
    SegEq o.back.isSome opt d d' := by
  have c1 : ∀ T ∈ S, ∑ i ∈ T, at0 p.spec.counts i = ∑ i ∈ T, at0 o.spec.counts i :=
    fun T hT => Finset.sum_congr rfl fun i hi => (hspec.counts i (hS T hT i hi)).symm
  have c2 : ∀ T ∈ S, ∑ i ∈ T, at0 p.spec.errors i ^ 2 = ∑ i ∈ T, at0 o.spec.errors i ^ 2 :=
    fun T hT => Finset.sum_congr rfl fun i hi => by rw [hspec.errors i (hS T hT i hi)]
  have e1 : d.specCounts = d'.specCounts := by
    rw [hd.spec, hd'.spec]
    exact List.map_congr_left fun T hT => (c1 T hT).symm
  cases hb : o.back with
  | none =>
    obtain ⟨x1, x2⟩ := hd.noBack hb
    obtain ⟨y1, y2⟩ := hd'.noBack (hno.1 hb)
    refine ⟨e1, ?_, ?_, by simp, ho⟩
    · rw [x1, y1]
      exact List.map_congr_left fun T hT => (c1 T hT).symm
    · rw [x2, y2]
      exact List.map_congr_left fun T hT => by rw [c2 T hT]
  | some b =>
    cases hc : p.back with
    | none => rw [hno.2 hc] at hb; simp at hb
    | some c =>
      have hbc := hback b c hb hc
      obtain ⟨x1, x2, x3, x4, x5⟩ := hd.back b hb
      obtain ⟨y1, y2, y3, y4, y5⟩ := hd'.back c hc
      have r1 : ∀ T ∈ S, p.ratioOf c T = o.ratioOf b T := fun T hT => ratio_congr hspec hbc (hS T hT)
      have s1 : ∀ T ∈ S, ∑ i ∈ T, at0 c.counts i = ∑ i ∈ T, at0 b.counts i :=
        fun T hT => Finset.sum_congr rfl fun i hi => (hbc.counts i (hS T hT i hi)).symm
      have s2 : ∀ T ∈ S, ∑ i ∈ T, at0 c.errors i ^ 2 = ∑ i ∈ T, at0 b.errors i ^ 2 :=
        fun T hT => Finset.sum_congr rfl fun i hi => by rw [hbc.errors i (hS T hT i hi)]
      refine ⟨e1, ?_, ?_, fun _ => ⟨?_, ?_, ?_⟩, ho⟩
      · rw [x3, y3]
        exact List.map_congr_left fun T hT => by rw [r1 T hT, s1 T hT, c1 T hT]
      · rw [x4, y4]
        exact List.map_congr_left fun T hT => by rw [r1 T hT, s2 T hT, c2 T hT]
      · rw [x1, y1]
        exact List.map_congr_left fun T hT => (s1 T hT).symm
      · rw [x2, y2]
        exact List.map_congr_left fun T hT => by rw [s2 T hT]
      · rw [x5, y5, hspec.exposure, hbc.exposure]
        congr 1
        · exact describe_same (fun T hT i hi => hspec.counts i (hS T hT i hi)) fun T hT i hi => hspec.area i (hS T hT i hi)
        · exact describe_same (fun T hT i hi => hspec.counts i (hS T hT i hi)) fun T hT i hi => hspec.back i (hS T hT i hi)
        · exact describe_same (fun T hT i hi => hbc.counts i (hS T hT i hi)) fun T hT i hi => hbc.area i (hS T hT i hi)
        · exact describe_same (fun T hT i hi => hbc.counts i (hS T hT i hi)) fun T hT i hi => hbc.back i (hS T hT i hi)

theorem poissonBack {R : List (ℝ × ℝ)} {o p : Obs} (h : SameInside R o p) : p.back.map (·.poisson) = o.back.map (·.poisson) := by
  cases hb : o.back with
  | none => rw [h.noBack.1 hb]
  | some b =>
    cases hc : p.back with
    | none => rw [h.noBack.2 hc] at hb; simp at hb
    | some c => simp [(h.back b c hb hc).poisson]

theorem methodOk_same {R : List (ℝ × ℝ)} {o p : Obs} (h : SameInside R o p) (m : Method) (scale : Option ℝ) (preserve : Bool) :
    p.methodOk m scale preserve = o.methodOk m scale preserve := by
  have e1 : p.back.any (·.poisson) = o.back.any (·.poisson) := by
    have := poissonBack h
    cases hb : o.back <;> cases hc : p.back <;> simp_all
  have e2 : p.back.isSome = o.back.isSome := by
    have := poissonBack h
    cases hb : o.back <;> cases hc : p.back <;> simp_all
  unfold Obs.methodOk
  rw [e1, e2]

theorem runMethod_same {R : List (ℝ × ℝ)} {o p : Obs} (h : SameInside R o p) {m : Method} {sc : Option ℝ} {pr : Bool}
    (hok : o.methodOk m sc pr = true) {d d' : Segment} (hs : SegEq o.back.isSome m.isOpt d d') (scale : ℝ) :
    p.runMethod m scale d' = o.runMethod m scale d := by
  have ep := h.spec.poisson
  have eb := poissonBack h
  unfold Obs.runMethod
  simp only [← ep, eb, ← hs.spec, ← hs.net, ← hs.netErr]
  cases hb : o.back with
  | none =>
    cases m <;> simp only [Option.map_none] <;> first
      | rfl
      | (simp [Obs.methodOk, hb] at hok; done)
      | (obtain ⟨b1, b2⟩ := hs.bins rfl; rw [b1, b2]; try (cases o.spec.poisson <;> rfl))
      | (cases o.spec.poisson <;> rfl)
  | some b =>
    obtain ⟨b1, b2, b3⟩ := hs.backs (by simp [hb])
    cases m <;> simp only [← b1, ← b2, ← b3] <;> first
      | rfl
      | (obtain ⟨c1, c2⟩ := hs.bins rfl; rw [c1, c2])

theorem countsOpt_same {R : List (ℝ × ℝ)} {o p : Obs} {n : ℕ} (ho : o.Legal n) (hp : p.Legal n) (h : SameInside R o p) (i : ℕ)
    (hi : Counted o R i) : o.countsOpt[i]? = p.countsOpt[i]? := by
  have hn : i < n := by
    have := hi.1
    rw [← ho.good]
    by_contra hge
    rw [List.getElem?_eq_none (by omega)] at this
    simp at this
  have q1 := h.spec.counts i hi
  unfold at0 at q1
  unfold Obs.countsOpt
  cases hb : o.back with
  | none =>
    rw [h.noBack.1 hb]
    dsimp only
    have l1 : i < o.spec.counts.length := by rw [ho.spec.counts]; exact hn
    have l2 : i < p.spec.counts.length := by rw [hp.spec.counts]; exact hn
    simp only [List.getD, List.getElem?_eq_getElem l1, List.getElem?_eq_getElem l2, Option.getD_some] at q1 ⊢
    rw [q1]
  | some b =>
    cases hc : p.back with
    | none => rw [h.noBack.2 hc] at hb; simp at hb
    | some c =>
      have hbc := h.back b c hb hc
      have q2 := h.spec.area i hi
      have q3 := h.spec.back i hi
      have q4 := hbc.counts i hi
      have q5 := hbc.area i hi
      have q6 := hbc.back i hi
      unfold at0 at q2 q3 q4 q5 q6
      dsimp only
      rw [List.getElem?_map, List.getElem?_map, ho.spec.counts, hp.spec.counts]
      simp only [List.getElem?_range hn, Option.map_some]
      rw [q1, q2, q3, q4, q5, q6, h.spec.exposure, hbc.exposure]

theorem mem_mask {α : Type} (f : α → Bool) (xs : List α) {β : Type} (g : α → β) {y : β} (h : y ∈ applyMask (xs.map f) (xs.map g)) :
    ∃ x ∈ xs, f x = true ∧ y = g x := by
  unfold applyMask at h
  rw [List.mem_filterMap] at h
  obtain ⟨⟨b, z⟩, hz, hb⟩ := h
  cases b with
  | false => simp at hb
  | true =>
    simp only [if_true, Option.some.injEq] at hb
    subst hb
    rw [List.zip_map', List.mem_map] at hz
    obtain ⟨x, hx, hxe⟩ := hz
    simp only [Prod.mk.injEq] at hxe
    exact ⟨x, hx, hxe.1, hxe.2.symm⟩

theorem groupIdx_ones (n : ℕ) : groupIdx (List.replicate n 1) = List.range n := by
  unfold groupIdx flatnonzero
  simp only [List.map_replicate, List.length_replicate]
  rw [List.filter_eq_self]
  intro k hk
  simp [List.mem_range.1 hk]

theorem segResults_same {R : List (ℝ × ℝ)} {o p : Obs} (h : SameInside R o p) {m : Method} {sc : Option ℝ} {pr : Bool}
    (hok : o.methodOk m sc pr = true) {d d' : Segment} (scale : ℝ) (rows : List (List Bool))
    (hs : ∀ row ∈ rows, SegEq o.back.isSome m.isOpt (d.slice row) (d'.slice row)) :
    p.segResults m scale d' rows = o.segResults m scale d rows := by
  induction rows with
  | nil => rfl
  | cons row rows ih =>
    unfold Obs.segResults
    rw [runMethod_same h hok (hs row (by simp)), ih fun r hr => hs r (by simp [hr])]

/-- **C142 (adaptive grouping).**  Two observations that hold the same data in the good channels inside the energy ranges are grouped alike by every method and
scale: the same flags, the same success report and the same arrays for the fit, or the same exception, whatever the channels outside the ranges contain. -/
theorem C142_group_partial (o p : Obs) (n : ℕ) (ho : o.Legal n) (hp : p.Legal n) (erange : List (ℝ × ℝ)) (h : SameInside erange o p)
    (m : Method) (scale : Option ℝ) (preserve : Bool) : o.group erange m scale preserve = p.group erange m scale preserve := by
  have hpre : p.preFlags preserve = o.preFlags preserve := by
    unfold Obs.preFlags
    rw [h.spec.grouping, ho.spec.counts, hp.spec.counts]
  obtain ⟨hpl, h0⟩ := preFlags_ok ho preserve
  have hrow : p.maskRows erange (o.preFlags preserve) = .ok (erange.map (rowOf o (o.preFlags preserve))) := by
    rw [maskRows_eq hp erange hpl]
    congr 1
    apply List.map_congr_left
    intro r _
    unfold rowOf
    apply List.map_congr_left
    intro e _
    unfold noticedB
    rw [h.emin, h.emax, h.good]
  obtain ⟨d, hd, hof, hfw, hco⟩ := preData_of ho hpl
  obtain ⟨d', hd', hof', hfw', hco'⟩ := preData_of hp hpl
  unfold Obs.group
  rw [methodOk_same h, hpre]
  by_cases hok : o.methodOk m scale preserve = true
  swap
  · simp only [hok, Bool.not_false]
    rfl
  · simp only [hok, Bool.not_true, Bool.false_eq_true, if_false, maskRows_eq ho erange hpl, hrow, hd, hd', bind, Except.bind, pure, Except.pure]
    have hset : ∀ r ∈ erange, ∀ T ∈ applyMask (rowOf o (o.preFlags preserve) r) (groupSets (o.preFlags preserve) (some o.good)), ∀ i ∈ T, Counted o erange i := by
      intro r hr T hT i hi
      rw [groupSets_eq] at hT
      unfold rowOf at hT
      obtain ⟨e, he, h1, rfl⟩ := mem_mask _ _ _ hT
      obtain ⟨b1, b2⟩ := grp_bounds h0 he
      obtain ⟨⟨r', hr', k1⟩, k2⟩ := (noticedB_iff ho [r] b1 (by rw [← hpl]; exact b2)).1 h1
      refine counted_of_noticed (a := e.1) (b := e.2) ⟨⟨r', ?_, k1⟩, k2⟩ hi
      rw [List.mem_singleton] at hr'
      rw [hr']
      exact hr
    have hseg : ∀ row ∈ erange.map (rowOf o (o.preFlags preserve)), SegEq o.back.isSome m.isOpt (d.slice row) (d'.slice row) := by
      intro row hrw
      obtain ⟨r, hr, rfl⟩ := List.mem_map.1 hrw
      have hof'' := slice_of hof' (rowOf o (o.preFlags preserve) r)
      rw [← h.good] at hof''
      refine segEq_of (hset r hr) h.spec h.noBack h.back (slice_of hof _) hof'' m.isOpt ?_
      intro hopt
      have hpf : preserve = false := by
        cases preserve with
        | false => rfl
        | true => simp [Obs.methodOk, hopt] at hok
      subst hpf
      have hmask : ∀ i : ℕ, (rowOf o (o.preFlags false) r)[i]? = some true → Counted o erange i := by
        intro i hi
        have hfull : o.preFlags false = List.replicate n 1 := by simp [Obs.preFlags, ho.spec.counts]
        unfold rowOf at hi
        rw [List.getElem?_map] at hi
        rw [hfull, grp_full (by rw [groupIdx_ones, List.length_range, List.length_replicate]), List.length_replicate, List.getElem?_map] at hi
        by_cases hn : i < n
        · rw [List.getElem?_range hn] at hi
          simp only [Option.map_some, Option.some.injEq] at hi
          obtain ⟨⟨r', hr', k1⟩, j, j1, j2, k2⟩ := (noticedB_iff ho [r] (e := (i, i + 1)) (by simp) hn).1 hi
          have hj : j = i := by
            have h1 : i ≤ j := j1
            have h2 : j < i + 1 := j2
            omega
          subst hj
          rw [List.mem_singleton] at hr'
          subst hr'
          exact ⟨k2, r', hr, k1 j le_rfl (Nat.lt_succ_self j)⟩
        · rw [List.getElem?_eq_none (by simpa using hn)] at hi
          simp at hi
      constructor
      · simp only [Segment.slice, hfw, hfw']
        exact applyMask_same _ _ _ fun i hi => h.fwhm i (hmask i hi)
      · simp only [Segment.slice, hco, hco']
        exact applyMask_same _ _ _ fun i hi => countsOpt_same ho hp h i (hmask i hi)
    rw [segResults_same h hok _ _ hseg]
    cases hseg : o.segResults m (scale.getD 0) d (erange.map (rowOf o (o.preFlags preserve))) with
    | error e => rfl
    | ok results =>
      simp only
      cases assemble (anyRow (erange.map (rowOf o (o.preFlags preserve))) (groupIdx (o.preFlags preserve)).length) (nChanOf (o.preFlags preserve)) (results.map Prod.fst).flatten with
      | error e => rfl
      | ok final =>
        simp only
        rw [C142_flags_partial o p n ho hp erange h final]


/-! ### A whole session -/

/-- The energy ranges a call asks for. -/
def asked : Use → List (ℝ × ℝ)
  | .setErange r => r
  | _ => []

theorem useStep_same {o p : Obs} {n : ℕ} (ho : o.Legal n) (hp : p.Legal n) {R : List (ℝ × ℝ)} (h : SameInside R o p) (x : ObsObj)
    (hx : ∀ r ∈ x.erange, r ∈ R) (u : Use) (hu : ∀ r ∈ asked u, r ∈ R) :
    useStep o x u = useStep p x u ∧ ∀ r ∈ (useStep o x u).erange, r ∈ R := by
  have key : ∀ (y : ObsObj) (f : Option (List Int)), (∀ r ∈ y.erange, r ∈ R) →
      y.setGrouping o f = y.setGrouping p f ∧ (y.setGrouping o f).1.erange = y.erange := by
    intro y f hy
    have he : o.setGrouping y.erange f = p.setGrouping y.erange f := by
      cases f with
      | some f => exact C142_flags_partial o p n ho hp y.erange (h.mono hy) f
      | none =>
        have h1 : o.setGrouping y.erange none = o.setGrouping y.erange (some o.spec.grouping) := rfl
        have h2 : p.setGrouping y.erange none = p.setGrouping y.erange (some p.spec.grouping) := rfl
        rw [h1, h2, ← h.spec.grouping]
        exact C142_flags_partial o p n ho hp y.erange (h.mono hy) _
    unfold ObsObj.setGrouping
    rw [← he]
    refine ⟨rfl, ?_⟩
    cases o.setGrouping y.erange f <;> rfl
  cases u with
  | setErange r =>
    simp only [useStep, ObsObj.setErange]
    cases hc : checkErange r with
    | error e => exact ⟨rfl, hx⟩
    | ok s =>
      have hs : ∀ q ∈ s, q ∈ R := fun q hq => hu q (((checkErange_spec r).2.2 s hc).1.mem_iff.1 hq)
      obtain ⟨k1, k2⟩ := key { x with erange := s } (some x.st.grouping) hs
      dsimp only
      rw [← k1]
      refine ⟨rfl, ?_⟩
      rw [k2]
      exact hs
  | setGrouping f =>
    obtain ⟨k1, k2⟩ := key x f hx
    simp only [useStep]
    rw [← k1, k2]
    exact ⟨rfl, hx⟩
  | group m sc pr =>
    simp only [useStep]
    rw [← C142_group_partial o p n ho hp x.erange (h.mono hx) m sc pr]
    refine ⟨rfl, ?_⟩
    cases o.group x.erange m sc pr with
    | error e => exact hx
    | ok r => exact hx

/-- **C142 (session).**  Whatever energy ranges, grouping flags and grouping methods a user asks for, in any order and number: if two data sets hold the same data in
the good channels inside some range that was ever asked for (`R` holds at least the initial ranges and those of every call), then the same calls are
accepted, and the fit receives the same data from both.  Missing with respect to C142: the net setting left open without a background, see `C142_net_refuted`. -/
theorem C142_session_partial (o p : Obs) (n : ℕ) (ho : o.Legal n) (hp : p.Legal n) (R : List (ℝ × ℝ)) (h : SameInside R o p)
    (start : List (ℝ × ℝ)) (hstart : ∀ r ∈ start, r ∈ R) (us : List Use) (hus : ∀ u ∈ us, ∀ r ∈ asked u, r ∈ R) :
    ObsObj.new o start = ObsObj.new p start ∧
      ∀ x, ObsObj.new o start = .ok x → useAll o x us = useAll p x us ∧
        FitData.ofObs o (useAll o x us).st = FitData.ofObs p (useAll p x us).st := by
  have hnew : ObsObj.new o start = ObsObj.new p start := by
    unfold ObsObj.new
    cases hc : checkErange start with
    | error e => rfl
    | ok s =>
      have hs : ∀ q ∈ s, q ∈ R := fun q hq => hstart q (((checkErange_spec start).2.2 s hc).1.mem_iff.1 hq)
      simp only [bind, Except.bind]
      rw [← h.spec.grouping, C142_flags_partial o p n ho hp s (h.mono hs)]
  refine ⟨hnew, ?_⟩
  intro x hx
  have hxr : ∀ r ∈ x.erange, r ∈ R := by
    unfold ObsObj.new at hx
    cases hc : checkErange start with
    | error e => rw [hc] at hx; simp [bind, Except.bind] at hx
    | ok s =>
      rw [hc] at hx
      simp only [bind, Except.bind] at hx
      cases hg : o.setGrouping s (some o.spec.grouping) with
      | error e => rw [hg] at hx; simp at hx
      | ok st =>
        rw [hg] at hx
        simp only [pure, Except.pure, Except.ok.injEq] at hx
        subst hx
        exact fun q hq => hstart q (((checkErange_spec start).2.2 s hc).1.mem_iff.1 hq)
  have hall : ∀ (us : List Use) (x : ObsObj), (∀ r ∈ x.erange, r ∈ R) → (∀ u ∈ us, ∀ r ∈ asked u, r ∈ R) → useAll o x us = useAll p x us := by
    intro us
    induction us with
    | nil => intro x _ _; rfl
    | cons u us ih =>
      intro x hx hus
      obtain ⟨k1, k2⟩ := useStep_same ho hp h x hx u (hus u (by simp))
      have := ih (useStep o x u) k2 fun v hv => hus v (by simp [hv])
      unfold useAll at this ⊢
      simp only [List.foldl_cons]
      rw [this, k1]
  have hfin := hall us x hxr hus
  refine ⟨hfin, ?_⟩
  rw [← hfin]
  unfold FitData.ofObs
  rw [h.spec.exposure, h.spec.poisson, poissonBack h]

/-- **C142 (statistic).**  The statistic of a data set (every channel's contribution), for every statistic and every model, is the same for both data sets after the
same calls. -/
theorem C142_statistic_partial (o p : Obs) (n : ℕ) (ho : o.Legal n) (hp : p.Legal n) (R : List (ℝ × ℝ)) (h : SameInside R o p)
    (start : List (ℝ × ℝ)) (hstart : ∀ r ∈ start, r ∈ R) (us : List Use) (hus : ∀ u ∈ us, ∀ r ∈ asked u, r ∈ R)
    (x : ObsObj) (hx : ObsObj.new o start = .ok x) (stat : Stat) (flux : List ℝ) :
    ObsObj.new p start = .ok x ∧ likelihood stat (FitData.ofObs o (useAll o x us).st) flux = likelihood stat (FitData.ofObs p (useAll p x us).st) flux := by
  obtain ⟨h1, h2⟩ := C142_session_partial o p n ho hp R h start hstart us hus
  rw [(h2 x hx).2]
  exact ⟨h1 ▸ hx, rfl⟩


/-! ### Examples -/

/-- three good channels between 1 and 4 keV; the last one holds `c` counts -/
noncomputable def wObs (c : ℝ) (net : Option Bool) (back : Option Spectrum) : Obs :=
  { spec := { exSpec c net with quality := [0, 0, 0] }, back := back, resp := exResp, good := [true, true, true] }

theorem wSpec_legal (c : ℝ) (net : Option Bool) : Spectrum.Legal { exSpec c net with quality := [0, 0, 0] } 3 := by
  constructor <;> try (first | rfl | norm_num [exSpec])
  · intro i h1 h2
    rcases lt3 h2 with rfl | rfl | rfl <;> norm_num [exSpec]
  · intro i h1 h2
    rcases lt3 h2 with rfl | rfl | rfl <;> norm_num [exSpec]

theorem quality_ne (i : ℕ) : ([0, 0, 0] : List Int)[i]? ≠ some 1 := by
  match i with
  | 0 => simp
  | 1 => simp
  | 2 => simp
  | i + 3 => simp

theorem wObs_legal (c : ℝ) (net : Option Bool) (back : Option Spectrum)
    (hb : ∀ b, back = some b → ∃ d m, b = { exSpec d m with quality := [0, 0, 0] }) : (wObs c net back).Legal 3 := by
  constructor
  · exact wSpec_legal c net
  · intro b h
    obtain ⟨d, m, rfl⟩ := hb b h
    exact wSpec_legal _ _
  · exact exResp_legal
  · rfl
  · exact fun i _ => quality_ne i
  · intro b h i _
    obtain ⟨d, m, rfl⟩ := hb b h
    exact quality_ne i
  · exact ⟨0, rfl⟩

/-- the channels between 1 and 3 keV are the first two -/
theorem wCounted {c : ℝ} {net : Option Bool} {back : Option Spectrum} {i : ℕ} (h : Counted (wObs c net back) [(1, 3)] i) : i = 0 ∨ i = 1 := by
  obtain ⟨h1, r, hr, h2, h3⟩ := h
  rw [List.mem_singleton] at hr
  subst hr
  match i, h1, h3 with
  | 0, _, _ => simp
  | 1, _, _ => simp
  | 2, _, h3 => norm_num [wObs, exResp] at h3
  | i + 3, h1, _ => simp [wObs] at h1

theorem wSpec_same (c d : ℝ) (net net' : Option Bool) (u : ℕ → Prop) (hu : ∀ i, u i → i = 0 ∨ i = 1) :
    SameOn u { exSpec c net with quality := [0, 0, 0] } { exSpec d net' with quality := [0, 0, 0] } := by
  refine ⟨rfl, rfl, rfl, ?_, fun _ _ => rfl, fun _ _ => rfl, fun _ _ => rfl⟩
  intro i hi
  rcases hu i hi with rfl | rfl <;> rfl

theorem wSame (c d e f : ℝ) : SameInside [(1, 3)] (wObs c none (some { exSpec e none with quality := [0, 0, 0] }))
    (wObs d none (some { exSpec f none with quality := [0, 0, 0] })) := by
  refine ⟨rfl, wSpec_same c d none none _ fun i => wCounted, by simp [wObs], by simp [wObs], ?_, rfl, rfl, rfl, fun _ _ _ => rfl, fun _ _ => rfl⟩
  intro b b' h1 h2
  simp only [wObs, Option.some.injEq] at h1 h2
  subst h1 h2
  exact wSpec_same e f none none _ fun i => wCounted

/-- counts of 7 and -100 above 3 keV, and another background there: not seen by a fit between 1 and 3 keV, after grouping to two counts per group, undoing it and merging
the first two channels by hand -/
example (stat : Stat) (flux : List ℝ) (x : ObsObj)
    (hx : ObsObj.new (wObs 7 none (some { exSpec 3 none with quality := [0, 0, 0] })) [(1, 3)] = .ok x) :=
  C142_statistic_partial _ (wObs (-100) none (some { exSpec 50 none with quality := [0, 0, 0] })) 3
    (wObs_legal _ _ _ fun _ h => ⟨3, none, (Option.some.inj h).symm⟩) (wObs_legal _ _ _ fun _ h => ⟨50, none, (Option.some.inj h).symm⟩) [(1, 3)] (wSame _ _ _ _)
    [(1, 3)] (fun _ h => h) [.group .min (some 2) false, .setGrouping none, .setGrouping (some [1, -1, 1])]
    (by intro u hu; fin_cases hu <;> simp [asked]) x hx stat flux

/-- the same two data sets, one call at a time -/
example := C142_flags_partial _ _ 3 (wObs_legal 7 none (some { exSpec 3 none with quality := [0, 0, 0] }) fun _ h => ⟨3, none, (Option.some.inj h).symm⟩)
  (wObs_legal (-100) none (some { exSpec 50 none with quality := [0, 0, 0] }) fun _ h => ⟨50, none, (Option.some.inj h).symm⟩) [(1, 3)] (wSame _ _ _ _) [1, -1, 1]
example := C142_group_partial _ _ 3 (wObs_legal 7 none (some { exSpec 3 none with quality := [0, 0, 0] }) fun _ h => ⟨3, none, (Option.some.inj h).symm⟩)
  (wObs_legal (-100) none (some { exSpec 50 none with quality := [0, 0, 0] }) fun _ h => ⟨50, none, (Option.some.inj h).symm⟩) [(1, 3)] (wSame _ _ _ _)
  .optsig (some 3) false

/-- such an `x` exists -/
example : ∃ x, ObsObj.new (wObs 7 none (some { exSpec 3 none with quality := [0, 0, 0] })) [(1, 3)] = .ok x := by
  obtain ⟨s, hs⟩ := (checkErange_spec [((1 : ℝ), (3 : ℝ))]).1.2 ⟨by simp, by simp, by simp⟩
  obtain ⟨st, hst, -⟩ := setGrouping_ok (wObs_legal 7 none (some { exSpec 3 none with quality := [0, 0, 0] }) fun _ h => ⟨3, none, (Option.some.inj h).symm⟩) s
    [1, -1, 1] rfl
  have hst' : (wObs 7 none (some { exSpec 3 none with quality := [0, 0, 0] })).setGrouping s (some (wObs 7 none (some { exSpec 3 none with quality := [0, 0, 0] })).spec.grouping) = .ok st := hst
  refine ⟨⟨s, st⟩, ?_⟩
  unfold ObsObj.new
  rw [hs]
  simp only [bind, Except.bind, hst']
  rfl

theorem wArea (c : ℝ) (st : ObsState) (h : (wObs c none none).setGrouping [(1, 3)] (some [1, -1, 1]) = .ok st) :
    st.areaScale = [if c < 0 then 3 / 2 else 4 / 3] := by
  have ho := wObs_legal c none none (by simp)
  obtain ⟨st', h1, h2, h3⟩ := setGrouping_describes ho [(1, 3)] [1, -1, 1] rfl
  rw [h] at h1
  obtain rfl : st = st' := by simpa using h1
  have hs := noticedList_spec ho [(1, 3)] (flags := fixFirst [1, -1, 1]) rfl (fixFirst_start (by simp))
  have h0 : IsStart (fixFirst [1, -1, 1]) 0 := fixFirst_start (by simp)
  have hL : noticedList (wObs c none none) [(1, 3)] (fixFirst [1, -1, 1]) = [(0, 2)] := by
    apply nil_or_single hs.1 (by omega)
    rintro ⟨a, b⟩
    rw [hs.2 a b, ← mem_edges_groupIdx h0]
    have : edges (groupIdx (fixFirst [1, -1, 1])) (fixFirst [1, -1, 1]).length = [(0, 2), (2, 3)] := by
      decide
    rw [this]
    constructor
    · rintro ⟨h1, h2⟩
      simp only [List.mem_cons, List.not_mem_nil, or_false] at h1
      rcases h1 with h1 | h1
      · exact h1
      · exfalso
        simp only [Prod.mk.injEq] at h1
        obtain ⟨rfl, rfl⟩ := h1
        obtain ⟨⟨r, hr, hi⟩, -⟩ := h2
        rw [List.mem_singleton] at hr
        subst hr
        have := (hi 2 (by omega) (by omega)).2
        norm_num [wObs, exResp] at this
    · intro h1
      refine ⟨by rw [h1]; simp, ?_⟩
      simp only [Prod.mk.injEq] at h1
      obtain ⟨rfl, rfl⟩ := h1
      refine ⟨⟨(1, 3), by simp, ?_⟩, 0, by omega, by omega, rfl⟩
      intro i _ hi
      have : i = 0 ∨ i = 1 := by omega
      rcases this with rfl | rfl <;> norm_num [wObs, exResp]
  rw [h3.areaScale, hL]
  have hS : (wObs c none none).goodSet 0 2 = {0, 1} := by
    change goodIn (some [true, true, true]) 0 2 = {0, 1}
    ext i
    unfold goodIn
    simp only [Finset.mem_filter, Finset.mem_Ico, Option.some.injEq, forall_eq', Finset.mem_insert,
      Finset.mem_singleton]
    constructor
    · rintro ⟨h, _⟩; omega
    · rintro (rfl | rfl) <;> simp
  simp only [List.map_cons, List.map_nil, hS]
  by_cases hc : c < 0
  · simp [hc, wObs, exSpec, Spectrum.net, effScale, at0]; norm_num
  · have : ¬ (2⁻¹ + 1 : ℝ) = 0 := by norm_num
    have h' : ¬ (1 + 2⁻¹ : ℝ) = 0 := by norm_num
    simp [hc, wObs, exSpec, Spectrum.net, effScale, at0, h', not_lt.2]; norm_num

/-- **C142 is false** for a spectrum without background whose net setting is left open (the default): a negative count in a good channel *outside* the energy range
makes the whole spectrum a net spectrum and changes the area scale, hence the expected counts, inside the range. -/
theorem C142_net_refuted : ∃ (o p : Obs) (n : ℕ) (erange : List (ℝ × ℝ)) (flags : List Int), o.Legal n ∧ p.Legal n ∧
    o.good = p.good ∧ o.resp = p.resp ∧ o.back = none ∧ p.back = none ∧ o.spec.netOpt = none ∧ p.spec.netOpt = none ∧
    SameOn (Counted o erange) o.spec p.spec ∧ (∀ i, Counted o erange i ↔ Counted p erange i) ∧
    ∃ s t, o.setGrouping erange (some flags) = .ok s ∧ p.setGrouping erange (some flags) = .ok t ∧ s.areaScale ≠ t.areaScale := by
  have l1 := wObs_legal (-1) none none (by simp)
  have l2 := wObs_legal 0 none none (by simp)
  obtain ⟨s, h1, _⟩ := setGrouping_describes l1 [(1, 3)] [1, -1, 1] rfl
  obtain ⟨t, h2, _⟩ := setGrouping_describes l2 [(1, 3)] [1, -1, 1] rfl
  refine ⟨wObs (-1) none none, wObs 0 none none, 3, [(1, 3)], [1, -1, 1], l1, l2, rfl, rfl, rfl, rfl, rfl, rfl,
    wSpec_same _ _ none none _ fun i => wCounted, fun i => Iff.rfl, s, t, h1, h2, ?_⟩
  rw [wArea _ s h1, wArea _ t h2]
  norm_num

end Elisa.Infer.Ignore
