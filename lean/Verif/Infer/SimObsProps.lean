import Verif.Infer.SimObs
import Verif.Infer.FitProps
import Verif.Data.OgipSpec

/-!
# Property C86: simulated observations

Vocabulary: `SimInput.backMean`, `SimInput.scaling`, `SimInput.expected` below; `foldAt` (folding through the response, `Data/ObsProps.lean`);
`Obs.Legal`, `Obs.NoticedGroups`, `Obs.goodSet` (`Data/ObsSpec.lean`); `FitData` is what a fit works with.
-/

namespace Elisa.Infer

open Elisa Elisa.Data Elisa.Grouping

/-! ## Specification -/

/-- The mean background counts in channel `c`: those given, negative ones replaced by zero when a Poisson variate depends on them. -/
noncomputable def SimInput.backMean (i : SimInput) (c : Nat) : ℝ :=
  match i.backCounts, i.backPoisson with
  | some B, some p => if i.specPoisson = true ∨ p = true then max (at0 B c) 0 else at0 B c
  | _, _ => 0

/-- Ratio of exposure, area and background scale of the source to those of the background in channel `c`. -/
noncomputable def SimInput.scaling (i : SimInput) (c : Nat) : ℝ :=
  match i.backExposure with
  | some t => (i.specExposure * scalarOrAt i.specArea c * scalarOrAt i.specBack c)
      / (t * scalarOrAt i.backArea c * scalarOrAt i.backBack c)
  | none => 0

/-- The expected counts of the source spectrum in channel `c`: folded model times exposure and area scale, plus the scaled background. -/
noncomputable def SimInput.expected (i : SimInput) (v : List ℝ) (c : Nat) : ℝ :=
  foldAt v i.matrix c * i.specExposure * scalarOrAt i.specArea c + i.scaling c * i.backMean c

/-! ## Lemmas -/

theorem expected_noBack {i : SimInput} (h : i.backCounts = none) (v : List ℝ) (c : Nat) :
    i.expected v c = foldAt v i.matrix c * i.specExposure * scalarOrAt i.specArea c := by
  simp [SimInput.expected, SimInput.backMean, h]

theorem list_ext_at0 {n : Nat} {xs : List ℝ} {f : Nat → ℝ} (hl : xs.length = n) (h : ∀ c < n, at0 xs c = f c) :
    xs = (List.range n).map f := by
  apply List.ext_getElem
  · simp [hl]
  · intro k h1 h2
    have := h k (by omega)
    simpa [at0, List.getD, h1] using this

theorem at0_clipBack (b : Bool) (xs : List ℝ) (c : Nat) :
    at0 (clipBack b xs) c = if b = true then max (at0 xs c) 0 else at0 xs c := by
  unfold clipBack at0
  cases b
  · simp
  · simp only [if_true, List.getD, List.getElem?_map]
    cases xs[c]? <;> simp

/-- everything that has to go well -/
theorem simulate_ok {σ : Type} {g : SimRng σ} {s : σ} {isAdd : Bool} {v : List ℝ} {i : SimInput} {r : Obs × ObsObj}
    (h : simulate g s isAdd v i = .ok r) :
    isAdd = true ∧ i.scalesOk i.emin.length = true ∧
    ∃ resp e back b sp, Response.init i.egrid i.emin i.emax i.nchan i.ncol i.matrix i.fwhm = .ok resp ∧
      i.checkSpecErrors i.emin.length = .ok e ∧ i.checkBack i.emin.length = .ok back ∧ simBack g s i back = .ok b ∧
      simSpectrum g b.2 i i.specPoisson ((List.range i.emin.length).map (i.mean back (foldAt v i.matrix))) e i.specExposure
        i.specArea i.specBack = .ok sp ∧
      Obs.make sp.1 b.1 resp i.ignoreBad = .ok r.1 ∧
      ObsObj.new r.1 [(i.emin.headD 0, i.emax.getLastD 0)] = .ok r.2 := by
  unfold simulate at h
  cases hadd : isAdd with
  | false => rw [hadd] at h; simp at h
  | true =>
    rw [hadd] at h
    simp only [Bool.not_true, Bool.false_eq_true, if_false] at h
    obtain ⟨resp, h1, h⟩ := bind_ok.1 h
    obtain ⟨e, h2, h⟩ := bind_ok.1 h
    obtain ⟨back, h3, h⟩ := bind_ok.1 h
    cases hs : i.scalesOk i.emin.length with
    | false => rw [hs] at h; simp at h
    | true =>
      rw [hs] at h
      simp only [Bool.not_true, Bool.false_eq_true, if_false] at h
      obtain ⟨b, h4, h⟩ := bind_ok.1 h
      obtain ⟨sp, h5, h⟩ := bind_ok.1 h
      obtain ⟨o, h6, h⟩ := bind_ok.1 h
      obtain ⟨x, h7, h⟩ := bind_ok.1 h
      simp only [pure, Except.pure, Except.ok.injEq] at h
      subst h
      exact ⟨rfl, rfl, resp, e, back, b, sp, h1, h2, h3, h4, h5, h6, h7⟩

/-- `sp` is a simulated spectrum of `n` channels, with the mean `mean c` in the channels for which it is `finite`; the generator goes from
state `s` to `s'`. -/
structure Drawn {σ : Type} (g : SimRng σ) (s s' : σ) (n : Nat) (poisson : Bool) (finite : Nat → Prop) (mean : Nat → ℝ)
    (errors : Option (List ℝ)) (exposure : ℝ) (area back : ℝ ⊕ List ℝ) (i : SimInput) (sp : Spectrum) : Prop where
  /-- Poisson spectra: the counts are the Poisson variates with the given means -/
  poissonCounts : poisson = true → (∀ c < n, finite c ∧ 0 ≤ mean c) ∧ (sp.counts, s') = g.poisson s ((List.range n).map mean)
  /-- other spectra: the counts are the normal variates with the given means and errors -/
  normalCounts : poisson = false → ∃ m e, errors = some e ∧ m.length = n ∧
    (∀ c < n, finite c → m[c]? = some (some (mean c))) ∧ (sp.counts, s') = g.normal s m e
  /-- … and the errors their square roots -/
  poissonErrors : poisson = true → sp.errors = sp.counts.map Real.sqrt
  /-- other spectra: the errors are the given ones -/
  normalErrors : poisson = false → ∃ e, errors = some e ∧ sp.errors = e
  poisson_eq : sp.poisson = poisson
  exposure_eq : sp.exposure = exposure
  /-- the scales are those given, except that zero counts as one in channels not flagged bad -/
  scales : ∀ c < n, at0 sp.areaScale c = givenScale (some area) (sp.quality.getD c 0) c ∧
    at0 sp.backScale c = givenScale (some back) (sp.quality.getD c 0) c
  quality : sp.quality = i.quality.getD (List.replicate n 0)
  grouping : ∃ g0 gs, i.grouping.getD (List.replicate n 1) = g0 :: gs ∧ sp.grouping = (if g0 = -1 then 1 else g0) :: gs
  net : sp.netOpt = none
  legal : sp.Legal n

theorem givenScale_expand {n c : Nat} (x : ℝ ⊕ List ℝ) (q : Int) (hc : c < n) :
    givenScale (some (.inr (expand n x))) q c = givenScale (some x) q c := by
  have h := at0_expand x hc
  cases x with
  | inl a => simp [givenScale, expand, hc, List.getD]
  | inr xs => simp [givenScale, expand]

theorem simSpectrum_drawn {σ : Type} {g : SimRng σ} {s : σ} {i : SimInput} {n : Nat} {poisson : Bool} {m : Nat → Option ℝ}
    {mean : Nat → ℝ} {errors : List ℝ} {ea : Option (List ℝ)} {exposure : ℝ} {area back : ℝ ⊕ List ℝ} {r : Spectrum × σ}
    (hn : ∀ s l, (g.poisson s l).1.length = l.length) (hn' : ∀ s l e, (g.normal s l e).1.length = l.length)
    (he : poisson = false → ea = some errors)
    {finite : Nat → Prop}
    (hm : ∀ c < n, (finite c → m c = some (mean c)) ∧ (¬ finite c → m c = none))
    (h : simSpectrum g s i poisson ((List.range n).map m) errors exposure area back = .ok r) :
    Drawn g s r.2 n poisson finite mean ea exposure area back i r.1 := by
  unfold simSpectrum at h
  obtain ⟨d, h1, h⟩ := bind_ok.1 h
  obtain ⟨sp, h2, h⟩ := bind_ok.1 h
  simp only [pure, Except.pure, Except.ok.injEq] at h
  subst h
  obtain ⟨l1, l2, l3, l4, l5, l6⟩ := (C21_spectrum _).2 sp h2
  obtain ⟨w1, w2, w3, _, _, w4⟩ := C21_spectrum_scales _ sp h2
  simp only [List.length_map, List.length_range] at l1 l2 l3 l4 l5 l6 w1 w2 w3 w4
  have hacc := ((C21_spectrum _).1).1 ⟨sp, h2⟩
  have hd : d.1.length = n ∧ (poisson = true → (∀ c < n, finite c ∧ 0 ≤ mean c) ∧
      d = g.poisson s ((List.range n).map mean)) ∧ (poisson = false → d = g.normal s ((List.range n).map m) errors) := by
    cases hp : poisson with
    | true =>
      rw [hp] at h1
      simp only [drawCounts, if_true, drawPoisson] at h1
      split_ifs at h1 with hall
      have hall' : ∀ c < n, finite c ∧ 0 ≤ mean c := by
        intro c hc
        rw [List.all_eq_true] at hall
        have := hall (m c) (List.mem_map.2 ⟨c, List.mem_range.2 hc, rfl⟩)
        rw [decide_eq_true_iff] at this
        obtain ⟨y, y1, y2⟩ := this
        by_cases hf : finite c
        · rw [(hm c hc).1 hf, Option.some.injEq] at y1
          exact ⟨hf, by rw [y1]; exact y2⟩
        · rw [(hm c hc).2 hf] at y1; simp at y1
      have hl : ((List.range n).map m).map (fun x => x.getD 0) = (List.range n).map mean := by
        rw [List.map_map]
        apply List.map_congr_left
        intro c hc
        simp [(hm c (List.mem_range.1 hc)).1 (hall' c (List.mem_range.1 hc)).1]
      simp only [Except.ok.injEq] at h1
      rw [hl] at h1
      subst h1
      exact ⟨by rw [hn]; simp, fun _ => ⟨hall', rfl⟩, by simp⟩
    | false =>
      rw [hp] at h1
      simp only [Bool.false_eq_true, if_false, drawCounts, drawNormal] at h1
      split_ifs at h1 with hneg
      simp only [Except.ok.injEq] at h1
      subst h1
      exact ⟨by rw [hn']; simp, by simp, fun _ => rfl⟩
  obtain ⟨d1, d2, d3⟩ := hd
  refine ⟨?_, ?_, ?_, ?_, l4, l3, ?_, ?_, ?_, w2, ?_⟩
  · intro hp
    refine ⟨(d2 hp).1, ?_⟩
    rw [l2, ← (d2 hp).2]
  · intro hp
    refine ⟨(List.range n).map m, errors, he hp, by simp, ?_, ?_⟩
    · intro c hc hf
      simp [hc, (hm c hc).1 hf]
    · rw [l2, ← d3 hp]
  · intro hp
    rw [l5 hp, l2]
    simp [hp]
  · intro hp
    refine ⟨errors, he hp, ?_⟩
    have hl : errors.length = n := by
      have := hacc.errors
      simpa [hp, d1] using this
    have hsl : sp.errors.length = n := by rw [l1.errors, d1]
    apply List.ext_getElem
    · rw [hl, hsl]
    · intro k k1 k2
      have hk := l6 hp k (by simpa [d1] using (by omega : k < n))
      have hnn : 0 ≤ errors[k] := by
        have := hacc.errorsNonneg
        simp only [hp, Bool.false_eq_true, if_false] at this
        exact this _ (List.getElem_mem k2)
      have a1 : at0 sp.errors k = sp.errors[k] := by simp [at0, List.getD, k1]
      have a2 : at0 errors k = errors[k] := by simp [at0, List.getD, k2]
      simp only [hp, Bool.false_eq_true, if_false, scalarOrAt, zero_mul, ne_eq, OfNat.ofNat_ne_zero, not_false_eq_true,
        zero_pow, add_zero, a1, a2] at hk
      rw [hk, Real.sqrt_sq hnn]
  · intro c hc
    obtain ⟨v1, v2⟩ := w4 c (by rw [d1]; exact hc)
    rw [givenScale_expand _ _ hc] at v1 v2
    exact ⟨v1, v2⟩
  · rw [w1, d1]
  · rw [d1] at w3; exact w3
  · rw [d1] at l1; exact l1

/-- The generator returns as many variates as asked for. -/
structure SimRng.Sized {σ : Type} (g : SimRng σ) : Prop where
  poisson : ∀ s l, (g.poisson s l).1.length = l.length
  normal : ∀ s l e, (g.normal s l e).1.length = l.length

theorem checkBack_none {i : SimInput} {n : Nat} (h : i.checkBack n = .ok none) : i.backCounts = none ∧ i.backExposure = none := by
  unfold SimInput.checkBack at h
  split_ifs at h with h0
  · exact ⟨h0.1, h0.2.1⟩
  · split at h
    · split_ifs at h
      rename_i b t p _ _ _ _
      cases he : i.checkBackErrors n p with
      | error e => rw [he] at h; simp [Except.map] at h
      | ok e => rw [he] at h; simp [Except.map] at h
    · simp at h

theorem checkBack_some {i : SimInput} {n : Nat} {b : SimBack} (h : i.checkBack n = .ok (some b)) :
    ∃ B, i.backCounts = some B ∧ B.length = n ∧ i.backExposure = some b.exposure ∧ i.backPoisson = some b.poisson ∧
      b.counts = clipBack (i.specPoisson || b.poisson) B ∧ (b.poisson = false → i.backErrors = some b.errors) := by
  unfold SimInput.checkBack at h
  split_ifs at h with h0
  · simp at h
  split at h
  · rename_i B t p hB ht hp
    split_ifs at h with hl
    cases he : i.checkBackErrors n p with
    | error e => rw [he] at h; simp [Except.map] at h
    | ok e =>
      rw [he] at h
      simp only [Except.map, Except.ok.injEq, Option.some.injEq] at h
      subst h
      refine ⟨B, hB, by simpa using hl, ht, hp, rfl, ?_⟩
      intro hpf
      simp only at hpf
      unfold SimInput.checkBackErrors at he
      rw [hpf] at he
      simp only [Bool.false_eq_true, if_false] at he
      split at he
      · simp at he
      · rename_i e' he'
        split_ifs at he
        simp only [Except.ok.injEq] at he
        rw [he', he]
  · simp at h

theorem clipBack_length (b : Bool) (xs : List ℝ) : (clipBack b xs).length = xs.length := by
  unfold clipBack; split <;> simp

theorem backMean_eq {i : SimInput} {n : Nat} {b : SimBack} (h : i.checkBack n = .ok (some b)) (c : Nat) :
    at0 b.counts c = i.backMean c := by
  obtain ⟨B, h1, _, _, h2, h3, _⟩ := checkBack_some h
  rw [h3, at0_clipBack]
  simp [SimInput.backMean, h1, h2, Bool.or_eq_true]

/-- The scaled background is defined: its denominator is not zero. -/
def SimInput.Finite (i : SimInput) (c : Nat) : Prop :=
  ∀ t, i.backExposure = some t → t * scalarOrAt i.backArea c * scalarOrAt i.backBack c ≠ 0

theorem mean_spec {i : SimInput} {back : Option SimBack} (h : i.checkBack i.emin.length = .ok back) (v : List ℝ) (c : Nat)
    (hc : c < i.emin.length) :
    (i.Finite c → i.mean back (foldAt v i.matrix) c = some (i.expected v c)) ∧
      (¬ i.Finite c → i.mean back (foldAt v i.matrix) c = none) := by
  cases back with
  | none =>
    obtain ⟨h1, h2⟩ := checkBack_none h
    have hf : i.Finite c := by intro t ht; rw [h2] at ht; simp at ht
    refine ⟨fun _ => ?_, fun hn => absurd hf hn⟩
    simp only [SimInput.mean, at0_expand _ hc]
    rw [expected_noBack h1]
  | some b =>
    obtain ⟨B, h1, h2, h3, h4, h5, h6⟩ := checkBack_some h
    have hfin : i.Finite c ↔ b.exposure * scalarOrAt i.backArea c * scalarOrAt i.backBack c ≠ 0 := by
      unfold SimInput.Finite
      rw [h3]; simp
    simp only [SimInput.mean, at0_expand _ hc]
    constructor
    · intro hf
      rw [if_neg (hfin.1 hf), backMean_eq h]
      simp only [SimInput.expected, SimInput.scaling, h3]
    · intro hf
      have := not_not.1 (fun hx => hf (hfin.2 hx))
      rw [if_pos this]

/-! ## C86 -/

/-- **C86 (what is simulated).**  If `simulate` returns an observation, it has the given energies and response; if a background is given, the
background spectrum is drawn first, with the given means, and the source spectrum is then drawn with mean folded model x exposure x
area scale plus scaled background; without background there is none.  The energy range spans the channels, quality and grouping are those
given. -/
theorem C86_simulate {σ : Type} (g : SimRng σ) (hg : g.Sized) (s : σ) (isAdd : Bool) (v : List ℝ) (i : SimInput)
    (hrect : ∀ row ∈ i.matrix, row.length = i.ncol) (r : Obs × ObsObj) (h : simulate g s isAdd v i = .ok r) :
    let n := i.emin.length
    isAdd = true ∧ r.1.Legal n ∧ r.2.Consistent r.1 n ∧ r.1.resp.emin = i.emin ∧ r.1.resp.emax = i.emax ∧ r.1.resp.matrix = i.matrix ∧
    r.2.erange = [(i.emin.headD 0, i.emax.getLastD 0)] ∧ r.2.st.grouping = r.1.spec.grouping ∧
    ∃ s₁ s₂,
      (i.backCounts = none → r.1.back = none ∧ s₁ = s) ∧
      (∀ B, i.backCounts = some B → B.length = n ∧ ∃ b T p, r.1.back = some b ∧ i.backExposure = some T ∧ i.backPoisson = some p ∧
        Drawn g s s₁ n p (fun _ => True) i.backMean i.backErrors T i.backArea i.backBack i b) ∧
      Drawn g s₁ s₂ n i.specPoisson i.Finite (i.expected v) i.specErrors i.specExposure i.specArea i.specBack i r.1.spec := by
  intro n
  obtain ⟨h0, _, resp, e, back, b, sp, h1, h2, h3, h4, h5, h6, h7⟩ := simulate_ok h
  obtain ⟨q1, q2, q3, q4⟩ := (C21_response i.egrid i.emin i.emax i.nchan i.ncol i.matrix i.fwhm hrect).2 resp h1
  obtain ⟨k1, k2, _⟩ := (C21_response i.egrid i.emin i.emax i.nchan i.ncol i.matrix i.fwhm hrect).1.1 ⟨resp, h1⟩
  have hne : i.specPoisson = false → i.specErrors = some e := by
    intro hp
    unfold SimInput.checkSpecErrors at h2
    rw [hp] at h2
    simp only [Bool.false_eq_true, if_false] at h2
    split at h2
    · simp at h2
    · rename_i e' he'
      split_ifs at h2
      simp only [Except.ok.injEq] at h2
      rw [he', h2]
  have hdraw := simSpectrum_drawn (ea := i.specErrors) (mean := i.expected v) (finite := i.Finite) hg.poisson hg.normal hne
    (fun c hc => mean_spec h3 v c hc) h5
  have hb : (i.backCounts = none → b.1 = none ∧ b.2 = s) ∧ (∀ B, i.backCounts = some B → B.length = n ∧
      ∃ bb T p, b.1 = some bb ∧ i.backExposure = some T ∧ i.backPoisson = some p ∧
        Drawn g s b.2 n p (fun _ => True) i.backMean i.backErrors T i.backArea i.backBack i bb) := by
    cases back with
    | none =>
      obtain ⟨e1, e2⟩ := checkBack_none h3
      simp only [simBack, Except.ok.injEq] at h4
      subst h4
      refine ⟨fun _ => ⟨rfl, rfl⟩, fun B hB => ?_⟩
      rw [e1] at hB; simp at hB
    | some bk =>
      obtain ⟨B, e1, e2, e3, e4, e5, e6⟩ := checkBack_some h3
      simp only [simBack] at h4
      obtain ⟨rr, h41, h42⟩ := bind_ok.1 h4
      simp only [pure, Except.pure, Except.ok.injEq] at h42
      subst h42
      refine ⟨fun hB => (by rw [e1] at hB; simp at hB), fun B' hB' => ?_⟩
      rw [e1, Option.some.injEq] at hB'
      subst hB'
      refine ⟨e2, rr.1, bk.exposure, bk.poisson, rfl, e3, e4, ?_⟩
      have hlen : bk.counts.length = n := by rw [e5, clipBack_length, e2]
      have hcs : bk.counts.map some = (List.range n).map fun c => some (i.backMean c) := by
        have := list_ext_at0 (n := n) (f := i.backMean) hlen (fun c _ => backMean_eq h3 c)
        rw [this, List.map_map]; rfl
      rw [hcs] at h41
      exact simSpectrum_drawn (ea := i.backErrors) (mean := i.backMean) (finite := fun _ => True) hg.poisson hg.normal
        (fun hp => e6 hp) (fun c _ => ⟨fun _ => rfl, fun hf => absurd trivial hf⟩) h41
  have hnm : n = i.nchan := k1
  have hbl : ∀ bb, b.1 = some bb → ∃ k, bb.Legal k := by
    intro bb hbb
    cases hB : i.backCounts with
    | none => rw [(hb.1 hB).1] at hbb; simp at hbb
    | some B =>
      obtain ⟨_, bb', _, _, e1, _, _, hd⟩ := hb.2 B hB
      rw [e1, Option.some.injEq] at hbb
      subst hbb
      exact ⟨n, hd.legal⟩
  have hl := (C21_observation sp.1 b.1 resp i.ignoreBad n i.nchan hdraw.legal q1 hbl).2 r.1 h6
  obtain ⟨l1, l2, l3, l4, _⟩ := hl
  have hc := (C15_history r.1 n l1 [(i.emin.headD 0, i.emax.getLastD 0)] []).2 r.2 h7
  have hrange : r.2.erange = [(i.emin.headD 0, i.emax.getLastD 0)] ∧ r.2.st.grouping = r.1.spec.grouping := by
    unfold ObsObj.new at h7
    obtain ⟨ss, g1, g2⟩ := bind_ok.1 h7
    obtain ⟨st, g3, g4⟩ := bind_ok.1 g2
    simp only [pure, Except.pure, Except.ok.injEq] at g4
    rw [← g4]
    obtain ⟨hperm, _⟩ := (checkErange_spec _).2.2 ss g1
    refine ⟨List.perm_singleton.1 hperm, ?_⟩
    obtain ⟨st', z1, z2, _⟩ := setGrouping_ok l1 ss r.1.spec.grouping l1.spec.grouping
    rw [g3] at z1
    obtain rfl := Except.ok.inj z1
    rw [z2]
    exact fixFirst_of_start (by obtain ⟨f, f1, f2⟩ := l1.spec.firstStart; exact ⟨f, f1, f2⟩)
  refine ⟨h0, l1, hc, by rw [l4, q2], by rw [l4, q3], by rw [l4, q4], hrange.1, hrange.2, b.2, sp.2, ?_, ?_, ?_⟩
  · rw [l3]; exact hb.1
  · rw [l3]; exact hb.2
  · rw [l2]; exact hdraw

/-! ### The simulation is what the fit expects -/

theorem effScale_const {net : Bool} {S : Finset Nat} {c s : Nat → ℝ} {a : ℝ} (hS : S.Nonempty) (ha : 0 < a)
    (hs : ∀ k ∈ S, s k = a) : effScale net S c s = a := by
  have hcard : (0 : ℝ) < S.card := by exact_mod_cast hS.card_pos
  have e1 : ∑ k ∈ S, s k = S.card * a := by
    rw [Finset.sum_congr rfl hs, Finset.sum_const, nsmul_eq_mul]
  have e2 : ∑ k ∈ S, c k / s k = (∑ k ∈ S, c k) / a := by
    rw [div_eq_mul_inv, Finset.sum_mul]; exact Finset.sum_congr rfl fun k hk => by rw [hs k hk, div_eq_mul_inv]
  have e3 : ∑ k ∈ S, 1 / s k = S.card / a := by
    rw [Finset.sum_congr rfl fun k hk => by rw [hs k hk], Finset.sum_const, nsmul_eq_mul]; ring
  unfold effScale
  rw [e1, e2, e3]
  split_ifs with h1 h2 h3 h4
  · exact absurd h2 hS.ne_empty
  · field_simp
  · have : ∑ k ∈ S, c k ≠ 0 := by intro h0; rw [h0] at h3; simp at h3
    field_simp
  · field_simp
  · have : (S.card : ℝ) / a ≠ 0 := by positivity
    exact absurd this h4

theorem goodSet_lt {o : Obs} {n a b k : Nat} (ho : o.good.length = n) (hk : k ∈ o.goodSet a b) :
    k < n ∧ o.good[k]? = some true := by
  have := mem_goodSet hk
  refine ⟨?_, this⟩
  rw [← ho]
  by_contra hc
  rw [List.getElem?_eq_none (by omega)] at this
  simp at this

theorem givenScale_pos {x : ℝ ⊕ List ℝ} {q : Int} {c : Nat} (h : scalarOrAt x c ≠ 0) :
    givenScale (some x) q c = scalarOrAt x c := by
  cases x with
  | inl a => simp only [scalarOrAt] at h; simp [givenScale, scalarOrAt, h]
  | inr xs =>
    simp only [scalarOrAt, at0] at h
    simp only [givenScale, scalarOrAt, at0]
    rw [if_neg (fun hh => h hh.1)]

/-- **C86 (the simulation is unbiased for the fit, part that holds).**  Take a simulated observation, group and filter it in any way, and let the
model be evaluated at the parameters it was simulated with.  In every group whose good channels have the same positive scales, the expected
counts of the source spectrum are exactly what the fit expects there: its source counts plus its background ratio times the expected
background counts. -/
theorem C86_unbiased_partial {σ : Type} (g : SimRng σ) (hg : g.Sized) (s : σ) (isAdd : Bool) (v : List ℝ) (i : SimInput)
    (hrect : ∀ row ∈ i.matrix, row.length = i.ncol) (r : Obs × ObsObj) (h : simulate g s isAdd v i = .ok r)
    (hv : ∀ k, k < i.matrix.length → 1e-300 ≤ nth v k ∧ nth v k ≤ 1e300)
    (erange : List (ℝ × ℝ)) (flags : List Int) (hf : flags.length = i.emin.length) :
    ∃ st L, r.1.setGrouping erange (some flags) = .ok st ∧ r.1.NoticedGroups erange st.grouping L ∧
      ∀ (j a b : Nat), L[j]? = some (a, b) → ∀ sa sb ba bb : ℝ, 0 < sa → 0 < sb → 0 < ba → 0 < bb →
        (∀ k ∈ r.1.goodSet a b, scalarOrAt i.specArea k = sa ∧ scalarOrAt i.specBack k = sb ∧ scalarOrAt i.backArea k = ba ∧
          scalarOrAt i.backBack k = bb) →
        ∑ k ∈ r.1.goodSet a b, i.expected v k =
          (FitData.ofObs r.1 st).sourceRate v j * (FitData.ofObs r.1 st).exposure +
          (match (FitData.ofObs r.1 st).back with
            | none => 0
            | some bk => nth bk.ratio j * ∑ k ∈ r.1.goodSet a b, i.backMean k) := by
  obtain ⟨_, l1, _, _, _, m1, _, _, s₁, s₂, d1, d2, d3⟩ := C86_simulate g hg s isAdd v i hrect r h
  obtain ⟨st, L, h1, h2, h3⟩ := C16_net_spectrum r.1 _ l1 erange flags hf
  refine ⟨st, L, h1, h2, ?_⟩
  intro j a b hj sa sb ba bb psa psb pba pbb hsc
  have hmem : (a, b) ∈ L := List.mem_of_getElem? hj
  set S := r.1.goodSet a b with hSdef
  have hS : S.Nonempty := by
    obtain ⟨_, _, k, k1, k2, k3⟩ := (h2.2 a b).1 hmem
    refine ⟨k, ?_⟩
    rw [hSdef]
    unfold Data.Obs.goodSet goodIn
    simp [k1, k2, k3]
  have hk : ∀ k ∈ S, k < i.emin.length := fun k hk => (goodSet_lt l1.good hk).1
  have ha : ∀ k ∈ S, at0 r.1.spec.areaScale k = sa := by
    intro k hkS
    rw [(d3.scales k (hk k hkS)).1, givenScale_pos (by rw [(hsc k hkS).1]; exact psa.ne'), (hsc k hkS).1]
  have hb : ∀ k ∈ S, at0 r.1.spec.backScale k = sb := by
    intro k hkS
    rw [(d3.scales k (hk k hkS)).2, givenScale_pos (by rw [(hsc k hkS).2.1]; exact psb.ne'), (hsc k hkS).2.1]
  have hrate : (FitData.ofObs r.1 st).sourceRate v j = (∑ k ∈ S, foldAt v i.matrix k) * sa := by
    have hcomm : foldAt v st.matrix j = ∑ k ∈ S, foldAt v r.1.resp.matrix k := by
      obtain ⟨st', L', z1, z2, z3⟩ := C18_fold_commutes r.1 _ l1 erange flags hf v
      rw [h1] at z1
      obtain rfl := Except.ok.inj z1
      unfold foldAt
      rw [h3.matrix, List.length_map, Finset.sum_comm]
      apply Finset.sum_congr rfl
      intro q hq
      rw [Finset.mem_range] at hq
      rw [← Finset.mul_sum]
      congr 1
      simp only [List.getD, List.getElem?_map, List.getElem?_eq_getElem hq, Option.map_some, Option.getD_some]
      unfold at0
      simp [List.getD, hj, hSdef, at0]
    unfold FitData.sourceRate
    have harea : nth (FitData.ofObs r.1 st).areaScale j = sa := by
      change nth st.areaScale j = sa
      rw [h3.areaScale]
      simp only [nth, List.getD, List.getElem?_map, hj, Option.map_some, Option.getD_some]
      exact effScale_const hS psa ha
    rw [harea]
    congr 1
    rw [← m1, ← hcomm]
    change ((List.range st.matrix.length).map fun q => nth (st.matrix.getD q []) j * clip (1e-300) (1e300) (nth v q)).sum = _
    have hlen : st.matrix.length = i.matrix.length := by rw [h3.matrix, List.length_map, m1]
    unfold foldAt
    rw [← List.sum_toFinset _ (List.nodup_range), List.toFinset_range]
    apply Finset.sum_congr rfl
    intro q hq
    rw [Finset.mem_range, hlen] at hq
    rw [show clip (1e-300) (1e300) (nth v q) = nth v q by
      unfold clip; rw [max_eq_left (hv q hq).1, min_eq_left (hv q hq).2]]
    simp only [nth, at0]; ring
  have hexp : (FitData.ofObs r.1 st).exposure = i.specExposure := d3.exposure_eq
  rw [hrate, hexp]
  have hsum : ∑ k ∈ S, i.expected v k = (∑ k ∈ S, foldAt v i.matrix k) * sa * i.specExposure + ∑ k ∈ S, i.scaling k * i.backMean k := by
    unfold SimInput.expected
    rw [Finset.sum_add_distrib]
    congr 1
    rw [Finset.sum_mul, Finset.sum_mul]
    exact Finset.sum_congr rfl fun k hkS => by rw [(hsc k hkS).1]; ring
  rw [hsum]
  congr 1
  cases hB : i.backCounts with
  | none =>
    have : st.back = none := (h3.noBack (d1 hB).1).1
    have hfb : (FitData.ofObs r.1 st).back = none := by simp [FitData.ofObs, this]
    rw [hfb]
    refine Finset.sum_eq_zero fun k _ => ?_
    simp [SimInput.backMean, hB]
  | some B =>
    obtain ⟨_, bk, T, p, e1, e2, e3, e4⟩ := d2 B hB
    have hst := (h3.withBack bk e1).1
    simp only [FitData.ofObs, hst, Option.map_some, nth, List.getD, List.getElem?_map, hj, Option.map_some, Option.getD_some]
    have hba : ∀ k ∈ S, at0 bk.areaScale k = ba := by
      intro k hkS
      rw [(e4.scales k (hk k hkS)).1, givenScale_pos (by rw [(hsc k hkS).2.2.1]; exact pba.ne'), (hsc k hkS).2.2.1]
    have hbb : ∀ k ∈ S, at0 bk.backScale k = bb := by
      intro k hkS
      rw [(e4.scales k (hk k hkS)).2, givenScale_pos (by rw [(hsc k hkS).2.2.2]; exact pbb.ne'), (hsc k hkS).2.2.2]
    have hratio : r.1.ratioOf bk S = i.specExposure * sa * sb / (T * ba * bb) := by
      unfold Obs.ratioOf
      rw [effScale_const hS psa ha, effScale_const hS psb hb, effScale_const hS pba hba, effScale_const hS pbb hbb, d3.exposure_eq,
        e4.exposure_eq]
    rw [hratio, Finset.mul_sum]
    refine Finset.sum_congr rfl fun k hkS => ?_
    simp only [SimInput.scaling, e2]
    rw [(hsc k hkS).1, (hsc k hkS).2.1, (hsc k hkS).2.2.1, (hsc k hkS).2.2.2]

/-! ### Simulating from existing data -/

theorem setErange_same {o : Obs} {n : Nat} (ho : o.Legal n) {x y : ObsObj} (hx : x.Consistent o n) {e : List (ℝ × ℝ)}
    (he : e.Pairwise fun p q => p.2 < q.1) (hpos : ∀ p ∈ e, p.1 < p.2) (h : x.setErange o e = (y, none)) :
    y.erange = e ∧ y.st.grouping = x.st.grouping ∧ o.setGrouping e (some x.st.grouping) = .ok y.st := by
  obtain ⟨_, h2, _⟩ := C15_set_erange o n ho x hx e
  have hnone : (x.setErange o e).2 = none := by rw [h]
  obtain ⟨p1, p2, p3, p4⟩ := h2 hnone
  rw [h] at p1 p2 p3 p4
  have heq : y.erange = e := by
    refine List.Perm.eq_of_pairwise (le := fun p q : ℝ × ℝ => p.2 < q.1) ?_ p2 he p1
    intro a b ha hb h1 h2
    have := hpos b hb
    have := hpos a (p1.mem_iff.1 ha)
    linarith
  exact ⟨heq, p3, by rw [← heq]; exact p4⟩

theorem goodOf_quality (b : Bool) (good : List Bool) :
    goodOf b (good.map fun g => if g then (0 : Int) else 1) = good := by
  unfold goodOf
  rw [List.map_map]
  conv_rhs => rw [← List.map_id good]
  apply List.map_congr_left
  intro g _
  cases g <;> cases b <;> simp

/-- **C86 (configuration of existing data).**  An observation simulated from a legal observation in a consistent state has the same response, the
same good channels, the same area and background scales, the same kind of counts, the same grouping flags and energy ranges in force, the
exposures asked for (those of the data by default) and a background exactly if the data have one; in particular its noticed channels and
grouped response are those of the data. -/
theorem C86_from_data {σ : Type} (g : SimRng σ) (hg : g.Sized) (s : σ) (isAdd : Bool) (v egrid fwhm : List ℝ) (o : Obs) (n : Nat)
    (ho : o.Legal n) (x : ObsObj) (hx : x.Consistent o n) (te tb : Option ℝ) (ignoreBad : Bool) (r : Obs × ObsObj)
    (h : simulateFromData g s isAdd v egrid fwhm o x te tb ignoreBad = .ok r) :
    r.1.Legal n ∧ r.1.resp.emin = o.resp.emin ∧ r.1.resp.emax = o.resp.emax ∧ r.1.resp.matrix = o.resp.matrix ∧
    r.1.good = o.good ∧ r.1.spec.poisson = o.spec.poisson ∧ r.1.spec.exposure = te.getD o.spec.exposure ∧
    r.1.spec.areaScale = o.spec.areaScale ∧ r.1.spec.backScale = o.spec.backScale ∧
    (r.1.back = none ↔ o.back = none) ∧
    (∀ b b', o.back = some b → r.1.back = some b' → b'.poisson = b.poisson ∧ b'.exposure = tb.getD b.exposure ∧
      b'.areaScale = b.areaScale ∧ b'.backScale = b.backScale) ∧
    r.2.erange = x.erange ∧ r.2.st.grouping = x.st.grouping ∧ r.1.setGrouping x.erange (some x.st.grouping) = .ok r.2.st ∧
    r.2.st.emin = x.st.emin ∧ r.2.st.emax = x.st.emax ∧ r.2.st.matrix = x.st.matrix := by
  unfold simulateFromData at h
  obtain ⟨q, h1, h2⟩ := bind_ok.1 h
  have hch : o.resp.channelNumber = n := ho.resp.emin
  have hn : (fromDataInput egrid fwhm o x te tb ignoreBad).emin.length = n := ho.resp.emin
  have hrect : ∀ row ∈ (fromDataInput egrid fwhm o x te tb ignoreBad).matrix,
      row.length = (fromDataInput egrid fwhm o x te tb ignoreBad).ncol := by
    intro row hrow
    rw [show (fromDataInput egrid fwhm o x te tb ignoreBad).ncol = n from hch]
    exact ho.resp.rows row hrow
  have hsim := C86_simulate g hg s isAdd v _ hrect q h1
  simp only [hn] at hsim
  obtain ⟨_, l1, l2, l3, l4, l5, _, l6, s₁, s₂, d1, d2, d3⟩ := hsim
  have hr : r.1 = q.1 ∧ q.2.setErange q.1 x.erange = (r.2, none) := by
    split at h2
    · rename_i y hy
      simp only [pure, Except.pure, Except.ok.injEq] at h2
      subst h2
      exact ⟨rfl, hy⟩
    · simp at h2
  obtain ⟨hr1, hr2⟩ := hr
  obtain ⟨w1, w2, w3⟩ := setErange_same l1 l2 hx.sorted hx.ranges.2.1 hr2
  have hstart : fixFirst x.st.grouping = x.st.grouping := fixFirst_of_start hx.start
  have hspecg : q.1.spec.grouping = x.st.grouping := by
    obtain ⟨g0, gs, g1, g2⟩ := d3.grouping
    rw [g2]
    have : x.st.grouping = g0 :: gs := by simpa [fromDataInput] using g1
    rw [this] at hstart ⊢
    exact hstart
  have hgr : q.2.st.grouping = x.st.grouping := by rw [l6, hspecg]
  have hql : o.good.length = n := ho.good
  have hqual : ∀ k, k < n → (o.good.map fun g => if g then (0 : Int) else 1).getD k 0 = if o.good[k]? = some true then 0 else 1 := by
    intro k hk
    have : k < o.good.length := by omega
    simp only [List.getD, List.getElem?_map, List.getElem?_eq_getElem this, Option.map_some, Option.getD_some, Option.some.injEq]
  have hgood : q.1.good = o.good := by
    obtain ⟨_, _, resp, e, back, b, sp, z1, z2, z3, z4, z5, z6, z7⟩ := simulate_ok h1
    have : q.1.good = goodBoth ignoreBad q.1.spec q.1.back := by
      have z6' := z6
      unfold Obs.make at z6'
      split_ifs at z6'
      simp only at z6'
      split_ifs at z6'
      have := (Except.ok.inj z6').symm
      rw [this]
      rfl
    rw [this]
    have hq1 : goodOf ignoreBad q.1.spec.quality = o.good := by
      rw [d3.quality]; exact goodOf_quality _ _
    cases hb : q.1.back with
    | none => simpa [goodBoth] using hq1
    | some bb =>
      have hbq : goodOf ignoreBad bb.quality = o.good := by
        cases hB : o.back with
        | none =>
          have := (d1 (by simp [fromDataInput, hB])).1
          rw [hb] at this; simp at this
        | some ob =>
          obtain ⟨_, b', T, p, e1, _, _, e4⟩ := d2 ob.counts (by simp [fromDataInput, hB])
          rw [hb, Option.some.injEq] at e1
          subst e1
          rw [e4.quality]; exact goodOf_quality _ _
      simp only [goodBoth, hq1, hbq]
      apply List.ext_getElem?
      intro k
      simp only [List.getElem?_zipWith]
      cases o.good[k]? <;> simp
  have hscale : ∀ (a : List ℝ) (qq : Nat → Int), (∀ k < n, o.good[k]? = some true → 0 < a.getD k 0) →
      (∀ k < n, qq k = if o.good[k]? = some true then 0 else 1) → ∀ k < n, givenScale (some (.inr a)) (qq k) k = at0 a k := by
    intro a qq ha hqq k hk
    simp only [givenScale, at0]
    rw [if_neg]
    rintro ⟨h0, hne⟩
    rw [hqq k hk] at hne
    by_cases hgk : o.good[k]? = some true
    · have := ha k hk hgk; linarith
    · rw [if_neg hgk] at hne; exact hne rfl
  have lists : ∀ (a b : List ℝ), a.length = n → b.length = n → (∀ k < n, at0 a k = at0 b k) → a = b := by
    intro a b ha hb hab
    rw [list_ext_at0 ha hab, ← list_ext_at0 hb (fun k _ => rfl)]
  have hqs : ∀ k < n, q.1.spec.quality.getD k 0 = if o.good[k]? = some true then 0 else 1 := by
    intro k hk
    rw [d3.quality]; exact hqual k hk
  have hspecarea : q.1.spec.areaScale = o.spec.areaScale := by
    refine lists _ _ l1.spec.area ho.spec.area fun k hk => ?_
    rw [(d3.scales k hk).1]
    exact hscale _ _ (fun k hk hgk => ho.spec.areaPos k (ho.goodSpec k hgk) hk) hqs k hk
  have hspecback : q.1.spec.backScale = o.spec.backScale := by
    refine lists _ _ l1.spec.back ho.spec.back fun k hk => ?_
    rw [(d3.scales k hk).2]
    exact hscale _ _ (fun k hk hgk => ho.spec.backPos k (ho.goodSpec k hgk) hk) hqs k hk
  have hbacks : (q.1.back = none ↔ o.back = none) ∧
      (∀ b b', o.back = some b → q.1.back = some b' → b'.poisson = b.poisson ∧ b'.exposure = tb.getD b.exposure ∧
        b'.areaScale = b.areaScale ∧ b'.backScale = b.backScale) := by
    cases hB : o.back with
    | none => exact ⟨by simp [(d1 (by simp [fromDataInput, hB])).1], by intro b b' h; simp at h⟩
    | some ob =>
      obtain ⟨_, b', T, p, e1, e2, e3, e4⟩ := d2 ob.counts (by simp [fromDataInput, hB])
      refine ⟨by simp [e1], ?_⟩
      intro b b'' hb hb''
      rw [Option.some.injEq] at hb
      subst hb
      rw [e1, Option.some.injEq] at hb''
      subst hb''
      have hp : p = ob.poisson := by simpa [fromDataInput, hB] using e3.symm
      have hT : T = tb.getD ob.exposure := by simpa [fromDataInput, hB] using e2.symm
      have hlb := ho.back ob hB
      have hlb' := l1.back b' e1
      have hqb : ∀ k < n, b'.quality.getD k 0 = if o.good[k]? = some true then 0 else 1 := by
        intro k hk; rw [e4.quality]; exact hqual k hk
      have ba : (fromDataInput egrid fwhm o x te tb ignoreBad).backArea = .inr ob.areaScale := by simp [fromDataInput, hB]
      have bb : (fromDataInput egrid fwhm o x te tb ignoreBad).backBack = .inr ob.backScale := by simp [fromDataInput, hB]
      refine ⟨by rw [e4.poisson_eq, hp], by rw [e4.exposure_eq, hT], ?_, ?_⟩
      · refine lists _ _ hlb'.area hlb.area fun k hk => ?_
        rw [(e4.scales k hk).1, ba]
        exact hscale _ _ (fun k hk hgk => hlb.areaPos k (ho.goodBack ob hB k hgk) hk) hqb k hk
      · refine lists _ _ hlb'.back hlb.back fun k hk => ?_
        rw [(e4.scales k hk).2, bb]
        exact hscale _ _ (fun k hk hgk => hlb.backPos k (ho.goodBack ob hB k hgk) hk) hqb k hk
  have e1 : q.1.resp.emin = o.resp.emin := l3
  have e2 : q.1.resp.emax = o.resp.emax := l4
  have e3 : q.1.resp.matrix = o.resp.matrix := l5
  have hst : q.1.setGrouping x.erange (some x.st.grouping) = .ok r.2.st := by rw [← hgr]; exact w3
  have hsame : r.2.st.emin = x.st.emin ∧ r.2.st.emax = x.st.emax ∧ r.2.st.matrix = x.st.matrix := by
    obtain ⟨st', f1, _, f2⟩ := setGrouping_describes l1 x.erange x.st.grouping hx.len
    rw [hst] at f1
    obtain rfl := Except.ok.inj f1
    obtain ⟨st'', f3, _, f4⟩ := setGrouping_describes ho x.erange x.st.grouping hx.len
    rw [hx.data] at f3
    obtain rfl := Except.ok.inj f3
    have hnl : noticedList q.1 x.erange (fixFirst x.st.grouping) = noticedList o x.erange (fixFirst x.st.grouping) := by
      unfold noticedList noticedB
      rw [e1, e2, hgood]
    refine ⟨?_, ?_, ?_⟩
    · rw [f2.emin, f4.emin, hnl, e1]
    · rw [f2.emax, f4.emax, hnl, e2]
    · rw [f2.matrix, f4.matrix, hnl, e3]
      simp only [Obs.goodSet, hgood]
  rw [hr1]
  exact ⟨l1, e1, e2, e3, hgood, d3.poisson_eq, d3.exposure_eq, hspecarea, hspecback, hbacks.1, hbacks.2, w1, by rw [w2, hgr], hst,
    hsame.1, hsame.2.1, hsame.2.2⟩

/-- Poisson variates are counts. -/
structure SimRng.Proper {σ : Type} (g : SimRng σ) : Prop extends g.Sized where
  nonneg : ∀ s l, ∀ c ∈ (g.poisson s l).1, 0 ≤ c

theorem simSpectrum_total {σ : Type} {g : SimRng σ} (hg : g.Proper) (s : σ) (i : SimInput) {n : Nat} (hn : 0 < n) (poisson : Bool)
    (m : Nat → Option ℝ) (errors : List ℝ) {exposure : ℝ} (hx : 0 < exposure) (area back : ℝ ⊕ List ℝ)
    (hm : poisson = true → ∀ c < n, ∃ y, m c = some y ∧ 0 ≤ y)
    (he : poisson = false → errors.length = n ∧ ∀ e ∈ errors, 0 ≤ e)
    (hq : ∀ q, i.quality = some q → q.length = n ∧ ∀ x ∈ q, x = 0 ∨ x = 1)
    (hgr : ∀ q, i.grouping = some q → q.length = n)
    (ha : (∀ xs, area = .inr xs → xs.length = n) ∧ ∀ c ∈ expand n area, 0 ≤ c)
    (hb : (∀ xs, back = .inr xs → xs.length = n) ∧ ∀ c ∈ expand n back, 0 ≤ c) :
    ∃ r, simSpectrum g s i poisson ((List.range n).map m) errors exposure area back = .ok r := by
  have hd : ∃ d, drawCounts g s poisson ((List.range n).map m) errors = .ok d ∧ d.1.length = n ∧
      (poisson = true → ∀ c ∈ d.1, 0 ≤ c) := by
    cases hp : poisson with
    | true =>
      refine ⟨g.poisson s (((List.range n).map m).map fun x => x.getD 0), ?_, by rw [hg.poisson]; simp, fun _ => hg.nonneg _ _⟩
      simp only [drawCounts, if_true, drawPoisson]
      rw [if_pos]
      rw [List.all_eq_true]
      intro x hx
      obtain ⟨c, c1, rfl⟩ := List.mem_map.1 hx
      rw [decide_eq_true_iff]
      exact hm hp c (List.mem_range.1 c1)
    | false =>
      refine ⟨g.normal s ((List.range n).map m) errors, ?_, by rw [hg.normal]; simp, by simp⟩
      simp only [drawCounts, Bool.false_eq_true, if_false, drawNormal]
      rw [any_neg_false.2 (he hp).2]
      simp
  obtain ⟨d, d1, d2, d3⟩ := hd
  unfold simSpectrum
  rw [d1]
  simp only [bind, Except.bind]
  have hla : ∀ x : ℝ ⊕ List ℝ, (∀ xs, x = .inr xs → xs.length = n) → (expand n x).length = n := by
    intro x hx
    cases x with
    | inl a => simp [expand]
    | inr xs => exact hx xs rfl
  have hacc : SpecInput.Acceptable { counts := d.1, errors := if poisson then d.1.map Real.sqrt else errors, poisson := poisson, exposure := exposure, quality := i.quality, grouping := i.grouping, areaScale := .inr (expand ((List.range n).map m).length area), backScale := .inr (expand ((List.range n).map m).length back), net := none, sysErrors := .inl 0 } := by
    simp only [List.length_map, List.length_range]
    constructor
    · simp only; rw [d2]; exact hn
    · simp only
      cases hp : poisson with
      | true => simp
      | false => simp [d2, (he hp).1]
    · intro q hqq
      simp only at hqq ⊢
      rw [d2]
      refine ⟨(hq q hqq).1, fun x hx => ?_⟩
      rcases (hq q hqq).2 x hx with h | h <;> simp [h]
    · intro q hqq
      simp only at hqq ⊢
      rw [d2]; exact hgr q hqq
    · intro xs hxs
      simp only [Sum.inr.injEq] at hxs ⊢
      rw [d2, ← hxs]; exact hla _ ha.1
    · intro xs hxs
      simp only [Sum.inr.injEq] at hxs ⊢
      rw [d2, ← hxs]; exact hla _ hb.1
    · intro xs hxs; simp at hxs
    · exact d3
    · cases hp : poisson with
      | true => intro e hee; simp only [if_true, List.mem_map] at hee; obtain ⟨y, _, rfl⟩ := hee; exact Real.sqrt_nonneg _
      | false => simpa using (he hp).2
    · exact ⟨fun x hx => by simp at hx; rw [← hx], fun xs hxs => by simp at hxs⟩
    · exact hx
    · exact ⟨fun x hx => by simp at hx, fun xs hxs => by simp only [Sum.inr.injEq] at hxs; rw [← hxs]; exact ha.2⟩
    · exact ⟨fun x hx => by simp at hx, fun xs hxs => by simp only [Sum.inr.injEq] at hxs; rw [← hxs]; exact hb.2⟩
  obtain ⟨sp, hsp⟩ := ((C21_spectrum _).1).2 hacc
  rw [hsp]
  exact ⟨_, rfl⟩

/-- **C86 (simulating from data succeeds, part that holds).**  For an additive model and a legal observation in a consistent state, the
simulation succeeds if the exposures are positive, the photon grid is that of the response, the channel energies do not run backwards
(first lower edge below last upper edge) and, for Poisson source counts, the means are not negative and no background scale is zero. -/
theorem C86_from_data_total_partial {σ : Type} (g : SimRng σ) (hg : g.Proper) (s : σ) (v egrid fwhm : List ℝ) (o : Obs) (n : Nat)
    (ho : o.Legal n) (x : ObsObj) (hx : x.Consistent o n) (te tb : Option ℝ) (ignoreBad : Bool)
    (hgrid : egrid.length = o.resp.matrix.length + 1 ∧ ∀ i, i + 1 < egrid.length → at0 egrid i < at0 egrid (i + 1))
    (hrange : o.resp.emin.headD 0 < o.resp.emax.getLastD 0)
    (hte : ∀ t, te = some t → 0 < t) (htb : ∀ t, tb = some t → 0 < t)
    (hmean : o.spec.poisson = true → ∀ c < n, 0 ≤ (fromDataInput egrid fwhm o x te tb ignoreBad).expected v c)
    (hzero : o.spec.poisson = true → ∀ b, o.back = some b → ∀ c < n, at0 b.areaScale c ≠ 0 ∧ at0 b.backScale c ≠ 0) :
    ∃ r, simulateFromData g s true v egrid fwhm o x te tb ignoreBad = .ok r := by
  set i := fromDataInput egrid fwhm o x te tb ignoreBad with hi
  have hch : o.resp.channelNumber = n := ho.resp.emin
  have hn : i.emin.length = n := ho.resp.emin
  have hpos := ho.spec.pos
  have hrect : ∀ row ∈ o.resp.matrix, row.length = n := ho.resp.rows
  have hq : ∀ q, i.quality = some q → q.length = n ∧ ∀ y ∈ q, y = 0 ∨ y = 1 := by
    intro q hqq
    simp only [hi, fromDataInput, Option.some.injEq] at hqq
    subst hqq
    refine ⟨by simp [ho.good], fun y hy => ?_⟩
    obtain ⟨b, _, rfl⟩ := List.mem_map.1 hy
    cases b <;> simp
  have hgr : ∀ q, i.grouping = some q → q.length = n := by
    intro q hqq
    simp only [hi, fromDataInput, Option.some.injEq] at hqq
    subst hqq
    exact hx.len
  have hTe : 0 < i.specExposure := by
    simp only [hi, fromDataInput]
    cases te with
    | none => exact ho.spec.exposure
    | some t => exact hte t rfl
  -- the response
  have hresp : ∃ resp, Response.init i.egrid i.emin i.emax i.nchan i.ncol i.matrix i.fwhm = .ok resp := by
    refine ((C21_response i.egrid i.emin i.emax i.nchan i.ncol i.matrix i.fwhm (by rw [show i.ncol = n from hch]; exact hrect)).1).2 ?_
    refine ⟨by rw [hn]; exact hch.symm, ?_, rfl, hgrid.1, ?_, hgrid.2⟩
    · rw [show i.nchan = n from hch]; exact ho.resp.emax
    · intro k hk
      rw [show i.nchan = n from hch] at hk
      exact ho.resp.ordered k hk
  obtain ⟨resp, h1⟩ := hresp
  obtain ⟨q1, q2, q3, q4⟩ := (C21_response i.egrid i.emin i.emax i.nchan i.ncol i.matrix i.fwhm
    (by rw [show i.ncol = n from hch]; exact hrect)).2 resp h1
  -- the errors
  obtain ⟨e, h2, h2'⟩ : ∃ e, i.checkSpecErrors n = .ok e ∧ (i.specPoisson = false → e.length = n ∧ ∀ y ∈ e, 0 ≤ y) := by
    cases hp : i.specPoisson with
    | true => exact ⟨[], by simp [SimInput.checkSpecErrors, hp], by simp⟩
    | false =>
      refine ⟨o.spec.errors, ?_, fun _ => ⟨ho.spec.errors, ho.spec.errorsNonneg⟩⟩
      simp only [SimInput.checkSpecErrors, hp, Bool.false_eq_true, if_false]
      simp [hi, fromDataInput, ho.spec.errors]
  -- the background
  obtain ⟨back, h3, h3'⟩ : ∃ back, i.checkBack n = .ok back ∧ ((o.back = none ∧ back = none) ∨
      ∃ b bk, o.back = some b ∧ back = some bk ∧ bk.poisson = b.poisson ∧ 0 < bk.exposure ∧
        (bk.poisson = false → bk.errors.length = n ∧ ∀ y ∈ bk.errors, 0 ≤ y) ∧ bk.counts.length = n) := by
    cases hB : o.back with
    | none =>
      refine ⟨none, ?_, Or.inl ⟨rfl, rfl⟩⟩
      simp [SimInput.checkBack, hi, fromDataInput, hB]
    | some b =>
      have hlb := ho.back b hB
      have f1 : i.backCounts = some b.counts := by simp [hi, fromDataInput, hB]
      have f2 : i.backExposure = some (tb.getD b.exposure) := by simp [hi, fromDataInput, hB]
      have f3 : i.backPoisson = some b.poisson := by simp [hi, fromDataInput, hB]
      have f4 : i.backErrors = some b.errors := by simp [hi, fromDataInput, hB]
      obtain ⟨e', he', hee⟩ : ∃ e', i.checkBackErrors n b.poisson = .ok e' ∧ (b.poisson = false → e' = b.errors) := by
        cases hp : b.poisson with
        | true => exact ⟨[], by simp [SimInput.checkBackErrors], by simp⟩
        | false => exact ⟨b.errors, by simp [SimInput.checkBackErrors, f4, hlb.errors], fun _ => rfl⟩
      refine ⟨some ⟨clipBack (i.specPoisson || b.poisson) b.counts, e', tb.getD b.exposure, b.poisson⟩, ?_, Or.inr ⟨b, _, rfl, rfl, rfl, ?_, ?_, ?_⟩⟩
      · simp only [SimInput.checkBack, f1, f2, f3, f4]
        simp [hlb.counts, he', Except.map]
      · cases tb with
        | none => exact hlb.exposure
        | some t => exact htb t rfl
      · intro hp
        rw [hee hp]
        exact ⟨hlb.errors, hlb.errorsNonneg⟩
      · rw [clipBack_length, hlb.counts]
  have hscales : i.scalesOk n = true := by
    have hb : shapeOk n i.backArea = true ∧ shapeOk n i.backBack = true := by
      cases hB : o.back with
      | none => simp [hi, fromDataInput, hB, shapeOk]
      | some b => simp [hi, fromDataInput, hB, shapeOk, (ho.back b hB).area, (ho.back b hB).back]
    have hs : shapeOk n i.specArea = true ∧ shapeOk n i.specBack = true := by
      simp [hi, fromDataInput, shapeOk, ho.spec.area, ho.spec.back]
    simp [SimInput.scalesOk, hb.1, hb.2, hs.1, hs.2]
  -- the spectra
  have h3n : i.checkBack i.emin.length = .ok back := by rw [hn]; exact h3
  obtain ⟨bb, h4, h4'⟩ : ∃ bb, simBack g s i back = .ok bb ∧
      (∀ sp, bb.1 = some sp → sp.Legal n ∧ sp.quality = o.good.map fun b => if b then (0 : Int) else 1) := by
    rcases h3' with ⟨_, rfl⟩ | ⟨b, bk, hB, rfl, e1, e2, e3, e4⟩
    · exact ⟨(none, s), rfl, by simp⟩
    · have hlb := ho.back b hB
      have hcs : bk.counts.map some = (List.range n).map fun c => some (i.backMean c) := by
        have := list_ext_at0 (n := n) (f := i.backMean) e4 (fun c _ => backMean_eq h3 c)
        rw [this, List.map_map]; rfl
      have hba : i.backArea = .inr b.areaScale := by simp [hi, fromDataInput, hB]
      have hbb : i.backBack = .inr b.backScale := by simp [hi, fromDataInput, hB]
      have hbp : i.backPoisson = some b.poisson := by simp [hi, fromDataInput, hB]
      have hbc : i.backCounts = some b.counts := by simp [hi, fromDataInput, hB]
      obtain ⟨r, hr⟩ := simSpectrum_total hg s i hpos bk.poisson (fun c => some (i.backMean c)) bk.errors e2 i.backArea i.backBack
        (by
          intro hp c _
          refine ⟨_, rfl, ?_⟩
          rw [e1] at hp
          simp [SimInput.backMean, hbc, hbp, hp])
        e3 hq hgr
        ⟨by intro xs hxs; rw [hba, Sum.inr.injEq] at hxs; rw [← hxs]; exact hlb.area, by rw [hba]; exact hlb.areaNonneg⟩
        ⟨by intro xs hxs; rw [hbb, Sum.inr.injEq] at hxs; rw [← hxs]; exact hlb.back, by rw [hbb]; exact hlb.backNonneg⟩
      refine ⟨(some r.1, r.2), ?_, ?_⟩
      · simp only [simBack, hcs, hr, bind, Except.bind, pure, Except.pure]
      · intro sp hsp
        simp only [Option.some.injEq] at hsp
        subst hsp
        have hd := simSpectrum_drawn (ea := some bk.errors) (mean := i.backMean) (finite := fun _ => True) hg.poisson hg.normal
          (fun _ => rfl) (fun c _ => ⟨fun _ => rfl, fun hf => absurd trivial hf⟩) hr
        exact ⟨hd.legal, hd.quality⟩
  have hfin : o.spec.poisson = true → ∀ c < n, i.Finite c := by
    intro hp c hc t ht
    cases hB : o.back with
    | none => simp [hi, fromDataInput, hB] at ht
    | some b =>
      have hba : i.backArea = .inr b.areaScale := by simp [hi, fromDataInput, hB]
      have hbb : i.backBack = .inr b.backScale := by simp [hi, fromDataInput, hB]
      have ht' : t = tb.getD b.exposure := by simpa [hi, fromDataInput, hB] using ht.symm
      have htp : t ≠ 0 := by
        rw [ht']
        cases tb with
        | none => exact (ho.back b hB).exposure.ne'
        | some t => exact (htb t rfl).ne'
      rw [hba, hbb]
      exact mul_ne_zero (mul_ne_zero htp (hzero hp b hB c hc).1) (hzero hp b hB c hc).2
  obtain ⟨sp, h5⟩ := simSpectrum_total hg bb.2 i hpos i.specPoisson (i.mean back (foldAt v i.matrix)) e hTe i.specArea i.specBack
    (by
      intro hp c hc
      refine ⟨i.expected v c, (mean_spec h3n v c (by rw [hn]; exact hc)).1 (hfin hp c hc), hmean hp c hc⟩)
    h2' hq hgr
    ⟨by intro xs hxs; simp only [hi, fromDataInput, Sum.inr.injEq] at hxs; rw [← hxs]; exact ho.spec.area, ho.spec.areaNonneg⟩
    ⟨by intro xs hxs; simp only [hi, fromDataInput, Sum.inr.injEq] at hxs; rw [← hxs]; exact ho.spec.back, ho.spec.backNonneg⟩
  have hspd := simSpectrum_drawn (ea := some e) (mean := i.expected v) (finite := i.Finite) hg.poisson hg.normal (fun _ => rfl)
    (fun c hc => mean_spec h3n v c (by rw [hn]; exact hc)) h5
  obtain ⟨k, hk⟩ := ho.someGood
  have hkn : k < n := by
    rw [← ho.good]
    by_contra hc
    rw [List.getElem?_eq_none (by omega)] at hk
    simp at hk
  have hqk : (o.good.map fun b => if b then (0 : Int) else 1)[k]? = some 0 := by
    simp [hk]
  have hmake : ∃ oo, Obs.make sp.1 bb.1 resp i.ignoreBad = .ok oo := by
    refine ((C21_observation sp.1 bb.1 resp i.ignoreBad n i.nchan hspd.legal q1 (fun b hb => ⟨n, (h4' b hb).1⟩)).1).2 ?_
    refine ⟨hch.symm, fun b hb => ?_, k, hkn, ?_, fun b hb => ?_⟩
    · rw [(h4' b hb).1.counts]; exact hch.symm
    · rw [hspd.quality, show i.quality.getD (List.replicate n 0) = o.good.map fun b => if b then (0 : Int) else 1 from rfl]
      beta_reduce
      rw [hqk]; simp
    · rw [(h4' b hb).2]
      beta_reduce
      rw [hqk]; simp
  obtain ⟨oo, h6⟩ := hmake
  have hleg := ((C21_observation sp.1 bb.1 resp i.ignoreBad n i.nchan hspd.legal q1 (fun b hb => ⟨n, (h4' b hb).1⟩)).2 oo h6).1
  have hgr1 : GoodRanges [(i.emin.headD 0, i.emax.getLastD 0)] := ⟨by simp, by intro p hp; rw [List.mem_singleton] at hp; rw [hp]; exact hrange, by simp⟩
  obtain ⟨y, h7⟩ := ((C15_history oo n hleg [(i.emin.headD 0, i.emax.getLastD 0)] []).1).2 hgr1
  have hy := (C15_history oo n hleg [(i.emin.headD 0, i.emax.getLastD 0)] []).2 y h7
  have hsim : simulate g s true v i = .ok (oo, y) := by
    unfold simulate
    simp only [Bool.not_true, Bool.false_eq_true, if_false]
    rw [h1]
    simp only [bind, Except.bind]
    rw [hn, h2, h3, hscales]
    simp only [Bool.not_true, Bool.false_eq_true, if_false]
    rw [h4]
    simp only
    rw [h5]
    simp only
    rw [h6]
    simp only
    rw [h7]
    rfl
  have hset := (C15_set_erange oo n hleg y hy x.erange).1.2 hx.ranges
  unfold simulateFromData
  rw [← hi, hsim]
  simp only [bind, Except.bind]
  cases hse : y.setErange oo x.erange with
  | mk y' err =>
    rw [hse] at hset
    simp only at hset
    subst hset
    exact ⟨_, rfl⟩

end Elisa.Infer
