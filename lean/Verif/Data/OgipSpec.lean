import Verif.Data.OgipProps

/-!
# C19 (systematic errors of OGIP spectra), C58 (OGIP spectrum conventions), C59 (dataset names), C60 (photon grid)
-/

namespace Elisa.Data

open Elisa Elisa.Grouping

/-- Counts of an OGIP spectrum: the `COUNTS` column, or else rate times exposure. -/
def Pha.Counts (p : Pha) (c : List ℝ) : Prop :=
  p.counts = some c ∨ (p.counts = none ∧ ∃ r, (p.rate = some r ∨ (p.rate = none ∧ p.rates = some r)) ∧
    c = r.map (· * p.exposure))

/-- Statistical errors of the counts of a non-Poisson OGIP spectrum: the `STAT_ERR` column, which refers to the
rate if there is a rate column. -/
def Pha.StatErrors (p : Pha) (e : List ℝ) : Prop :=
  ∃ s, p.statErr = some s ∧
    ((p.rate = none ∧ p.rates = none ∧ e = s) ∨ ((p.rate ≠ none ∨ p.rates ≠ none) ∧ e = s.map (· * p.exposure)))

/-- The Poisson flag: the header if it says so, else the argument. -/
def Pha.Flag (p : Pha) (arg : Option Bool) (b : Bool) : Prop :=
  p.poisserr = some b ∨ (p.poisserr = none ∧ arg = some b)

/-- Fractional systematic error of channel `k`: the column, or the keyword (the same for all channels), or none. -/
noncomputable def Pha.sysAt (p : Pha) (k : Nat) : ℝ :=
  match p.sysErr with
  | none => 0
  | some (.inl f) => f
  | some (.inr xs) => at0 xs k

theorem flag_iff {p : Pha} {arg : Option Bool} {b : Bool} : p.poissonFlag arg = .ok b ↔ p.Flag arg b := by
  unfold Pha.poissonFlag Pha.Flag
  cases p.poisserr <;> cases arg <;> simp

theorem read_ok {p : Pha} {arg : Option Bool} {s : Spectrum} :
    p.read arg = .ok s ↔ (p.counts ≠ none ∨ p.rate ≠ none ∨ p.rates ≠ none) ∧
      ∃ b, p.Flag arg b ∧ p.refused b = false ∧ Spectrum.init (p.input b) = .ok s := by
  simp only [← flag_iff]
  unfold Pha.read Pha.toInput
  cases h1 : p.counts <;> cases h2 : p.rate <;> cases h3 : p.rates <;> cases h4 : p.poissonFlag arg <;>
    simp [bind, Except.bind] <;> (rename_i b; cases p.refused b <;> simp)

theorem counts_spec {p : Pha} (h : p.counts ≠ none ∨ p.rate ≠ none ∨ p.rates ≠ none) : p.Counts p.countsArr := by
  unfold Pha.Counts Pha.countsArr
  cases h1 : p.counts with
  | some c => simp
  | none =>
    right
    refine ⟨rfl, ?_⟩
    cases h2 : p.rate with
    | some r => exact ⟨r, .inl rfl, rfl⟩
    | none =>
      cases h3 : p.rates with
      | some r => exact ⟨r, .inr ⟨rfl, rfl⟩, by simp⟩
      | none => simp [h1, h2, h3] at h

theorem stat_spec {p : Pha} (h : p.statErr ≠ none) : p.StatErrors (p.statArr false) := by
  obtain ⟨s, hs⟩ := Option.ne_none_iff_exists'.1 h
  refine ⟨s, hs, ?_⟩
  unfold Pha.statArr
  rw [hs]
  cases h2 : p.rate <;> cases h3 : p.rates <;> simp

theorem refused_false {p : Pha} (h : p.refused false = false) : p.statErr ≠ none ∧
    (∀ e ∈ p.statArr false, 0 ≤ e) ∧ (∀ e ∈ p.sysArr, 0 ≤ e) ∧ p.sysArr.length = p.countsArr.length ∧
    (p.statArr false).length = p.countsArr.length := by
  unfold Pha.refused at h
  simp only [Bool.not_false, Bool.true_and, Bool.or_eq_false_iff, bne_eq_false_iff_eq] at h
  obtain ⟨⟨⟨⟨h1, h2⟩, h3⟩, h4⟩, h5⟩ := h
  exact ⟨by intro h; simp [h] at h1, any_neg_false.1 h2, any_neg_false.1 h3, h4, h5⟩

theorem at0_zip {n : Nat} {e s c : List ℝ} (he : e.length = n) (hs : s.length = n) (hc : c.length = n) {k : Nat}
    (hk : k < n) :
    at0 (List.zipWith (fun (e : ℝ) (sc : ℝ × ℝ) => Real.sqrt (e ^ 2 + (sc.1 * sc.2) ^ 2)) e (List.zip s c)) k =
      Real.sqrt (at0 e k ^ 2 + (at0 s k * at0 c k) ^ 2) := by
  simp [at0, List.getD, List.getElem?_zipWith, List.getElem?_zip_eq_some, he, hs, hc, hk]

/-- errors of an accepted non-Poisson spectrum -/
theorem read_errors {p : Pha} {arg : Option Bool} {s : Spectrum} (h : p.read arg = .ok s) (hp : s.poisson = false) :
    ∃ e, p.StatErrors e ∧ p.Counts s.counts ∧ e.length = s.counts.length ∧ (∀ x ∈ e, 0 ≤ x) ∧
      p.sysArr.length = s.counts.length ∧ s.counts = p.countsArr ∧
      ∀ k < s.counts.length, at0 s.errors k =
        Real.sqrt (at0 e k ^ 2 + 2 * (at0 p.sysArr k * at0 s.counts k) ^ 2) := by
  obtain ⟨h1, b, hb, hr, hi⟩ := read_ok.1 h
  obtain ⟨_, hc, _, hpp, _, herr⟩ := (C21_spectrum (p.input b)).2 s hi
  have hbf : b = false := by rw [hp] at hpp; exact hpp.symm
  subst hbf
  obtain ⟨r1, r2, r3, r4, r5⟩ := refused_false hr
  have hcc : s.counts = p.countsArr := hc
  refine ⟨p.statArr false, stat_spec r1, by rw [hcc]; exact counts_spec h1, by rw [hcc]; exact r5, r2, by rw [hcc, r4],
    hcc, fun k hk => ?_⟩
  rw [hcc] at hk ⊢
  have e1 := herr rfl k hk
  rw [e1]
  congr 1
  have e2 : at0 (p.input false).errors k = Real.sqrt (at0 (p.statArr false) k ^ 2 + (at0 p.sysArr k * at0 p.countsArr k) ^ 2) :=
    at0_zip r5 r4 rfl hk
  rw [e2, Real.sq_sqrt (by positivity)]
  have e3 : scalarOrAt (p.input false).sysErrors k = at0 p.sysArr k := rfl
  have e4 : at0 (p.input false).counts k = at0 p.countsArr k := rfl
  rw [e3, e4]
  ring

theorem sysArr_at {p : Pha} (hk : ∀ f, p.sysErr ≠ some (.inl f)) {k : Nat} : at0 p.sysArr k = p.sysAt k := by
  unfold Pha.sysArr Pha.sysAt
  match h : p.sysErr with
  | none =>
    simp only [columnOr, at0, List.getD, List.getElem?_replicate]
    split <;> simp
  | some (.inl f) => exact absurd h (hk f)
  | some (.inr xs) => rfl

/-- **C19** is violated: for every accepted non-Poisson spectrum whose systematic errors (if any) are a column, the error
of a channel is the documented `√(e² + (f·counts)²)` exactly in the channels where the systematic error
vanishes; in all other channels the systematic variance is counted twice. -/
theorem C19_systematics_refuted (p : Pha) (arg : Option Bool) (s : Spectrum) (h : p.read arg = .ok s)
    (hp : s.poisson = false) (hcol : ∀ f, p.sysErr ≠ some (.inl f)) :
    ∃ e, p.StatErrors e ∧ p.Counts s.counts ∧ ∀ k < s.counts.length,
      at0 s.errors k = Real.sqrt (at0 e k ^ 2 + 2 * (p.sysAt k * at0 s.counts k) ^ 2) ∧
      (at0 s.errors k = Real.sqrt (at0 e k ^ 2 + (p.sysAt k * at0 s.counts k) ^ 2) ↔ p.sysAt k * at0 s.counts k = 0) := by
  obtain ⟨e, h1, h2, h3, h4, h5, h6, h7⟩ := read_errors h hp
  refine ⟨e, h1, h2, fun k hk => ?_⟩
  have := h7 k hk
  rw [sysArr_at hcol] at this
  refine ⟨this, ?_⟩
  rw [this, Real.sqrt_inj (by positivity) (by positivity)]
  constructor
  · intro hx
    have : (p.sysAt k * at0 s.counts k) ^ 2 = 0 := by linarith
    exact pow_eq_zero_iff (two_ne_zero) |>.1 this
  · intro hx; rw [hx]; ring

/-- **C19** (partial: spectra without systematic errors).  The error of an accepted non-Poisson spectrum is the
statistical error of the counts. -/
theorem C19_statistical_partial (p : Pha) (arg : Option Bool) (s : Spectrum) (h : p.read arg = .ok s)
    (hp : s.poisson = false) (hsys : p.sysErr = none) :
    ∃ e, p.StatErrors e ∧ p.Counts s.counts ∧ ∀ k < s.counts.length, at0 s.errors k = at0 e k := by
  obtain ⟨e, h1, h2, h3, h4, h5, h6, h7⟩ := read_errors h hp
  refine ⟨e, h1, h2, fun k hk => ?_⟩
  have hz : at0 p.sysArr k = 0 := by
    rw [sysArr_at (by rw [hsys]; simp)]; unfold Pha.sysAt; rw [hsys]
  rw [h7 k hk, hz]
  have h0 : 0 ≤ at0 e k := by
    unfold at0
    simp only [List.getD, List.getElem?_eq_getElem (h3 ▸ hk : k < e.length), Option.getD_some]
    exact h4 _ (List.getElem_mem _)
  rw [zero_mul, zero_pow two_ne_zero, mul_zero, add_zero, Real.sqrt_sq h0]

/-- **C19**, second violation: a systematic error given as header keyword (valid for all channels in the OGIP standard) is
ignored whatever its value; likewise the keywords `QUALITY` and `GROUPING`. -/
theorem C19_keyword_refuted (p : Pha) (arg : Option Bool) (f : ℝ) (q g : Int) :
    Pha.read { p with sysErr := some (.inl f) } arg = Pha.read { p with sysErr := none } arg ∧
    Pha.read { p with quality := some (.inl q) } arg = Pha.read { p with quality := none } arg ∧
    Pha.read { p with grouping := some (.inl g) } arg = Pha.read { p with grouping := none } arg :=
  ⟨rfl, rfl, rfl⟩

/-- a spectrum of two channels with 3 % and 0 % systematic error -/
noncomputable def exPha : Pha where
  poisserr := some false
  counts := some [100, 4]
  rate := none
  rates := none
  statErr := some [4, 2]
  sysErr := some (.inr [0.03, 0])
  quality := none
  grouping := none
  exposure := 10
  areaScal := none
  backScal := none
  hduclas2 := "TOTAL"

theorem exPha_reads : ∃ s, exPha.read none = .ok s ∧ s.poisson = false ∧ s.counts = [100, 4] := by
  have hacc : (exPha.input false).Acceptable := by
    have hs : ∀ x ∈ exPha.sysArr, (0 : ℝ) ≤ x := by
      simp [Pha.sysArr, exPha, columnOr]; norm_num
    refine ⟨by simp [Pha.input, Pha.countsArr, exPha], ?_, ?_, ?_, ?_, ?_, ?_, by simp [Pha.input], ?_, ?_, ?_, ?_, ?_⟩
    · simp [Pha.input, Pha.errArr, Pha.statArr, Pha.sysArr, Pha.countsArr, exPha, columnOr]
    · intro q hq; simp [Pha.input, exPha, columnOr, Pha.countsArr] at hq; subst hq; simp [Pha.input, Pha.countsArr, exPha]
    · intro q hq; simp [Pha.input, exPha, columnOr, Pha.countsArr] at hq; subst hq; simp [Pha.input, Pha.countsArr, exPha]
    · intro q hq; simp [Pha.input, exPha] at hq
    · intro q hq; simp [Pha.input, exPha] at hq
    · intro q hq; simp [Pha.input, exPha, columnOr, Pha.sysArr] at hq; subst hq; simp [Pha.input, Pha.countsArr, exPha]
    · intro e he
      simp [Pha.input, Pha.errArr, Pha.statArr, Pha.sysArr, Pha.countsArr, exPha, columnOr] at he
      rcases he with rfl | rfl
      · exact Real.sqrt_nonneg _
      · norm_num
    · refine ⟨fun x hx => by simp [Pha.input] at hx, fun xs hx => ?_⟩
      simp only [Pha.input, Sum.inr.injEq] at hx
      subst hx; exact hs
    · norm_num [Pha.input, exPha]
    · refine ⟨fun x hx => ?_, fun xs hx => by simp [Pha.input, exPha] at hx⟩
      simp [Pha.input, exPha] at hx; subst hx; norm_num
    · refine ⟨fun x hx => ?_, fun xs hx => by simp [Pha.input, exPha] at hx⟩
      simp [Pha.input, exPha] at hx; subst hx; norm_num
  obtain ⟨s, hs⟩ := (C21_spectrum (exPha.input false)).1.2 hacc
  obtain ⟨_, hc, _, hpp, _⟩ := (C21_spectrum (exPha.input false)).2 s hs
  refine ⟨s, read_ok.2 ⟨by simp [exPha], false, .inl rfl, ?_, hs⟩, hpp, hc⟩
  simp [Pha.refused, Pha.statArr, Pha.sysArr, Pha.countsArr, exPha, columnOr]
  norm_num

/-- the first channel gets the error `√(16 + 2·9) = √34` instead of `5` -/
example : ∃ s, exPha.read none = .ok s ∧ at0 s.errors 0 = Real.sqrt 34 ∧ at0 s.errors 1 = 2 := by
  obtain ⟨s, h1, h2, h3⟩ := exPha_reads
  obtain ⟨e, h4, _, h5⟩ := C19_systematics_refuted exPha none s h1 h2 (by simp [exPha])
  obtain ⟨st, hst, he⟩ := h4
  simp only [exPha, Option.some.injEq] at hst
  subst hst
  have he' : e = [4, 2] := by simpa [exPha] using he
  subst he'
  refine ⟨s, h1, ?_, ?_⟩
  · have := (h5 0 (by simp [h3])).1
    rw [this, h3]
    congr 1
    norm_num [at0, Pha.sysAt, exPha]
  · have := (h5 1 (by simp [h3])).1
    rw [this, h3]
    have : (at0 [(4 : ℝ), 2] 1 ^ 2 + 2 * (exPha.sysAt 1 * at0 [100, 4] 1) ^ 2) = 2 ^ 2 := by
      norm_num [at0, Pha.sysAt, exPha]
    rw [this, Real.sqrt_sq (by norm_num)]

/-! ## C58: conventions of OGIP spectra -/

theorem if_err {α : Type} {c : Prop} [Decidable c] {e : PyErr} {x : Except PyErr α} {s : α}
    (h : (if c then .error e else x) = .ok s) : x = .ok s := by
  by_cases hc : c
  · rw [if_pos hc] at h; cases h
  · rwa [if_neg hc] at h

theorem init_fields {i : SpecInput} {s : Spectrum} (hi : Spectrum.init i = .ok s) :
    s.quality = i.quality.getD (List.replicate i.counts.length 0) ∧ s.netOpt = i.net ∧
    ∃ g0 gs, i.grouping.getD (List.replicate i.counts.length 1) = g0 :: gs ∧
      s.grouping = (if g0 = -1 then 1 else g0) :: gs := by
  unfold Spectrum.init at hi
  iterate 15 replace hi := if_err hi
  split at hi
  · cases hi
  · rename_i g0 gs hg
    cases hi
    exact ⟨rfl, rfl, g0, gs, hg, rfl⟩

theorem at0_resetZero {q : List Int} {xs : List ℝ} {n k : Nat} (hq : q.length = n) (hx : xs.length = n) (hk : k < n) :
    at0 (resetZero q xs) k = if at0 xs k = 0 ∧ q.getD k 0 ≠ 1 then 1 else at0 xs k := by
  simp [at0, resetZero, List.getD, List.getElem?_zipWith, hq, hx, hk]

theorem init_scales {i : SpecInput} {s : Spectrum} (hi : Spectrum.init i = .ok s) :
    shapeOk i.counts.length i.areaScale = true ∧ shapeOk i.counts.length i.backScale = true ∧
    s.quality.length = i.counts.length ∧
    s.areaScale = resetZero s.quality (expand i.counts.length i.areaScale) ∧
    s.backScale = resetZero s.quality (expand i.counts.length i.backScale) := by
  unfold Spectrum.init at hi
  replace hi := if_err hi
  have hq : (i.quality.getD (List.replicate i.counts.length 0)).length = i.counts.length := by
    by_contra hc; rw [if_pos hc] at hi; cases hi
  iterate 2 replace hi := if_err hi
  have ha : shapeOk i.counts.length i.areaScale = true := by
    by_contra hc; rw [if_pos (by simpa using hc)] at hi; cases hi
  replace hi := if_err hi
  have hb : shapeOk i.counts.length i.backScale = true := by
    by_contra hc; rw [if_pos (by simpa using hc)] at hi; cases hi
  iterate 11 replace hi := if_err hi
  split at hi
  · cases hi
  · cases hi
    exact ⟨ha, hb, hq, rfl, rfl⟩

/-- The scale of channel `k` that the user gave: a number for all channels or one per channel, `1` by default; zero
is read as `1` unless the channel is flagged bad (quality 1). -/
noncomputable def givenScale (x : Option (ℝ ⊕ List ℝ)) (quality : Int) (k : Nat) : ℝ :=
  let v := match x with
    | none => 1
    | some (.inl a) => a
    | some (.inr xs) => xs.getD k 0
  if v = 0 ∧ quality ≠ 1 then 1 else v

/-- **C21**, scales, quality and grouping: an accepted spectrum keeps the quality flags, has a group starting in its first
channel and otherwise the given grouping flags, and the area and background scales of every channel are the
given ones, with zero read as one in channels that are not flagged bad. -/
theorem C21_spectrum_scales (i : SpecInput) (s : Spectrum) (h : Spectrum.init i = .ok s) :
    s.quality = i.quality.getD (List.replicate i.counts.length 0) ∧ s.netOpt = i.net ∧
    (∃ g0 gs, i.grouping.getD (List.replicate i.counts.length 1) = g0 :: gs ∧
      s.grouping = (if g0 = -1 then 1 else g0) :: gs) ∧
    s.areaScale.length = i.counts.length ∧ s.backScale.length = i.counts.length ∧
    ∀ k < i.counts.length,
      s.areaScale.getD k 0 = givenScale (some i.areaScale) (s.quality.getD k 0) k ∧
      s.backScale.getD k 0 = givenScale (some i.backScale) (s.quality.getD k 0) k := by
  obtain ⟨f1, f2, f3⟩ := init_fields h
  obtain ⟨a, b, q, e1, e2⟩ := init_scales h
  have la := expand_length a
  have lb := expand_length b
  refine ⟨f1, f2, f3, by rw [e1, resetZero_length (by rw [la, q]), q], by rw [e2, resetZero_length (by rw [lb, q]), q],
    fun k hk => ?_⟩
  have key : ∀ x : ℝ ⊕ List ℝ, shapeOk i.counts.length x = true →
      at0 (resetZero s.quality (expand i.counts.length x)) k = givenScale (some x) (s.quality.getD k 0) k := by
    intro x hx
    rw [at0_resetZero q (expand_length hx) hk, at0_expand x hk]
    cases x <;> rfl
  exact ⟨by rw [e1]; exact key _ a, by rw [e2]; exact key _ b⟩

example : ∃ i s, Spectrum.init i = .ok s ∧ s.areaScale.length = i.counts.length := by
  obtain ⟨s, h, -⟩ := exPha_reads
  obtain ⟨-, b, -, -, h'⟩ := read_ok.1 h
  exact ⟨_, s, h', (C21_spectrum_scales _ s h').2.2.2.1⟩

/-- **C58.**  Reading an OGIP spectrum: the keyword `POISSERR` overrides the argument `poisson` and one of them is needed
(`RuntimeError` otherwise); without any of `COUNTS`, `RATE`, `RATES`, or without `STAT_ERR` for a non-Poisson
spectrum, a `ValueError` is raised; an accepted spectrum holds the counts (or rate times exposure), the flag and
the exposure, Poisson errors are `√counts` whatever the systematic errors, missing quality and grouping columns
mean good and ungrouped channels, given columns are used as they are, the scales are those of `AREASCAL` and
`BACKSCAL` (one if absent), and `HDUCLAS2` decides whether the spectrum is background-subtracted. -/
theorem C58_spectrum (p : Pha) (arg : Option Bool) :
    (p.counts = none → p.rate = none → p.rates = none → p.read arg = .error .valueError) ∧
    ((p.counts ≠ none ∨ p.rate ≠ none ∨ p.rates ≠ none) → p.poisserr = none → arg = none →
      p.read arg = .error .runtimeError) ∧
    (p.Flag arg false → p.statErr = none → p.read arg = .error .valueError) ∧
    ∀ s, p.read arg = .ok s → p.Flag arg s.poisson ∧ p.Counts s.counts ∧ s.exposure = p.exposure ∧
      (s.poisson = true → s.errors = s.counts.map Real.sqrt) ∧
      (p.quality = none → s.quality = List.replicate s.counts.length 0) ∧
      (p.grouping = none → s.grouping = List.replicate s.counts.length 1) ∧
      (∀ q, p.quality = some (.inr q) → s.quality = q) ∧
      (∀ g0 gs, p.grouping = some (.inr (g0 :: gs)) → s.grouping = (if g0 = -1 then 1 else g0) :: gs) ∧
      (∀ k < s.counts.length, s.areaScale.getD k 0 = givenScale p.areaScal (s.quality.getD k 0) k ∧
        s.backScale.getD k 0 = givenScale p.backScal (s.quality.getD k 0) k) ∧
      (s.netOpt = some true ↔ p.hduclas2 = "NET") ∧
      (s.netOpt = some false ↔ p.hduclas2 = "TOTAL" ∨ p.hduclas2 = "BKG") := by
  refine ⟨?_, ?_, ?_, ?_⟩
  · intro h1 h2 h3
    simp [Pha.read, Pha.toInput, h1, h2, h3, bind, Except.bind]
  · intro h1 h2 h3
    unfold Pha.read Pha.toInput Pha.poissonFlag
    rw [h2, h3]
    cases h4 : p.counts <;> cases h5 : p.rate <;> cases h6 : p.rates <;> simp [bind, Except.bind]
    simp [h4, h5, h6] at h1
  · intro h1 h2
    rw [← flag_iff] at h1
    unfold Pha.read Pha.toInput
    simp only [h1]
    have hr : p.refused false = true := by simp [Pha.refused, h2]
    rw [hr]
    simp only [if_true]
    split <;> rfl
  · intro s hs
    obtain ⟨h1, b, hb, hr, hi⟩ := read_ok.1 hs
    obtain ⟨_, hc, hx, hpp, herr, _⟩ := (C21_spectrum (p.input b)).2 s hi
    have hcc : s.counts = p.countsArr := hc
    have hpb : s.poisson = b := hpp
    obtain ⟨q1, q2, q3⟩ : s.quality = columnOr (List.replicate p.countsArr.length 0) p.quality ∧
        (p.grouping = none → s.grouping = List.replicate p.countsArr.length 1) ∧ s.netOpt = (p.input b).net := by
      obtain ⟨f1, f2, g0, gs, f3, f4⟩ := init_fields hi
      refine ⟨f1, fun hgn => ?_, f2⟩
      simp only [Pha.input, Option.getD_some, hgn, columnOr] at f3
      have : g0 = 1 := List.eq_of_mem_replicate (f3 ▸ List.mem_cons_self : g0 ∈ List.replicate p.countsArr.length (1 : Int))
      subst this
      rw [f4, f3]; simp
    obtain ⟨w1, _, ⟨w2, w3, w4, w5⟩, _, _, w6⟩ := C21_spectrum_scales _ _ hi
    have hgiven : ∀ x q k, givenScale (some (Option.getD x (.inl 1))) q k = givenScale x q k := by
      intro x q k; cases x <;> rfl
    refine ⟨hpb ▸ hb, hcc ▸ counts_spec h1, hx, ?_, ?_, ?_, ?_, ?_, ?_, ?_, ?_⟩
    · intro hp
      rw [hpb] at hp
      subst hp
      rw [herr rfl, hcc]
      simp [Pha.input, Pha.errArr, Pha.statArr]
    · intro hq; rw [q1, hq, hcc]; rfl
    · intro hq; rw [q2 hq, hcc]
    · intro q hq; rw [q1, hq]; rfl
    · intro g0 gs hg
      rw [w5]
      simp only [Pha.input, hg, columnOr, Option.getD_some, List.cons.injEq] at w4
      rw [w4.1, w4.2]
    · intro k hk
      rw [hcc] at hk
      obtain ⟨v1, v2⟩ := w6 k hk
      exact ⟨by rw [v1]; exact hgiven _ _ _, by rw [v2]; exact hgiven _ _ _⟩
    · rw [q3]; simp only [Pha.input]
      by_cases h : p.hduclas2 = "NET"
      · simp [h]
      · simp only [h, if_false, iff_false]
        split <;> simp
    · rw [q3]; simp only [Pha.input]
      by_cases h : p.hduclas2 = "NET"
      · simp [h]
      · simp only [h, if_false]
        split <;> rename_i h' <;> simp [h']

example : ∃ s, exPha.read (some true) = .ok s ∧ s.poisson = false := by
  obtain ⟨s, h1, h2, _⟩ := exPha_reads
  exact ⟨s, h1, h2⟩

/-! ## C59: names -/

/-- A usable instrument name. -/
def UsableName (s : String) : Prop := ¬ (s.toLower = "" ∨ s.toLower = "none" ∨ s.toLower = "unknown")

theorem placeholder_iff (s : String) : placeholderName s = false ↔ UsableName s := by
  unfold placeholderName UsableName
  rw [decide_eq_false_iff_not]
  simp

theorem usable_ne_empty {s : String} (h : UsableName s) : s ≠ "" := by
  rintro rfl
  exact h (.inl (by decide +kernel))

/-- **C59.**  The name of a dataset is the given non-empty name; otherwise the first usable one among `DETNAM`, `INSTRUME`
and `TELESCOP` (empty, "none" and "unknown", in any case, are not usable); otherwise an error asks for a name. -/
theorem C59_name (arg : Option String) (k : NameKeys) :
    (∀ s, arg = some s → s ≠ "" → dataName arg k = .ok s) ∧
    ((∀ s, arg = some s → s = "") →
      (∀ s, k.detnam = some s → UsableName s → dataName arg k = .ok s) ∧
      ((∀ s, k.detnam = some s → ¬ UsableName s) →
        (∀ s, k.instrume = some s → UsableName s → dataName arg k = .ok s) ∧
        ((∀ s, k.instrume = some s → ¬ UsableName s) →
          (∀ s, k.telescop = some s → UsableName s → dataName arg k = .ok s) ∧
          ((∀ s, k.telescop = some s → ¬ UsableName s) → dataName arg k = .error .valueError)))) := by
  have hstep : ∀ (x : Option String) (xs : List (Option String)),
      (∀ s, x = some s → UsableName s → nameLoop (x :: xs) = s) ∧
      ((∀ s, x = some s → ¬ UsableName s) → nameLoop (x :: xs) = nameLoop xs) := by
    intro x xs
    constructor
    · rintro s rfl hs
      simp only [nameLoop, Option.getD_some]
      rw [(placeholder_iff s).2 hs]; rfl
    · intro h
      simp only [nameLoop]
      have : placeholderName (x.getD "") = true := by
        cases x with
        | none => decide +kernel
        | some s =>
          by_contra hc
          exact h s rfl ((placeholder_iff s).1 (by simpa using hc))
      rw [this]; rfl
  constructor
  · rintro s rfl hs
    simp [dataName, hs]
  · intro harg
    have ha : arg.getD "" = "" := by
      cases arg with
      | none => rfl
      | some s => exact harg s rfl
    have hname : ∀ s, k.name = s → UsableName s → dataName arg k = .ok s := by
      intro s hs hu
      unfold dataName
      rw [if_neg (by simp [ha]), hs, if_pos (usable_ne_empty hu)]
    refine ⟨fun s h1 h2 => hname s ((hstep _ _).1 s h1 h2) h2, fun hd => ⟨fun s h1 h2 => hname s ?_ h2,
      fun hi => ⟨fun s h1 h2 => hname s ?_ h2, fun ht => ?_⟩⟩⟩
    · unfold NameKeys.name
      rw [(hstep _ _).2 hd]; exact (hstep _ _).1 s h1 h2
    · unfold NameKeys.name
      rw [(hstep _ _).2 hd, (hstep _ _).2 hi]; exact (hstep _ _).1 s h1 h2
    · have : k.name = "" := by
        unfold NameKeys.name
        rw [(hstep _ _).2 hd, (hstep _ _).2 hi, (hstep _ _).2 ht]; rfl
      unfold dataName
      rw [if_neg (by simp [ha]), this]; simp

example : dataName none ⟨some "NONE", some "Unknown", some "SWIFT"⟩ = .ok "SWIFT" := by decide +kernel

/-! ## C60: photon energy grid -/

/-- **C60.**  For every response with increasing positive bin edges (except possibly the lowest, which may be zero or
negative) and second edge above `1e-30`, the photon energy grid is positive and strictly increasing, ends
at the last upper edge, and differs from the edges in the file only in a non-positive lowest edge. -/
theorem C60_photon_grid (e0 e1 : ℝ) (es ehi : List ℝ) (last : ℝ) (hl : ehi.getLast? = some last) (h1 : 1e-30 < e1)
    (h01 : e0 < e1) (hs : (e1 :: es ++ [last]).Pairwise (· < ·)) :
    ∃ g, photonGrid (e0 :: e1 :: es) ehi = .ok (g :: e1 :: es ++ [last]) ∧ 0 < g ∧ (0 < e0 → g = e0) ∧
      (g :: e1 :: es ++ [last]).Pairwise (· < ·) := by
  refine ⟨if e0 ≤ 0 then max 1e-30 (0.001 * e1) else e0, ?_, ?_, ?_, ?_⟩
  · simp only [photonGrid, hl, List.cons_append]
  · split
    · exact lt_of_lt_of_le (by norm_num) (le_max_left _ _)
    · rename_i h; push Not at h; exact h
  · intro h; rw [if_neg (not_le.2 h)]
  · have hg : (if e0 ≤ 0 then max 1e-30 (0.001 * e1) else e0) < e1 := by
      split
      · apply max_lt h1
        have : (0 : ℝ) < e1 := lt_trans (by norm_num) h1
        linarith
      · exact h01
    rw [List.cons_append, List.cons_append, List.pairwise_cons]
    refine ⟨?_, hs⟩
    intro x hx
    rcases List.mem_cons.1 hx with rfl | hx
    · exact hg
    · rw [List.cons_append, List.pairwise_cons] at hs
      exact hg.trans (hs.1 x hx)

example : photonGrid [0, 1, 2] [1, 2, 3] = .ok [0.001, 1, 2, 3] := by
  norm_num [photonGrid]

end Elisa.Data
