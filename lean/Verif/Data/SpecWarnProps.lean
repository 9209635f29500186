import Verif.Data.SpecWarn
import Verif.Data.OgipSpec

namespace Elisa.Data

open Elisa Elisa.Grouping

theorem step_same {α β : Type} {c : Prop} [Decidable c] {e : Except PyErr α} {w : β} {x : β × Except PyErr α} {y : Except PyErr α} (h : x.2 = y) :
    (if c then (w, e) else x).2 = if c then e else y := by
  split
  · rfl
  · exact h

theorem make_same (f : WarnFlags) (i : SpecInput) : (Spectrum.make f i).2 = Spectrum.init i := by
  unfold Spectrum.make Spectrum.init
  dsimp only
  iterate 15 refine step_same ?_
  generalize i.grouping.getD (List.replicate i.counts.length 1) = g
  cases g <;> rfl

theorem if_err' {α β : Type} {c : Prop} [Decidable c] {e : PyErr} {w : β} {x : β × Except PyErr α} {s : α} (h : (if c then (w, .error e) else x).2 = .ok s) :
    (if c then (w, .error e) else x) = x ∧ x.2 = .ok s ∧ ¬ c := by
  by_cases hc : c
  · rw [if_pos hc] at h; cases h
  · rw [if_neg hc] at h ⊢
    exact ⟨rfl, h, hc⟩

/-- What is warned about a spectrum that is accepted. -/
theorem make_warns {f : WarnFlags} {i : SpecInput} {s : Spectrum} (h : (Spectrum.make f i).2 = .ok s) :
    (∀ e ∈ i.errors, 0 ≤ e) ∧ (∀ e ∈ expand i.counts.length i.sysErrors, 0 ≤ e) ∧ i.errors.length = i.counts.length ∧ (expand i.counts.length i.sysErrors).length = i.counts.length ∧
    (s.poisson = i.poisson ∧ s.counts = i.counts ∧ s.exposure = i.exposure ∧ s.errors = if i.poisson then i.errors else
              List.zipWith (fun (e : ℝ) (sc : ℝ × ℝ) => Real.sqrt (e ^ 2 + (sc.1 * sc.2) ^ 2)) i.errors (List.zip (expand i.counts.length i.sysErrors) i.counts)) ∧
    (Spectrum.make f i).1 = warnIf (i.poisson && f.nonInt && nonIntegers i.counts) .nonInteger ++
      warnIf (i.poisson && f.sysErrors && (expand i.counts.length i.sysErrors).any fun e => decide (0 < e)) .sysIgnored ++
      warnIf (zeroScale s.quality (expand i.counts.length i.areaScale)) .areaReset ++ warnIf (zeroScale s.quality (expand i.counts.length i.backScale)) .backReset ++
      warnIf (!i.poisson && f.zeroErrors && i.errors.any fun e => decide (e = 0)) .zeroErrors ++
      warnIf (decide ((i.grouping.getD (List.replicate i.counts.length 1)).head? = some (-1))) .groupingReset := by
  unfold Spectrum.make at h ⊢
  dsimp only at h ⊢
  obtain ⟨r, h, a1⟩ := if_err' h; rw [r]; clear r
  obtain ⟨r, h, a2⟩ := if_err' h; rw [r]; clear r
  obtain ⟨r, h, a3⟩ := if_err' h; rw [r]; clear r
  obtain ⟨r, h, a4⟩ := if_err' h; rw [r]; clear r
  obtain ⟨r, h, a5⟩ := if_err' h; rw [r]; clear r
  obtain ⟨r, h, a6⟩ := if_err' h; rw [r]; clear r
  obtain ⟨r, h, a7⟩ := if_err' h; rw [r]; clear r
  obtain ⟨r, h, a8⟩ := if_err' h; rw [r]; clear r
  obtain ⟨r, h, a9⟩ := if_err' h; rw [r]; clear r
  obtain ⟨r, h, b1⟩ := if_err' h; rw [r]; clear r
  obtain ⟨r, h, b2⟩ := if_err' h; rw [r]; clear r
  obtain ⟨r, h, b3⟩ := if_err' h; rw [r]; clear r
  obtain ⟨r, h, b4⟩ := if_err' h; rw [r]; clear r
  obtain ⟨r, h, b5⟩ := if_err' h; rw [r]; clear r
  obtain ⟨r, h, b6⟩ := if_err' h; rw [r]; clear r
  refine ⟨by simpa using a9, by simpa using b1, not_not.1 a1, expand_length (by simpa using a6), ?_⟩
  split at h
  · cases h
  · rename_i g0 gs hg
    cases h
    refine ⟨⟨rfl, rfl, rfl, rfl⟩, ?_⟩
    rw [hg]
    simp [List.append_assoc]

theorem mem_warnIf {b : Bool} {w v : Warn} : v ∈ warnIf b w ↔ b = true ∧ v = w := by
  unfold warnIf; split <;> simp_all

theorem resetZero_eq_iff : ∀ {q : List Int} {x : List ℝ}, q.length = x.length → (resetZero q x = x ↔ zeroScale q x = false)
  | [], [], _ => by simp [resetZero, zeroScale]
  | q :: qs, x :: xs, h => by
    have ih := resetZero_eq_iff (q := qs) (x := xs) (by simpa using h)
    simp only [resetZero, zeroScale, List.zipWith_cons_cons, List.zip_cons_cons, List.any_cons, List.cons.injEq, Bool.or_eq_false_iff, decide_eq_false_iff_not] at ih ⊢
    rw [ih]
    refine and_congr_left fun _ => ?_
    by_cases hc : x = 0 ∧ q ≠ 1
    · rw [if_pos hc]; simp [hc.1, hc.2]
    · rw [if_neg hc]; simp [hc]

/-- The counts differ from whole numbers by more than the tolerance. -/
def FarFromIntegers (counts : List ℝ) : Prop := ∃ c ∈ counts, ∀ z : ℤ, 1 / 10 ^ 8 * c < |c - z|

theorem nonIntegers_iff {counts : List ℝ} : nonIntegers counts = true ↔ FarFromIntegers counts := by
  unfold nonIntegers FarFromIntegers
  simp only [List.any_eq_true, decide_eq_true_eq]
  refine exists_congr fun c => and_congr_right fun _ => ⟨fun h z => lt_of_lt_of_le h (round_le c z), fun h => h _⟩

/-- **C160 (values).** Whatever warnings are switched off: a spectrum is accepted or refused in the same way, and counts, quality flags, exposure and the kind of statistics of an
accepted one are as given. -/
theorem C160_values (f : WarnFlags) (i : SpecInput) (s : Spectrum) (h : (Spectrum.make f i).2 = .ok s) :
    (∀ g, (Spectrum.make g i).2 = (Spectrum.make f i).2) ∧ s.counts = i.counts ∧ s.quality = i.quality.getD (List.replicate i.counts.length 0) ∧ s.exposure = i.exposure ∧
      s.poisson = i.poisson ∧ s.netOpt = i.net := by
  obtain ⟨-, -, -, -, ⟨h1, h2, h3, -⟩, -⟩ := make_warns h
  rw [make_same] at h
  obtain ⟨f1, f2, -⟩ := init_fields h
  exact ⟨fun g => by rw [make_same, make_same], h2, f1, h3, h1, f2⟩

/-- **C160 (scales and grouping).** The stored scales and grouping flags differ from the given ones exactly if the user is warned, and these warnings cannot be switched off. -/
theorem C160_resets (f : WarnFlags) (i : SpecInput) (s : Spectrum) (h : (Spectrum.make f i).2 = .ok s) :
    (Warn.areaReset ∈ (Spectrum.make f i).1 ↔ s.areaScale ≠ expand i.counts.length i.areaScale) ∧
      (Warn.backReset ∈ (Spectrum.make f i).1 ↔ s.backScale ≠ expand i.counts.length i.backScale) ∧
      (Warn.groupingReset ∈ (Spectrum.make f i).1 ↔ s.grouping ≠ i.grouping.getD (List.replicate i.counts.length 1)) := by
  obtain ⟨-, -, -, -, -, hw⟩ := make_warns h
  rw [make_same] at h
  obtain ⟨f1, f2, g0, gs, hg, hs⟩ := init_fields h
  obtain ⟨a, b, q, e1, e2⟩ := init_scales h
  have ra := resetZero_eq_iff (q := s.quality) (x := expand i.counts.length i.areaScale) (by rw [expand_length a, q])
  have rb := resetZero_eq_iff (q := s.quality) (x := expand i.counts.length i.backScale) (by rw [expand_length b, q])
  rw [hw]
  refine ⟨?_, ?_, ?_⟩
  · rw [e1, Ne, ra]; simp [mem_warnIf]
  · rw [e2, Ne, rb]; simp [mem_warnIf]
  · rw [hg, hs]
    simp [mem_warnIf]
    omega

/-- **C160 (systematic errors).** Of an accepted Poisson spectrum the systematic errors are ignored; the user is warned, unless the warning is switched off, exactly if one of them
is not zero.  For other spectra there is no such warning. -/
theorem C160_systematics (f : WarnFlags) (i : SpecInput) (s : Spectrum) (h : (Spectrum.make f i).2 = .ok s) :
    (s.poisson = true → s.errors = i.errors) ∧
      (Warn.sysIgnored ∈ (Spectrum.make f i).1 ↔ s.poisson = true ∧ f.sysErrors = true ∧ ∃ e ∈ expand i.counts.length i.sysErrors, e ≠ 0) := by
  obtain ⟨-, hs, -, -, ⟨h1, -, -, h4⟩, hw⟩ := make_warns h
  refine ⟨fun hp => by rw [h4, if_pos (h1 ▸ hp)], ?_⟩
  rw [hw, h1]
  simp only [List.mem_append, mem_warnIf, reduceCtorEq, and_false, or_false, false_or, and_true, Bool.and_eq_true, List.any_eq_true, decide_eq_true_eq, and_assoc]
  refine and_congr_right fun _ => and_congr_right fun _ => exists_congr fun e => and_congr_right fun he => ?_
  exact ⟨fun h => h.ne', fun h => lt_of_le_of_ne (hs e he) h.symm⟩

/-- **C160 (whole numbers).** The user is warned, unless the warning is switched off, exactly if the counts of a Poisson spectrum are farther from a whole number than 10^-8 of
themselves.  What is missing: counts that are closer, see the counterexample below. -/
theorem C160_integer_partial (f : WarnFlags) (i : SpecInput) (s : Spectrum) (h : (Spectrum.make f i).2 = .ok s) :
    Warn.nonInteger ∈ (Spectrum.make f i).1 ↔ s.poisson = true ∧ f.nonInt = true ∧ FarFromIntegers i.counts := by
  obtain ⟨-, -, -, -, ⟨h1, -⟩, hw⟩ := make_warns h
  rw [hw, h1, ← nonIntegers_iff]
  simp only [List.mem_append, mem_warnIf, reduceCtorEq, and_false, or_false, and_true, Bool.and_eq_true, and_assoc]

/-- **C160 (zero errors).** For a spectrum with Gaussian errors and the warning switched on: without the warning all stored errors are positive, and the warning means that a given
error is zero.  What is missing: the stored error may still be positive, see the counterexample below. -/
theorem C160_zero_partial (f : WarnFlags) (i : SpecInput) (s : Spectrum) (h : (Spectrum.make f i).2 = .ok s) (hf : f.zeroErrors = true) (hp : s.poisson = false) :
    (Warn.zeroErrors ∈ (Spectrum.make f i).1 ↔ 0 ∈ i.errors) ∧ (Warn.zeroErrors ∉ (Spectrum.make f i).1 → ∀ e ∈ s.errors, 0 < e) := by
  obtain ⟨he, -, -, -, ⟨h1, -, -, h4⟩, hw⟩ := make_warns h
  have hip : i.poisson = false := h1 ▸ hp
  have key : Warn.zeroErrors ∈ (Spectrum.make f i).1 ↔ 0 ∈ i.errors := by
    rw [hw]
    simp [mem_warnIf, hip, hf]
  refine ⟨key, fun hn e hm => ?_⟩
  rw [key] at hn
  rw [h4, hip] at hm
  obtain ⟨k, hk, rfl⟩ := List.mem_iff_getElem.1 hm
  simp only [Bool.false_eq_true, if_false, List.getElem_zipWith]
  simp only [Bool.false_eq_true, if_false, List.length_zipWith, List.length_zip, lt_min_iff] at hk
  have hm' := List.getElem_mem hk.1
  have : 0 < i.errors[k]'hk.1 := lt_of_le_of_ne (he _ hm') fun h0 => hn (h0 ▸ hm')
  positivity

/-- No warning is repeated. -/
theorem C160_once (f : WarnFlags) (i : SpecInput) (s : Spectrum) (h : (Spectrum.make f i).2 = .ok s) : (Spectrum.make f i).1.Nodup := by
  obtain ⟨-, -, -, -, -, hw⟩ := make_warns h
  rw [hw]
  simp only [warnIf]
  split_ifs <;> decide

/-- Counts of a thousand million and a half, with any kind of errors. -/
noncomputable def exHalf : SpecInput where
  counts := [10 ^ 9 + 1 / 2]
  errors := [1]
  poisson := true
  exposure := 1
  quality := none
  grouping := none
  areaScale := .inl 1
  backScale := .inl 1
  net := none
  sysErrors := .inl 0

/-- **C160 (whole numbers) fails for large counts.**  A Poisson spectrum with 10^9 + 1/2 counts is accepted without any warning. -/
theorem C160_integer_refuted : ∃ s, Spectrum.make {} exHalf = ([], .ok s) ∧ s.poisson = true ∧ s.counts = [10 ^ 9 + 1 / 2] ∧ ∀ z : ℤ, (10 ^ 9 + 1 / 2 : ℝ) ≠ z := by
  have hi : ∃ s, Spectrum.init exHalf = .ok s := by
    refine (C21_spectrum exHalf).1.2 ⟨?_, ?_, ?_, ?_, ?_, ?_, ?_, ?_, ?_, ?_, ?_, ?_, ?_⟩ <;> norm_num [exHalf] <;> rintro _ ⟨⟩
  obtain ⟨s, hs⟩ := hi
  have hm : (Spectrum.make {} exHalf).2 = .ok s := by rw [make_same, hs]
  obtain ⟨-, -, -, -, ⟨h1, h2, -⟩, hw⟩ := make_warns hm
  have hz : ∀ z : ℤ, (10 ^ 9 + 1 / 2 : ℝ) ≠ z := by
    intro z hz
    have : (2 * z : ℤ) = 2 * 10 ^ 9 + 1 := by
      have : ((2 * z : ℤ) : ℝ) = ((2 * 10 ^ 9 + 1 : ℤ) : ℝ) := by push_cast; rw [← hz]; norm_num
      exact_mod_cast this
    omega
  refine ⟨s, Prod.ext ?_ hm, h1, h2, hz⟩
  rw [hw, (init_fields hs).1]
  have hn : nonIntegers exHalf.counts = false := by
    rw [Bool.eq_false_iff, Ne, nonIntegers_iff]
    rintro ⟨c, hc, h⟩
    obtain rfl : c = 10 ^ 9 + 1 / 2 := by simpa [exHalf] using hc
    have := h (10 ^ 9)
    norm_num at this
  rw [hn]
  simp [exHalf, warnIf, expand, zeroScale]

/-- Ten counts without a statistical error but with a systematic error of ten percent. -/
noncomputable def exSys : SpecInput where
  counts := [10]
  errors := [0]
  poisson := false
  exposure := 1
  quality := none
  grouping := none
  areaScale := .inl 0
  backScale := .inl 1
  net := none
  sysErrors := .inl (1 / 10)

theorem exSys_ok : ∃ s, (Spectrum.make {} exSys).2 = .ok s := by
  rw [make_same]
  refine (C21_spectrum exSys).1.2 ⟨?_, ?_, ?_, ?_, ?_, ?_, ?_, ?_, ?_, ?_, ?_, ?_, ?_⟩ <;> norm_num [exSys] <;> rintro _ ⟨⟩

/-- **C160 (zero errors) fails with systematic errors.**  The user is warned about zero errors although the only error of the spectrum is one. -/
theorem C160_zero_refuted : ∃ s, (Spectrum.make {} exSys).2 = .ok s ∧ Warn.zeroErrors ∈ (Spectrum.make {} exSys).1 ∧ s.errors = [1] := by
  obtain ⟨s, hs⟩ := exSys_ok
  obtain ⟨-, -, -, -, ⟨h1, h2, -, h4⟩, hw⟩ := make_warns hs
  refine ⟨s, hs, (C160_zero_partial {} exSys s hs rfl h1).1.2 (by simp [exSys]), ?_⟩
  rw [h4]
  norm_num [exSys, expand]

example := C160_values {} exSys
example := (C160_resets {} exSys _ exSys_ok.choose_spec).1
example := C160_systematics ⟨true, true, true⟩ exSys _ exSys_ok.choose_spec
example : ∃ s, (Spectrum.make {} exHalf).2 = .ok s ∧ Warn.nonInteger ∉ (Spectrum.make {} exHalf).1 := by
  obtain ⟨s, h, -⟩ := C160_integer_refuted
  exact ⟨s, by rw [h], by rw [h]; simp⟩
example := C160_integer_partial {} exSys _ exSys_ok.choose_spec
example := C160_once {} exSys _ exSys_ok.choose_spec

/-! ## Files -/

theorem load_ok {p : Pha} {arg : Option Bool} {s : Spectrum} (h : (p.load arg).2 = .ok s) :
    p.read arg = .ok s ∧ p.refused s.poisson = false ∧ (Spectrum.make ⟨false, false, false⟩ (p.input s.poisson)).2 = .ok s ∧
      (p.load arg).1 = p.ownWarnings s.poisson ++ (Spectrum.make ⟨false, false, false⟩ (p.input s.poisson)).1 := by
  unfold Pha.load at h ⊢
  cases ht : p.toInput arg with
  | error e => rw [ht] at h; cases h
  | ok i =>
    rw [ht] at h
    dsimp only at h ⊢
    have hm := make_warns h
    have hi := h
    rw [make_same] at hi
    have hr : p.read arg = .ok s := by unfold Pha.read; rw [ht]; exact hi
    obtain ⟨-, b, hb, hf, -⟩ := read_ok.1 hr
    have hib : i = p.input b := by
      unfold Pha.toInput at ht
      rw [flag_iff.2 hb] at ht
      split at ht
      · cases ht
      · dsimp only at ht
        rw [hf] at ht
        simpa using ht.symm
    have hp : s.poisson = b := by rw [hm.2.2.2.2.1.1, hib]; rfl
    rw [hp]
    subst hib
    exact ⟨hr, hf, h, rfl⟩

/-- **C160 (files).** A spectrum read from a file is the one of C58, and the user is warned, once each: of statistical errors that are taken as those of the rate although
there are counts; of Poisson counts that are not whole numbers (up to 10^-8 of them); of zero statistical errors otherwise; of systematic errors in a column of a
Poisson spectrum; and of changed scales and grouping flags. -/
theorem C160_file (p : Pha) (arg : Option Bool) (s : Spectrum) (h : (p.load arg).2 = .ok s) :
    p.read arg = .ok s ∧ (p.load arg).1.Nodup ∧
      (Warn.errorsOfRate ∈ (p.load arg).1 ↔ s.poisson = false ∧ (p.rate ≠ none ∨ p.rates ≠ none) ∧ p.counts ≠ none) ∧
      (Warn.nonInteger ∈ (p.load arg).1 ↔ s.poisson = true ∧ FarFromIntegers s.counts) ∧
      (Warn.zeroErrors ∈ (p.load arg).1 ↔ s.poisson = false ∧ ∃ e, p.StatErrors e ∧ 0 ∈ e) ∧
      (Warn.sysIgnored ∈ (p.load arg).1 ↔ s.poisson = true ∧ ∃ f, p.sysErr = some (.inr f) ∧ ∃ e ∈ f, e ≠ 0) ∧
      (Warn.areaReset ∈ (p.load arg).1 ↔ s.areaScale ≠ expand s.counts.length (p.areaScal.getD (.inl 1))) ∧
      (Warn.backReset ∈ (p.load arg).1 ↔ s.backScale ≠ expand s.counts.length (p.backScal.getD (.inl 1))) ∧
      (Warn.groupingReset ∈ (p.load arg).1 ↔ ∃ g, p.grouping = some (.inr g) ∧ s.grouping ≠ g) := by
  obtain ⟨h1, h2, h3, h4⟩ := load_ok h
  obtain ⟨-, hsn, -, -, ⟨-, hc, -⟩, hw⟩ := make_warns h3
  obtain ⟨r1, r2, r3⟩ := C160_resets _ _ _ h3
  have hc : s.counts = p.countsArr := hc
  have fresh : ∀ w ∈ [Warn.errorsOfRate, Warn.nonInteger, Warn.zeroErrors, Warn.sysIgnored], w ∉ (Spectrum.make ⟨false, false, false⟩ (p.input s.poisson)).1 := by
    rw [hw]
    simp [mem_warnIf]
  have stale : ∀ w ∈ [Warn.areaReset, Warn.backReset, Warn.groupingReset], w ∉ p.ownWarnings s.poisson := by
    unfold Pha.ownWarnings
    simp [mem_warnIf]
  rw [h4]
  refine ⟨h1, ?_, ?_, ?_, ?_, ?_, ?_, ?_, ?_⟩
  · refine List.nodup_append.2 ⟨?_, C160_once _ _ _ h3, ?_⟩
    · simp only [Pha.ownWarnings, warnIf]
      split_ifs <;> decide
    · rintro w hw1 v hv rfl
      refine fresh w ?_ hv
      simp only [Pha.ownWarnings, List.mem_append, mem_warnIf] at hw1
      rcases hw1 with ((⟨-, rfl⟩ | ⟨-, rfl⟩) | ⟨-, rfl⟩) | ⟨-, rfl⟩ <;> simp
  · rw [List.mem_append, or_iff_left (fresh _ (by simp))]
    simp only [Pha.ownWarnings, List.mem_append, mem_warnIf]
    cases s.poisson <;> cases p.rate <;> cases p.rates <;> cases p.counts <;> simp
  · rw [List.mem_append, or_iff_left (fresh _ (by simp)), ← nonIntegers_iff, hc]
    simp only [Pha.ownWarnings, List.mem_append, mem_warnIf]
    simp
  · rw [List.mem_append, or_iff_left (fresh _ (by simp))]
    simp only [Pha.ownWarnings, List.mem_append, mem_warnIf]
    cases hp : s.poisson with
    | true => simp
    | false =>
      rw [hp] at h2
      have hst := stat_spec (refused_false h2).1
      simp only [reduceCtorEq, and_false, or_false, and_true, false_or, Bool.not_false, Bool.true_and, List.any_eq_true, decide_eq_true_eq, true_and, exists_eq_right]
      refine ⟨fun h0 => ⟨_, hst, h0⟩, ?_⟩
      rintro ⟨e, he, h0⟩
      obtain ⟨s1, a1, b1⟩ := he
      obtain ⟨s2, a2, b2⟩ := hst
      obtain rfl : s1 = s2 := by rw [a1] at a2; exact Option.some.inj a2
      rcases b1 with ⟨u1, u2, u3⟩ | ⟨u1, u3⟩ <;> rcases b2 with ⟨v1, v2, v3⟩ | ⟨v1, v3⟩
      · rw [v3, ← u3]; exact h0
      · simp_all
      · simp_all
      · rw [v3, ← u3]; exact h0
  · rw [List.mem_append, or_iff_left (fresh _ (by simp))]
    simp only [Pha.ownWarnings, List.mem_append, mem_warnIf]
    have hsn : ∀ e ∈ p.sysArr, 0 ≤ e := hsn
    simp only [reduceCtorEq, and_false, or_false, and_true, false_or, Bool.and_eq_true, List.any_eq_true, decide_eq_true_eq]
    refine and_congr_right fun _ => ?_
    unfold Pha.sysArr at hsn ⊢
    match hq : p.sysErr with
    | none => simp [columnOr]
    | some (.inl f) => simp [columnOr]
    | some (.inr f) =>
      rw [hq] at hsn
      simp only [columnOr, Option.some.injEq, Sum.inr.injEq] at hsn ⊢
      refine ⟨fun ⟨e, he, h0⟩ => ⟨f, rfl, e, he, h0.ne'⟩, ?_⟩
      rintro ⟨f', rfl, e, he, h0⟩
      exact ⟨e, he, lt_of_le_of_ne (hsn e he) h0.symm⟩
  · rw [List.mem_append, or_iff_right (stale _ (by simp)), r1, hc]
    rfl
  · rw [List.mem_append, or_iff_right (stale _ (by simp)), r2, hc]
    rfl
  · rw [List.mem_append, or_iff_right (stale _ (by simp)), r3]
    have e1 : (p.input s.poisson).grouping = some (columnOr (List.replicate p.countsArr.length 1) p.grouping) := rfl
    rw [e1, Option.getD_some]
    have hs := init_fields (i := p.input s.poisson) (by rw [← make_same]; exact h3)
    obtain ⟨-, -, g0, gs, hg, hsg⟩ := hs
    rw [e1, Option.getD_some] at hg
    have key : p.grouping = none ∨ (∃ x, p.grouping = some (.inl x)) → s.grouping = columnOr (List.replicate p.countsArr.length 1) p.grouping := by
      intro hh
      have e2 : columnOr (List.replicate p.countsArr.length 1) p.grouping = List.replicate p.countsArr.length 1 := by
        rcases hh with hh | ⟨x, hh⟩ <;> rw [hh] <;> rfl
      rw [e2] at hg ⊢
      have : g0 = 1 := by
        have : g0 ∈ List.replicate p.countsArr.length (1 : ℤ) := by rw [hg]; simp
        exact List.eq_of_mem_replicate this
      rw [hsg, hg, this]
      simp
    match hq : p.grouping with
    | none => rw [hq] at key; simpa using key (.inl rfl)
    | some (.inl x) => rw [hq] at key; simpa using key (.inr ⟨x, rfl⟩)
    | some (.inr g) => simp [columnOr]

/-- **C160 (files) fails for keywords.**  A systematic error given as a keyword of the header is ignored without a warning, whatever its value and the kind of spectrum. -/
theorem C160_keyword_refuted (p : Pha) (arg : Option Bool) (f : ℝ) :
    Pha.load { p with sysErr := some (.inl f) } arg = Pha.load { p with sysErr := none } arg := rfl

example : ∃ s, exPha.load none = ([], .ok s) := by
  obtain ⟨s, h, hp, hc⟩ := exPha_reads
  have h2 : (exPha.load none).2 = .ok s := by
    unfold Pha.load
    cases ht : exPha.toInput none with
    | error e => unfold Pha.read at h; rw [ht] at h; cases h
    | ok i => unfold Pha.read at h; rw [ht] at h; dsimp only; rw [make_same]; exact h
  obtain ⟨-, -, w1, w2, w3, w4, w5, w6, w7⟩ := C160_file _ _ _ h2
  refine ⟨s, Prod.ext (List.eq_nil_iff_forall_not_mem.2 fun w => ?_) h2⟩
  obtain ⟨-, -, h3, -⟩ := load_ok h2
  obtain ⟨-, -, -, -, -, -, -, -, hx⟩ := (C58_spectrum exPha none).2.2.2 s h
  cases w
  · rw [w2, hp]; simp
  · rw [w4, hp]; simp
  · rw [w5]
    rw [make_same] at h3
    rw [(init_scales h3).2.2.2.1, (init_fields h3).1]
    simp [exPha, Pha.input, expand, resetZero, columnOr, Pha.countsArr, hc]
  · rw [w6]
    rw [make_same] at h3
    rw [(init_scales h3).2.2.2.2, (init_fields h3).1]
    simp [exPha, Pha.input, expand, resetZero, columnOr, Pha.countsArr, hc]
  · rw [w3, hp]
    rintro ⟨-, e, ⟨s, a, b⟩, h0⟩
    simp [exPha] at a b
    subst b a
    norm_num at h0
  · rw [w7]; simp [exPha]
  · rw [w1]; simp [exPha]

end Elisa.Data
