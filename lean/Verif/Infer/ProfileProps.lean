import Verif.Infer.Profile

/-!
# C73: profile-likelihood intervals of composite parameters and functions

`D` is the fit statistic, `g` the function, `Δ` the rise of the statistic that defines the confidence level.  The exact
profile interval of `g` is the set of the values `g θ` with `D θ ≤ min D + Δ`.
-/

namespace Elisa.Infer

/-- Values of `g` on the confidence region `{θ | D θ ≤ best + Δ}`. -/
def exactProfile {Θ : Type} (D g : Θ → ℝ) (best Δ : ℝ) : Set ℝ := {x | ∃ θ, D θ ≤ best + Δ ∧ g θ = x}

/-- The set whose ends Minos is asked for: coordinates `x` for which the joint loss can be brought down to
`best + Δ` by the other coordinates. -/
def computedProfile {Θ : Type} (D g : Θ → ℝ) (rtol best Δ : ℝ) : Set ℝ :=
  {x | ∃ θ l, jointLoss D g rtol x θ = some l ∧ l ≤ best + Δ}

theorem jointLoss_some {Θ : Type} {D g : Θ → ℝ} {rtol x l : ℝ} {θ : Θ} (h : jointLoss D g rtol x θ = some l) :
    x ≠ 0 ∧ rtol ≠ 0 ∧ l = D θ + ((g θ / x - 1) * (g θ / x - 1)) / rtol := by
  unfold jointLoss at h
  split_ifs at h with hc
  push Not at hc
  exact ⟨hc.1, hc.2, (Option.some.inj h).symm⟩

theorem exact_subset {Θ : Type} {D g : Θ → ℝ} {rtol best Δ x : ℝ} (hr : 0 < rtol)
    (hx : x ∈ exactProfile D g best Δ) (h0 : x ≠ 0) : x ∈ computedProfile D g rtol best Δ := by
  obtain ⟨θ, h1, rfl⟩ := hx
  refine ⟨θ, D θ, ?_, h1⟩
  unfold jointLoss
  rw [if_neg (by push Not; exact ⟨h0, hr.ne'⟩), div_self h0]
  simp

theorem computed_near {Θ : Type} {D g : Θ → ℝ} {rtol best Δ x : ℝ} (hr : 0 < rtol) (hbest : ∀ θ, best ≤ D θ)
    (hx : x ∈ computedProfile D g rtol best Δ) :
    x ≠ 0 ∧ ∃ θ, D θ ≤ best + Δ ∧ |g θ / x - 1| ≤ Real.sqrt (rtol * Δ) := by
  obtain ⟨θ, l, h1, h2⟩ := hx
  obtain ⟨h3, h4, h5⟩ := jointLoss_some h1
  subst h5
  have hsq : 0 ≤ (g θ / x - 1) * (g θ / x - 1) := mul_self_nonneg _
  have hpen : 0 ≤ ((g θ / x - 1) * (g θ / x - 1)) / rtol := div_nonneg hsq hr.le
  refine ⟨h3, θ, by linarith, ?_⟩
  apply Real.abs_le_sqrt
  have hb := hbest θ
  have : ((g θ / x - 1) * (g θ / x - 1)) / rtol ≤ Δ := by linarith
  rw [div_le_iff₀ hr] at this
  nlinarith

/-- **C73** (partial: with the tolerance the code really has, and for functions that do not vanish at the best fit).  For
every fit statistic with best value `best = D mle`, every function and every tolerance `rtol > 0`:
the search starts in the joint minimum, whose value is the best statistic; every value the function takes inside the
confidence region belongs to the computed set; every computed value is within the relative distance `√(rtol·Δ)` of such
a value; hence for a positive function the ends of the computed set enclose the exact ends and exceed them by at most
that relative amount.  Missing with respect to C73: the documentation promises the relative tolerance `rtol`
(`C73_rtol_refuted`), and a best-fit value of zero (`C73_zero_refuted`). -/
theorem C73_profile_partial {Θ : Type} (D g : Θ → ℝ) (mle : Θ) (rtol Δ : ℝ) (hr : 0 < rtol)
    (hbest : ∀ θ, D mle ≤ D θ) (h0 : g mle ≠ 0) :
    (jointLoss D g rtol (ciStart g mle).1 (ciStart g mle).2 = some (D mle) ∧
      ∀ x θ l, jointLoss D g rtol x θ = some l → D mle ≤ l) ∧
    (∀ x ∈ exactProfile D g (D mle) Δ, x ≠ 0 → x ∈ computedProfile D g rtol (D mle) Δ) ∧
    (∀ x ∈ computedProfile D g rtol (D mle) Δ,
      ∃ y ∈ exactProfile D g (D mle) Δ, |y / x - 1| ≤ Real.sqrt (rtol * Δ)) ∧
    ((∀ θ, 0 < g θ) → Real.sqrt (rtol * Δ) < 1 → ∀ lo hi LO HI,
      IsGLB (exactProfile D g (D mle) Δ) lo → IsLUB (exactProfile D g (D mle) Δ) hi →
      IsGLB {x ∈ computedProfile D g rtol (D mle) Δ | 0 < x} LO →
      IsLUB {x ∈ computedProfile D g rtol (D mle) Δ | 0 < x} HI →
      LO ≤ lo ∧ lo ≤ (1 + Real.sqrt (rtol * Δ)) * LO ∧ hi ≤ HI ∧ (1 - Real.sqrt (rtol * Δ)) * HI ≤ hi) := by
  refine ⟨⟨?_, ?_⟩, fun x hx hx0 => exact_subset hr hx hx0, ?_, ?_⟩
  · unfold jointLoss ciStart
    rw [if_neg (by push Not; exact ⟨h0, hr.ne'⟩)]
    simp [div_self h0]
  · intro x θ l h
    obtain ⟨_, _, rfl⟩ := jointLoss_some h
    have : 0 ≤ ((g θ / x - 1) * (g θ / x - 1)) / rtol := div_nonneg (mul_self_nonneg _) hr.le
    linarith [hbest θ]
  · intro x hx
    obtain ⟨_, θ, h1, h2⟩ := computed_near hr hbest hx
    exact ⟨g θ, ⟨θ, h1, rfl⟩, h2⟩
  · intro hg hε lo hi LO HI hlo hhi hLO hHI
    set ε := Real.sqrt (rtol * Δ) with hεd
    have hε0 : 0 ≤ ε := Real.sqrt_nonneg _
    have hsub : ∀ x ∈ exactProfile D g (D mle) Δ, x ∈ {x ∈ computedProfile D g rtol (D mle) Δ | 0 < x} := by
      rintro x ⟨θ, h1, rfl⟩
      exact ⟨exact_subset hr ⟨θ, h1, rfl⟩ (hg θ).ne', hg θ⟩
    have hnear : ∀ x ∈ {x ∈ computedProfile D g rtol (D mle) Δ | 0 < x},
        ∃ y ∈ exactProfile D g (D mle) Δ, (1 - ε) * x ≤ y ∧ y ≤ (1 + ε) * x := by
      rintro x ⟨hx, hpos⟩
      obtain ⟨_, θ, h1, h2⟩ := computed_near hr hbest hx
      refine ⟨g θ, ⟨θ, h1, rfl⟩, ?_⟩
      rw [abs_le] at h2
      obtain ⟨h2, h3⟩ := h2
      have e : g θ = g θ / x * x := by field_simp
      constructor
      · rw [e]; apply mul_le_mul_of_nonneg_right _ hpos.le; linarith
      · rw [e]; apply mul_le_mul_of_nonneg_right _ hpos.le; linarith
    refine ⟨hlo.2 fun x hx => hLO.1 (hsub x hx), ?_, hhi.2 fun x hx => hHI.1 (hsub x hx), ?_⟩
    · have : lo / (1 + ε) ≤ LO := by
        apply hLO.2
        intro x hx
        obtain ⟨y, h1, _, h3⟩ := hnear x hx
        rw [div_le_iff₀ (by linarith)]
        have := hlo.1 h1
        linarith
      rw [div_le_iff₀ (by linarith)] at this
      linarith
    · have : HI ≤ hi / (1 - ε) := by
        apply hHI.2
        intro x hx
        obtain ⟨y, h1, h2, _⟩ := hnear x hx
        rw [le_div_iff₀ (by linarith)]
        have := hhi.1 h1
        linarith
      rw [le_div_iff₀ (by linarith)] at this
      linarith

/-- the hypotheses hold for a parabola around `0` and the function `θ + 10`, which is positive near the best fit -/
example : (0 : ℝ) < 1e-6 ∧ (∀ θ : ℝ, (0 : ℝ) ^ 2 ≤ θ ^ 2) ∧ (0 : ℝ) + 10 ≠ 0 ∧ (∀ θ : ℝ, 0 < Real.exp θ) ∧
    Real.sqrt (1e-6 * 1) < 1 := by
  refine ⟨by norm_num, fun θ => by nlinarith [sq_nonneg θ], by norm_num, Real.exp_pos, ?_⟩
  rw [Real.sqrt_lt' (by norm_num)]; norm_num

/-- **C73**, violation of the documented tolerance: for the statistic `θ²`, the function `θ + 10`, the default tolerance
`1e-6` and one sigma (`Δ = 1`), all values inside the confidence region are at most `11`, but the computed set contains
a value that exceeds `11` by more than four times the relative tolerance. -/
theorem C73_rtol_refuted : ∃ (D g : ℝ → ℝ) (mle x : ℝ), (∀ θ, D mle ≤ D θ) ∧ g mle ≠ 0 ∧
    (∀ y ∈ exactProfile D g (D mle) 1, y ≤ 11) ∧ x ∈ computedProfile D g 1e-6 (D mle) 1 ∧ 4 * 1e-6 < x / 11 - 1 := by
  refine ⟨fun θ => θ ^ 2, fun θ => θ + 10, 0, 11 + 5e-5, fun θ => by simp only; nlinarith [sq_nonneg θ], by norm_num, ?_, ?_, by norm_num⟩
  · rintro y ⟨θ, h, rfl⟩
    simp only at h ⊢
    nlinarith [sq_nonneg (θ - 1)]
  · refine ⟨1 - 1e-4, (1 - 1e-4) ^ 2 + (((1 - 1e-4 + 10) / (11 + 5e-5) - 1) * ((1 - 1e-4 + 10) / (11 + 5e-5) - 1)) / 1e-6,
      ?_, ?_⟩
    · unfold jointLoss
      rw [if_neg (by norm_num)]
    · norm_num

/-- **C73**, violation for a function that vanishes at the best fit: the start point of the search is not a number,
whatever the tolerance, although the confidence region is an interval around zero. -/
theorem C73_zero_refuted {Θ : Type} (D g : Θ → ℝ) (mle : Θ) (rtol : ℝ) (h0 : g mle = 0) :
    jointLoss D g rtol (ciStart g mle).1 (ciStart g mle).2 = none := by
  simp [jointLoss, ciStart, h0]

/-- e.g. the difference of two parameters with equal best fit: exact one-sigma interval `[-√2, √2]` -/
example : exactProfile (fun θ : ℝ × ℝ => θ.1 ^ 2 + θ.2 ^ 2) (fun θ => θ.1 - θ.2) 0 1 = {x | x ^ 2 ≤ 2} := by
  ext x
  constructor
  · rintro ⟨⟨a, b⟩, h1, rfl⟩
    simp only [Set.mem_ofPred_eq] at h1 ⊢
    nlinarith [sq_nonneg (a + b)]
  · intro hx
    simp only [Set.mem_ofPred_eq] at hx
    exact ⟨(x / 2, -x / 2), by simp only; nlinarith, by simp only; ring⟩

/-! ## The tolerance -/

theorem lookup_map_const {keys : List String} {k : String} {r : ℝ} (h : k ∈ keys) :
    (keys.map fun k => (k, r)).lookup k = some r := by
  induction keys with
  | nil => simp at h
  | cons a as ih =>
    rw [List.map_cons, List.lookup_cons]
    by_cases hk : k = a
    · simp [hk]
    · have : (k == a) = false := by simpa using hk
      rw [this]
      exact ih (by simpa [hk] using h)

/-- **C73**, the argument `rtol`: a number above `0.01` (for any name in a mapping) is refused with a `ValueError`, other
types with a `TypeError`; an accepted number is the tolerance of every composite parameter and function, an accepted
mapping gives the tolerances of its names, and `1e-6` to the names it lacks. -/
theorem C73_rtol_argument (keys : List String) :
    checkRtol keys .other = .error .typeError ∧
    (∀ r, (keys ≠ [] → r ≤ 0.01) ↔ ∃ d, checkRtol keys (.float r) = .ok d) ∧
    (∀ kv : List (String × ℝ), (∀ e ∈ kv, e.2 ≤ 0.01) ↔ ∃ d, checkRtol keys (.mapping kv) = .ok d) ∧
    (∀ r d, checkRtol keys (.float r) = .ok d → ∀ k ∈ keys, d.lookup k = some r) ∧
    (∀ kv d, checkRtol keys (.mapping kv) = .ok d → ∀ k ∈ keys, d.lookup k = some ((kv.lookup k).getD 1e-6)) := by
  have hlk : ∀ (kv d2 : List (String × ℝ)) k, (kv ++ d2).lookup k = (kv.lookup k).or (d2.lookup k) := by
    intro kv d2 k
    induction kv with
    | nil => rfl
    | cons a as ih =>
      rw [List.cons_append, List.lookup_cons, List.lookup_cons, ih]
      by_cases h : (k == a.1) = true
      · simp [h]
      · simp [h]
  have hnone : ∀ (kv : List (String × ℝ)) k, kv.lookup k = none ↔ k ∉ kv.map Prod.fst := by
    intro kv k
    rw [List.lookup_eq_none_iff]
    simp only [List.mem_map, not_exists, not_and, bne_iff_ne, ne_eq]
    constructor
    · intro h e he hk; exact h e he (by simp [hk])
    · intro h e he hk; exact h e he (by simpa using hk.symm)
  refine ⟨rfl, ?_, ?_, ?_, ?_⟩
  · intro r
    simp only [checkRtol]
    by_cases h : (keys.map fun k => (k, r)).any (fun e => decide (0.01 < e.2)) = true
    · rw [if_pos h]
      simp only [reduceCtorEq, exists_false, iff_false]
      simp only [List.any_map, List.any_eq_true, Function.comp_apply, decide_eq_true_eq] at h
      obtain ⟨k, hk, h⟩ := h
      intro hc
      have := hc (List.ne_nil_of_mem hk)
      linarith
    · rw [if_neg h]
      refine ⟨fun _ => ⟨_, rfl⟩, fun _ hne => ?_⟩
      obtain ⟨k, hk⟩ := List.exists_mem_of_ne_nil _ hne
      simp only [List.any_map, List.any_eq_true, Function.comp_apply, decide_eq_true_eq, not_exists, not_and, not_lt] at h
      exact h k hk
  · intro kv
    simp only [checkRtol]
    set d := kv ++ (keys.filter fun k => !(kv.map Prod.fst).contains k).map fun k => (k, (1e-6 : ℝ)) with hd
    by_cases h : d.any (fun e => decide (0.01 < e.2)) = true
    · rw [if_pos h]
      simp only [reduceCtorEq, exists_false, iff_false]
      intro hc
      rw [List.any_eq_true] at h
      obtain ⟨e, he, h⟩ := h
      rw [decide_eq_true_eq] at h
      rw [hd, List.mem_append] at he
      rcases he with he | he
      · have := hc e he; linarith
      · rw [List.mem_map] at he
        obtain ⟨k, _, rfl⟩ := he
        norm_num at h
    · rw [if_neg h]
      refine ⟨fun _ => ⟨_, rfl⟩, fun _ e he => ?_⟩
      rw [List.any_eq_true] at h
      push Not at h
      have := h e (by rw [hd]; exact List.mem_append_left _ he)
      simpa using this
  · intro r d h k hk
    simp only [checkRtol] at h
    split_ifs at h
    cases h
    exact lookup_map_const hk
  · intro kv d h k hk
    simp only [checkRtol] at h
    split_ifs at h
    cases h
    rw [hlk]
    cases hl : kv.lookup k with
    | some v => simp
    | none =>
      simp only [Option.none_or, Option.getD_none]
      apply lookup_map_const
      rw [List.mem_filter]
      refine ⟨hk, ?_⟩
      have := (hnone kv k).1 hl
      simpa using this

example : ∃ d, checkRtol ["flux", "ratio"] (.mapping [("flux", 1e-4)]) = .ok d ∧ d.lookup "ratio" = some 1e-6 := by
  obtain ⟨h1, h2, h3, h4, h5⟩ := C73_rtol_argument ["flux", "ratio"]
  obtain ⟨d, hd⟩ := (h3 [("flux", 1e-4)]).1 (by simp; norm_num)
  exact ⟨d, hd, by rw [h5 _ _ hd "ratio" (by simp)]; simp [List.lookup]⟩

/-- **C73**, violation of the argument check: every negative tolerance is accepted, and then the joint loss has no
minimum: with any function that does not vanish everywhere it falls below every bound. -/
theorem C73_negative_rtol_refuted (keys : List String) (r : ℝ) (hr : r < 0) :
    (∃ d, checkRtol keys (.float r) = .ok d) ∧
    ∀ {Θ : Type} (D g : Θ → ℝ) (θ : Θ), g θ ≠ 0 → ∀ bound, ∃ x l, jointLoss D g r x θ = some l ∧ l < bound := by
  refine ⟨((C73_rtol_argument keys).2.1 r).1 fun _ => by norm_num; linarith, ?_⟩
  intro Θ D g θ hg bound
  set t := |D θ| + |bound| + 1 with ht
  have ht1 : 1 ≤ t := by have := abs_nonneg (D θ); have := abs_nonneg bound; linarith
  set m := 1 + t * (1 - r) with hm
  have hm1 : 1 < m := by rw [hm]; nlinarith
  refine ⟨g θ / m, D θ + ((g θ / (g θ / m) - 1) * (g θ / (g θ / m) - 1)) / r, ?_, ?_⟩
  · unfold jointLoss
    rw [if_neg]
    push Not
    exact ⟨div_ne_zero hg (by linarith), hr.ne⟩
  · have e : g θ / (g θ / m) - 1 = t * (1 - r) := by
      rw [div_div_cancel₀ hg]; rw [hm]; ring
    rw [e]
    have h1 : t * (1 - r) * (t * (1 - r)) / r ≤ -t := by
      rw [div_le_iff_of_neg hr]
      have h2 : (1 : ℝ) ≤ 1 - r := by linarith
      have h3 : t ≤ t * (1 - r) := by nlinarith
      have h4 : (1 - r) ≤ t * (1 - r) := by nlinarith
      have h5 : t * (1 - r) ≤ t * (1 - r) * (t * (1 - r)) := by
        have : 1 ≤ t * (1 - r) := by linarith
        nlinarith
      nlinarith
    have := le_abs_self (D θ)
    have := neg_abs_le bound
    linarith

/-! ## The search for a usable tolerance -/

theorem geomGrid_bounds {a b x : ℝ} (ha : 0 < a) (hab : a < b) (hx : x ∈ geomGrid a b) : a < x ∧ x ≤ b := by
  unfold geomGrid at hx
  rw [List.mem_map] at hx
  obtain ⟨k, hk, rfl⟩ := hx
  rw [List.mem_range] at hk
  have hq : 1 < b / a := by rw [lt_div_iff₀ ha]; linarith
  have hk' : ((k + 1 : Nat) : ℝ) ≤ 14 := by exact_mod_cast (by omega : k + 1 ≤ 14)
  constructor
  · have : 1 < (b / a) ^ (((k + 1 : Nat) : ℝ) / 14) := Real.one_lt_rpow hq (by positivity)
    nlinarith
  · have : (b / a) ^ (((k + 1 : Nat) : ℝ) / 14) ≤ (b / a) ^ (1 : ℝ) :=
      Real.rpow_le_rpow_of_exponent_le hq.le (by rw [div_le_one (by norm_num)]; exact hk')
    rw [Real.rpow_one] at this
    calc a * (b / a) ^ (((k + 1 : Nat) : ℝ) / 14) ≤ a * (b / a) := by nlinarith
      _ = b := by field_simp

theorem geomGrid_sorted {a b : ℝ} (ha : 0 < a) (hab : a < b) : (geomGrid a b).Pairwise (· < ·) := by
  unfold geomGrid
  rw [List.pairwise_map]
  refine List.pairwise_lt_range.imp ?_
  intro i j hij
  have hq : 1 < b / a := by rw [lt_div_iff₀ ha]; linarith
  have : (b / a) ^ (((i + 1 : Nat) : ℝ) / 14) < (b / a) ^ (((j + 1 : Nat) : ℝ) / 14) := by
    apply Real.rpow_lt_rpow_of_exponent_lt hq
    have : ((i + 1 : Nat) : ℝ) < ((j + 1 : Nat) : ℝ) := by exact_mod_cast (by omega)
    linarith
  nlinarith

theorem find?_first {xs : List ℝ} {p : ℝ → Bool} {r : ℝ} (hs : xs.Pairwise (· < ·)) (h : xs.find? p = some r) :
    ∀ x ∈ xs, x < r → p x = false := by
  induction xs with
  | nil => simp at h
  | cons a as ih =>
    rw [List.pairwise_cons] at hs
    intro x hx hlt
    rw [List.find?_cons] at h
    cases hp : p a with
    | true =>
      rw [hp] at h
      obtain rfl := Option.some.inj h
      rcases List.mem_cons.1 hx with rfl | hx
      · exact absurd hlt (lt_irrefl _)
      · exact absurd hlt (not_lt.2 (hs.1 x hx).le)
    | false =>
      rw [hp] at h
      rcases List.mem_cons.1 hx with rfl | hx
      · exact hp
      · exact ih hs.2 h x hx hlt

/-- **C73**, relaxing the tolerance: the tolerance used is the requested one, unless that one does not converge and a
larger one does; then it is the smallest converging one among the tried tolerances, the largest tried one
is the limit itself, and it is at most `0.01`, at most one percent of the relative standard error and at most a hundred
times the requested one. -/
theorem C73_rtol_search (accurate : ℝ → Bool) (relErr rtol : ℝ) (hr : 0 < rtol) :
    let r := rtolSearch accurate relErr rtol
    rtol ≤ r ∧ (accurate rtol = true → r = rtol) ∧
    (r ≠ rtol → accurate rtol = false ∧ accurate r = true ∧ r ∈ geomGrid rtol (rtolMax relErr rtol) ∧
      (∀ x ∈ geomGrid rtol (rtolMax relErr rtol), x < r → accurate x = false) ∧
      r ≤ 0.01 ∧ r ≤ 0.01 * relErr ∧ r ≤ 100 * rtol) ∧
    (accurate rtol = false → rtol < rtolMax relErr rtol → accurate (rtolMax relErr rtol) = true → accurate r = true) := by
  intro r
  have hcase : r = rtol ∨ (accurate rtol = false ∧ rtol < rtolMax relErr rtol ∧
      (geomGrid rtol (rtolMax relErr rtol)).find? accurate = some r) := by
    simp only [r, rtolSearch]
    cases ha : accurate rtol with
    | true => left; simp
    | false =>
      simp only [Bool.not_false, if_true]
      by_cases hlt : rtol < rtolMax relErr rtol
      · rw [if_pos hlt]
        cases hf : (geomGrid rtol (rtolMax relErr rtol)).find? accurate with
        | none => left; rfl
        | some x => right; exact ⟨trivial, hlt, rfl⟩
      · rw [if_neg hlt]; left; rfl
  refine ⟨?_, ?_, ?_, ?_⟩
  · rcases hcase with h | ⟨_, h2, h3⟩
    · rw [h]
    · exact (geomGrid_bounds hr h2 (List.mem_of_find?_eq_some h3)).1.le
  · intro ha
    rcases hcase with h | ⟨h1, _⟩
    · exact h
    · rw [ha] at h1; cases h1
  · intro hne
    rcases hcase with h | ⟨h1, h2, h3⟩
    · exact absurd h hne
    · have hb := (geomGrid_bounds hr h2 (List.mem_of_find?_eq_some h3)).2
      refine ⟨h1, by simpa using List.find?_some h3, List.mem_of_find?_eq_some h3,
        find?_first (geomGrid_sorted hr h2) h3, ?_, ?_, ?_⟩
      · exact hb.trans (min_le_left _ _)
      · exact hb.trans ((min_le_right _ _).trans (min_le_left _ _))
      · exact hb.trans ((min_le_right _ _).trans (min_le_right _ _))
  · intro h1 h2 h3
    have hmem : rtolMax relErr rtol ∈ geomGrid rtol (rtolMax relErr rtol) := by
      unfold geomGrid
      rw [List.mem_map]
      refine ⟨13, by simp, ?_⟩
      norm_num
      field_simp
    have hr' : r = ((geomGrid rtol (rtolMax relErr rtol)).find? accurate).getD rtol := by
      simp only [r, rtolSearch, h1, Bool.not_false, if_true, if_pos h2]
    cases hf : (geomGrid rtol (rtolMax relErr rtol)).find? accurate with
    | none =>
      rw [List.find?_eq_none] at hf
      exact absurd h3 (by simpa using hf _ hmem)
    | some x =>
      rw [hr', hf]
      simpa using List.find?_some hf

/-- with a relative error of 10 % and the default tolerance, the tolerance can be relaxed to `1e-4` -/
example : rtolMax 0.1 1e-6 = 1e-4 := by
  unfold rtolMax; norm_num

/-! ## Free parameters -/

/-- **C73**, free parameters: if the transformation of a parameter is strictly increasing and Minos returns errors around
zero, the interval of each requested parameter is ordered, contains the best fit and consists of
admissible values, and its ends depend on its own errors only; the errors reported are the distances to the ends. -/
theorem C73_free (T : String → ℝ → ℝ) (u : String → ℝ) (err : String → MinosErr) (names : List String) (k : String)
    (hk : k ∈ names) (hT : StrictMono (T k)) (he : (err k).lower < 0 ∧ 0 < (err k).upper) :
    let I := ciFree T u err names k
    I.1 < T k (u k) ∧ T k (u k) < I.2 ∧ I.1 ∈ Set.range (T k) ∧ I.2 ∈ Set.range (T k) ∧
    I = (T k (u k + (err k).lower), T k (u k + (err k).upper)) ∧
    (ciErrors I (T k (u k))).1 < 0 ∧ 0 < (ciErrors I (T k (u k))).2 ∧
    T k (u k) + (ciErrors I (T k (u k))).1 = I.1 ∧ T k (u k) + (ciErrors I (T k (u k))).2 = I.2 := by
  intro I
  have hI : I = (T k (u k + (err k).lower), T k (u k + (err k).upper)) := by
    simp [I, ciFree, shifted, hk]
  have h1 : I.1 < T k (u k) := by rw [hI]; exact hT (by linarith)
  have h2 : T k (u k) < I.2 := by rw [hI]; exact hT (by linarith)
  refine ⟨h1, h2, by rw [hI]; exact ⟨_, rfl⟩, by rw [hI]; exact ⟨_, rfl⟩, hI, ?_, ?_, ?_, ?_⟩
  · simp only [ciErrors]; linarith
  · simp only [ciErrors]; linarith
  · simp [ciErrors]
  · simp [ciErrors]

example : StrictMono (fun x : ℝ => Real.exp x) ∧ (-1 : ℝ) < 0 ∧ (0 : ℝ) < 2 :=
  ⟨Real.exp_strictMono, by norm_num, by norm_num⟩

/-- **C73**, violation for parameters with a prior bounded from above only (e.g. a right-truncated normal prior of numpyro, whose
support `(-∞, b)` is parametrised by `b - exp(x)`): the transformation decreases, so the interval is always
reported upside down, with a positive "lower" and a negative "upper" error. -/
theorem C73_decreasing_refuted (T : String → ℝ → ℝ) (u : String → ℝ) (err : String → MinosErr) (names : List String)
    (k : String) (b : ℝ) (hk : k ∈ names) (hT : T k = fun x => b - Real.exp x)
    (he : (err k).lower < 0 ∧ 0 < (err k).upper) :
    let I := ciFree T u err names k
    I.2 < T k (u k) ∧ T k (u k) < I.1 ∧ 0 < (ciErrors I (T k (u k))).1 ∧ (ciErrors I (T k (u k))).2 < 0 := by
  intro I
  have hI : I = (T k (u k + (err k).lower), T k (u k + (err k).upper)) := by
    simp [I, ciFree, shifted, hk]
  have h1 : I.2 < T k (u k) := by
    rw [hI, hT]
    have := Real.exp_lt_exp.2 (by linarith : u k < u k + (err k).upper)
    simp only; linarith
  have h2 : T k (u k) < I.1 := by
    rw [hI, hT]
    have := Real.exp_lt_exp.2 (by linarith : u k + (err k).lower < u k)
    simp only; linarith
  exact ⟨h1, h2, by simp only [ciErrors]; linarith, by simp only [ciErrors]; linarith⟩

example := C73_decreasing_refuted (fun _ x => 3 - Real.exp x) (fun _ => 0) (fun _ => { lower := -1, upper := 2 }) ["a"] "a" 3 (by simp) rfl (by norm_num)

end Elisa.Infer
