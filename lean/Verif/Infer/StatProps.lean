import Verif.Infer.LikProps

/-!
# Properties C24, C25: deviance of a channel, a dataset and a fit
-/

namespace Elisa.Infer

open Elisa Elisa.Grouping

/-! ## C24 -/

theorem poisLik_self_pos {n : ℝ} (hn : 0 ≤ n) : 0 < poisLik n n := by
  rcases hn.eq_or_lt with rfl | h
  · unfold poisLik; rw [Real.rpow_zero]; positivity
  · exact poisLik_pos h

theorem xlogy_exp {n μ : ℝ} (h : 0 < μ ∨ n = 0) : Real.exp (xlogy n μ - μ) = poisLik n μ := by
  unfold xlogy poisLik
  split
  · rename_i h0; rw [h0, Real.rpow_zero, one_mul, zero_sub]
  · rename_i h0
    have hμ := h.resolve_right h0
    rw [Real.rpow_def_of_pos hμ, ← Real.exp_add]
    congr 1; ring

theorem logp_gof {n μ : ℝ} (hn : 0 ≤ n) (h : 0 < μ ∨ n = 0) :
    Real.exp (xlogy n μ - μ - (xlogy n n - n)) = poisLik n μ / poisLik n n := by
  rw [Real.exp_sub, xlogy_exp h, xlogy_exp]
  rcases hn.eq_or_lt with h0 | h0
  · right; exact h0.symm
  · left; exact h0

theorem poisLik_le_self {n μ : ℝ} (hn : 0 ≤ n) (hμ : 0 ≤ μ) : poisLik n μ ≤ poisLik n n := by
  have h := poisLik_le (μ₀ := n) hn hμ (hn.eq_or_lt.elim (fun h => Or.inr h.symm) Or.inl)
  refine h.trans ?_
  have h1 : (n / n - 1) * (μ - n) ≤ 0 := by
    rcases hn.eq_or_lt with rfl | h0
    · simp; exact hμ
    · rw [div_self h0.ne']; simp
  calc _ ≤ poisLik n n * 1 :=
        mul_le_mul_of_nonneg_left (Real.exp_le_one_iff.2 h1) (poisLik_self_pos hn).le
    _ = _ := mul_one _

theorem poisLik_eq_self {n μ : ℝ} (hn : 0 ≤ n) (hμ : 0 ≤ μ) : poisLik n μ = poisLik n n ↔ μ = n := by
  constructor
  · intro h
    by_contra hne
    rcases hn.eq_or_lt with rfl | h0
    · unfold poisLik at h
      rw [Real.rpow_zero, Real.rpow_zero, one_mul, one_mul] at h
      have := Real.exp_injective h
      exact hne (by linarith)
    · have := poisLik_lt h0 hμ h0 hne
      rw [div_self h0.ne', sub_self, zero_mul, Real.exp_zero, mul_one] at this
      exact absurd h this.ne
  · rintro rfl; rfl

theorem logp_nonpos {n μ : ℝ} (hn : 0 ≤ n) (hμ : 0 ≤ μ) (h : 0 < μ ∨ n = 0) :
    xlogy n μ - μ - (xlogy n n - n) ≤ 0 := by
  rw [← Real.exp_le_one_iff, logp_gof hn h]
  exact (div_le_one (poisLik_self_pos hn)).2 (poisLik_le_self hn hμ)

/-- **C24.**  For counts `n ≥ 0` and expectation `μ > 0` (or `μ ≥ 0` when `n = 0`) the normalised Poisson
log-likelihood is the logarithm of the likelihood ratio to a perfect model, is never positive, and
vanishes exactly for the perfect model; the clipping in the code never changes it; the dense and the
sparse code paths agree. -/
theorem C24_poisson (n μ : ℝ) (hn : 0 ≤ n) (hμ : 0 ≤ μ) (h : 0 < μ ∨ n = 0) :
    Real.exp (poissonLogProb n μ) = poisLik n μ / poisLik n n ∧
    poissonLogProb n μ ≤ 0 ∧ (poissonLogProb n μ = 0 ↔ μ = n) ∧
    poissonLogProbSparse n μ = poissonLogProb n μ := by
  have hle := logp_nonpos hn hμ h
  have e : poissonLogProb n μ = xlogy n μ - μ - (xlogy n n - n) := min_eq_left hle
  refine ⟨by rw [e]; exact logp_gof hn h, by rw [e]; exact hle, ?_, ?_⟩
  · rw [e, ← Real.exp_eq_one_iff, logp_gof hn h, div_eq_one_iff_eq (poisLik_self_pos hn).ne']
    exact poisLik_eq_self hn hμ
  · unfold poissonLogProbSparse poissonLogProb
    rcases hn.eq_or_lt with rfl | h0
    · simp [xlogy]
    · rw [if_pos h0]
      congr 1; ring

/-- 3 counts seen, 5 expected: a strictly negative log-likelihood -/
example : poissonLogProb 3 5 < 0 := by
  have h := C24_poisson 3 5 (by norm_num) (by norm_num) (Or.inl (by norm_num))
  exact lt_of_le_of_ne h.2.1 fun he => by have := h.2.2.1.1 he; norm_num at this

theorem normal_exp (x μ σ : ℝ) : Real.exp (normalLogProb x μ σ) = gaussLik x μ σ := by
  unfold normalLogProb gaussLik
  congr 1
  rw [← mul_pow_sub_one (n := 2) (by norm_num)]
  by_cases h : σ = 0
  · subst h; simp
  · field_simp
    ring

theorem normal_nonpos (x μ σ : ℝ) : normalLogProb x μ σ ≤ 0 := by
  unfold normalLogProb
  nlinarith [mul_self_nonneg ((x - μ) / σ)]

/-! ## C25 -/

theorem nth_map {f : Nat → ℝ} {n j : Nat} (h : j < n) : nth ((List.range n).map f) j = f j := by
  unfold nth
  simp [List.getD, h]

theorem clip_id {lo hi x : ℝ} (h1 : lo ≤ x) (h2 : x ≤ hi) : clip lo hi x = x := by
  unfold clip; rw [max_eq_left h1, min_eq_left h2]

/-- the deviance of one channel is the likelihood-ratio deviance of the statistic -/
theorem likelihood_point {stat : Stat} {d : FitData} {unfold : List ℝ} {s : Nat → ℝ} (hu : Usable stat d)
    (hr : InRange stat d unfold s) :
    ∃ sites, likelihood stat d unfold = .ok sites ∧ sites.loglike.length = d.size ∧
      ∀ j < d.size, nth sites.loglike j ≤ 0 ∧ IsDeviance stat d j (s j) (-2 * nth sites.loglike j) := by
  have hsc : stat ≠ .pstat → ∀ j < d.size, d.sourceCounts unfold j = s j := by
    intro hne j hj
    obtain ⟨h1, h2, h3⟩ := hr.rate j hj
    have he : expected stat d j (s j) = s j := by
      cases stat <;> first | rfl | exact absurd rfl hne
    rw [he] at h2 h3
    unfold FitData.sourceCounts
    rw [h1, clip_id h2 h3]
  have hpos : stat ≠ .pstat → ∀ j < d.size, 0 < s j := by
    intro hne j hj
    obtain ⟨_, h2, _⟩ := hr.rate j hj
    have he : expected stat d j (s j) = s j := by
      cases stat <;> first | rfl | exact absurd rfl hne
    have : (0 : ℝ) < 1e-30 := by norm_num
    linarith
  have half : ∀ x : ℝ, -(-2 * x) / 2 = x := by intro x; ring
  unfold Usable at hu
  unfold likelihood
  cases stat with
  | chi2 =>
    have hsc := hsc (by decide)
    have hpos := hpos (by decide)
    refine ⟨_, rfl, by simp, fun j hj => ?_⟩
    dsimp only
    rw [nth_map hj, nth_map hj, hsc j hj]
    refine ⟨normal_nonpos _ _ _, ?_⟩
    unfold IsDeviance
    dsimp only
    rw [half, normal_exp]
  | cstat =>
    have hsc := hsc (by decide)
    have hpos := hpos (by decide)
    refine ⟨_, rfl, by simp, fun j hj => ?_⟩
    dsimp only at hu ⊢
    rw [nth_map hj, nth_map hj, hsc j hj]
    have h := C24_poisson _ (s j) (hu j hj) (hpos j hj).le (Or.inl (hpos j hj))
    refine ⟨h.2.1, ?_⟩
    unfold IsDeviance
    dsimp only
    rw [half, h.1]
  | pstat =>
    cases hb : d.back with
    | none => rw [hb] at hu; exact hu.elim
    | some b =>
      rw [hb] at hu
      refine ⟨_, rfl, by simp, fun j hj => ?_⟩
      dsimp only at hu ⊢
      obtain ⟨h1, h2, h3⟩ := hr.rate j hj
      have u1 := hu j hj
      have he : expected .pstat d j (s j) = s j + nth b.ratio j * nth b.counts j := by
        unfold expected; rw [hb]
      rw [he] at h2 h3
      rw [nth_map hj, nth_map hj, h1, clip_id h2 h3]
      have hp : 0 < s j + nth b.ratio j * nth b.counts j := lt_of_lt_of_le (by norm_num) h2
      have h := C24_poisson _ (s j + nth b.ratio j * nth b.counts j) u1 hp.le (Or.inl hp)
      refine ⟨h.2.1, ?_⟩
      unfold IsDeviance
      rw [hb]
      dsimp only
      rw [half, h.1]
  | pgstat =>
    have hsc := hsc (by decide)
    have hpos := hpos (by decide)
    cases hb : d.back with
    | none => rw [hb] at hu; exact hu.elim
    | some b =>
      rw [hb] at hu
      refine ⟨_, rfl, by simp, fun j hj => ?_⟩
      dsimp only at hu ⊢
      obtain ⟨u1, u2, u3⟩ := hu j hj
      obtain ⟨g0, g1⟩ := C23_pgstat_background (s j) _ (nth b.counts j) _ _ (hpos j hj) u1 u2 u3
      simp only [nth_map hj, hsc j hj]
      have hp : 0 < s j + nth b.ratio j *
          pgstatBackground (s j) (nth d.specCounts j) (nth b.counts j) (nth b.errors j) (nth b.ratio j) := by
        have := mul_nonneg u3.le g0
        linarith [hpos j hj]
      have h := C24_poisson _ _ u1 hp.le (Or.inl hp)
      refine ⟨add_nonpos h.2.1 (normal_nonpos _ _ _), ?_⟩
      unfold IsDeviance
      rw [hb]
      dsimp only
      rw [half, Real.exp_add, h.1, normal_exp]
      refine ⟨⟨_, g0, ?_⟩, ?_⟩
      · unfold onGaussLik; ring
      · rintro l ⟨x, hx, rfl⟩
        rw [div_mul_eq_mul_div]
        apply div_le_div_of_nonneg_right _ (poisLik_self_pos u1).le
        by_cases hxe : x = pgstatBackground (s j) (nth d.specCounts j) (nth b.counts j) (nth b.errors j)
            (nth b.ratio j)
        · rw [← hxe]; exact le_of_eq rfl
        · exact (g1 x hx hxe).le
  | wstat =>
    have hsc := hsc (by decide)
    have hpos := hpos (by decide)
    cases hb : d.back with
    | none => rw [hb] at hu; exact hu.elim
    | some b =>
      rw [hb] at hu
      refine ⟨_, rfl, by simp, fun j hj => ?_⟩
      dsimp only at hu ⊢
      obtain ⟨u1, u2, u3⟩ := hu j hj
      obtain ⟨g0, g1⟩ := C22_wstat_background (s j) _ _ _ (hpos j hj).le u1 u2 u3
      obtain ⟨g2, g3⟩ := C22_wstat_domain (s j) _ _ _ (hpos j hj) u1 u2 u3
      simp only [nth_map hj, hsc j hj]
      have h := C24_poisson _ _ u1 g2.le (Or.inl g2)
      have h' := C24_poisson _ _ u2 g0 (u2.eq_or_lt.elim (fun h => Or.inr h.symm) fun h => Or.inl (g3 h))
      refine ⟨add_nonpos h.2.1 h'.2.1, ?_⟩
      unfold IsDeviance
      rw [hb]
      dsimp only
      rw [half, Real.exp_add, h.1, h'.1]
      refine ⟨⟨_, g0, ?_⟩, ?_⟩
      · unfold onOffLik; rw [div_mul_div_comm]
      · rintro l ⟨x, hx, rfl⟩
        rw [div_mul_div_comm]
        apply div_le_div_of_nonneg_right _ (mul_pos (poisLik_self_pos u1) (poisLik_self_pos u2)).le
        by_cases hxe : x = wstatBackground (s j) (nth d.specCounts j) (nth b.counts j) (nth b.ratio j)
        · rw [← hxe]; exact le_of_eq rfl
        · exact (g1 x hx hxe).le

/-- **C25 (meaning).**  For data a statistic can be used on, the deviance of every channel of every
dataset is the likelihood-ratio deviance of that statistic, with the background profiled where it is
unknown, and is non-negative. -/
theorem C25_channel_deviance (stat : Stat) (d : FitData) (unfold : List ℝ) (s : Nat → ℝ)
    (hu : Usable stat d) (hr : InRange stat d unfold s) :
    ∃ sites, likelihood stat d unfold = .ok sites ∧ sites.loglike.length = d.size ∧
      ∀ j < d.size, ∃ D, (-2 * nth sites.loglike j) = D ∧ 0 ≤ D ∧ IsDeviance stat d j (s j) D := by
  obtain ⟨sites, h1, h2, h3⟩ := likelihood_point hu hr
  refine ⟨sites, h1, h2, fun j hj => ⟨_, rfl, ?_, (h3 j hj).2⟩⟩
  have := (h3 j hj).1
  linarith

theorem sum_flatten_map (l : List (List ℝ)) : l.flatten.sum = (l.map List.sum).sum := by
  induction l with
  | nil => rfl
  | cons x xs ih => simp

theorem sum_map_mul (k : ℝ) (l : List ℝ) : (l.map (k * ·)).sum = k * l.sum := by
  induction l with
  | nil => simp
  | cons x xs ih => simp only [List.map_cons, List.sum_cons, ih]; ring

/-- **C25 (aggregation).**  The total deviance is the sum of the dataset deviances, each of which is the
sum of the deviances of its channels; and when no channel log-likelihood is positive, it is also the
sum of the squared residuals given to the least-squares optimiser. -/
theorem C25_total_deviance (sites : List Sites) :
    (deviance (getLoglike sites)).total = (deviance (getLoglike sites)).group.sum ∧
    (deviance (getLoglike sites)).group = (deviance (getLoglike sites)).point.map List.sum ∧
    (deviance (getLoglike sites)).point = sites.map (fun s => s.loglike.map (-2 * ·)) ∧
    ((∀ s ∈ sites, ∀ x ∈ s.loglike, x ≤ 0) →
      ((residual (getLoglike sites)).map (· ^ 2)).sum = (deviance (getLoglike sites)).total) := by
  refine ⟨?_, ?_, ?_, ?_⟩
  · simp only [deviance, getLoglike]
    rw [sum_map_mul, sum_flatten_map]
  · simp only [deviance, getLoglike, List.map_map]
    apply List.map_congr_left
    intro a _
    exact (sum_map_mul _ _).symm
  · simp [deviance, getLoglike, List.map_map, Function.comp_def]
  · intro h
    simp only [deviance, getLoglike, residual, List.map_map]
    rw [← sum_map_mul]
    congr 1
    apply List.map_congr_left
    intro x hx
    have hx0 : x ≤ 0 := by
      simp only [List.mem_flatten, List.mem_map] at hx
      obtain ⟨l, ⟨s, hs, rfl⟩, hxl⟩ := hx
      exact h s hs x hxl
    exact Real.sq_sqrt (by linarith)

/-- a fit of several datasets: every one evaluates and has only non-positive channel log-likelihoods -/
theorem C25_fit (ds : List (Stat × FitData × List ℝ)) (s : Nat → Nat → ℝ)
    (h : ∀ (i : Nat) (hi : i < ds.length), Usable ds[i].1 ds[i].2.1 ∧ InRange ds[i].1 ds[i].2.1 ds[i].2.2 (s i)) :
    ∃ sites, fitSites ds = .ok sites ∧ sites.length = ds.length ∧
      (∀ x ∈ residual (getLoglike sites), 0 ≤ x) ∧
      ((residual (getLoglike sites)).map (· ^ 2)).sum = (deviance (getLoglike sites)).total ∧
      0 ≤ (deviance (getLoglike sites)).total ∧
      ∀ (i : Nat) (hi : i < ds.length), ∃ st, sites[i]? = some st ∧
        ∀ j < ds[i].2.1.size, IsDeviance ds[i].1 ds[i].2.1 j (s i j)
          (nth ((deviance (getLoglike sites)).point.getD i []) j) := by
  have key : ∃ sites, fitSites ds = .ok sites ∧ sites.length = ds.length ∧
      ∀ (i : Nat) (hi : i < ds.length), ∃ st, sites[i]? = some st ∧ st.loglike.length = ds[i].2.1.size ∧
        ∀ j < ds[i].2.1.size, nth st.loglike j ≤ 0 ∧
          IsDeviance ds[i].1 ds[i].2.1 j (s i j) (-2 * nth st.loglike j) := by
    induction ds generalizing s with
    | nil => exact ⟨[], rfl, rfl, fun i hi => absurd hi (Nat.not_lt_zero _)⟩
    | cons d ds ih =>
      obtain ⟨u, r⟩ := h 0 (by simp)
      obtain ⟨s0, e0, l0, p0⟩ := likelihood_point u r
      obtain ⟨ss, e1, l1, p1⟩ := ih (fun i => s (i + 1)) (fun i hi => h (i + 1) (by simpa using hi))
      refine ⟨s0 :: ss, ?_, by simp [l1], ?_⟩
      · unfold fitSites at e1 ⊢
        rw [List.mapM_cons]
        simp only [List.getElem_cons_zero] at e0
        rw [e0, e1]
        rfl
      · intro i hi
        cases i with
        | zero => exact ⟨s0, rfl, l0, p0⟩
        | succ i =>
          obtain ⟨st, q1, q2, q3⟩ := p1 i (by simpa using hi)
          exact ⟨st, by simpa using q1, q2, q3⟩
  obtain ⟨sites, e, hl, hp⟩ := key
  have hneg : ∀ st ∈ sites, ∀ x ∈ st.loglike, x ≤ 0 := by
    intro st hst x hx
    obtain ⟨i, hi, rfl⟩ := List.mem_iff_getElem.1 hst
    obtain ⟨st', q1, q2, q3⟩ := hp i (hl ▸ hi)
    rw [List.getElem?_eq_getElem hi] at q1
    obtain rfl := Option.some.inj q1
    obtain ⟨j, hj, rfl⟩ := List.mem_iff_getElem.1 hx
    have := (q3 j (q2 ▸ hj)).1
    unfold nth at this
    simpa [List.getD, List.getElem?_eq_getElem hj] using this
  have hsq := (C25_total_deviance sites).2.2.2 hneg
  refine ⟨sites, e, hl, ?_, hsq, ?_, ?_⟩
  · intro x hx
    simp only [residual, List.mem_map] at hx
    obtain ⟨y, _, rfl⟩ := hx
    exact Real.sqrt_nonneg _
  · rw [← hsq]
    apply List.sum_nonneg
    intro x hx
    simp only [List.mem_map] at hx
    obtain ⟨y, _, rfl⟩ := hx
    exact sq_nonneg y
  · intro i hi
    obtain ⟨st, q1, q2, q3⟩ := hp i hi
    refine ⟨st, q1, fun j hj => ?_⟩
    have hpt := (C25_total_deviance sites).2.2.1
    have : nth ((deviance (getLoglike sites)).point.getD i []) j = -2 * nth st.loglike j := by
      rw [hpt]
      unfold nth
      simp only [List.getD, List.getElem?_map, q1, Option.map_some, Option.getD_some]
      rw [List.getElem?_eq_getElem (q2 ▸ hj)]
      simp
    rw [this]
    exact (q3 j hj).2

theorem clip_pos (x : ℝ) : 0 < clip 1e-30 1e15 x := by
  unfold clip
  apply lt_min _ (by norm_num)
  exact lt_of_lt_of_le (by norm_num) (le_max_right _ _)

/-- **C25 (domain).**  Whatever the model returns (any real bin values), every logarithm taken in the
likelihood is taken of a positive expectation, or is multiplied by zero counts; so the statistic is a
genuine real number at every parameter value. -/
theorem C25_domain (stat : Stat) (d : FitData) (unfold : List ℝ) (hu : Usable stat d) :
    ∃ sites, likelihood stat d unfold = .ok sites ∧ (∀ j < d.size, 0 < nth sites.onModel j) ∧
      ∀ data model ll, sites.off = some (data, model, ll) → ∀ j < d.size, 0 ≤ nth model j ∧
        (stat = .wstat → 0 < nth data j → 0 < nth model j) := by
  have hpos : ∀ j, 0 < d.sourceCounts unfold j := fun j => clip_pos _
  unfold Usable at hu
  unfold likelihood
  cases stat with
  | chi2 =>
    refine ⟨_, rfl, fun j hj => ?_, fun _ _ _ h => by simp at h⟩
    dsimp only; rw [nth_map hj]; exact hpos j
  | cstat =>
    refine ⟨_, rfl, fun j hj => ?_, fun _ _ _ h => by simp at h⟩
    dsimp only; rw [nth_map hj]; exact hpos j
  | pstat =>
    cases hb : d.back with
    | none => rw [hb] at hu; exact hu.elim
    | some b =>
      refine ⟨_, rfl, fun j hj => ?_, fun _ _ _ h => by simp at h⟩
      dsimp only; rw [nth_map hj]; exact clip_pos _
  | pgstat =>
    cases hb : d.back with
    | none => rw [hb] at hu; exact hu.elim
    | some b =>
      rw [hb] at hu
      dsimp only at hu
      refine ⟨_, rfl, fun j hj => ?_, fun x y z h j hj => ?_⟩
      · obtain ⟨u1, u2, u3⟩ := hu j hj
        simp only [nth_map hj]
        have := (C23_pgstat_background (d.sourceCounts unfold j) _ (nth b.counts j) _ _ (hpos j) u1 u2 u3).1
        have := mul_nonneg u3.le this
        linarith [hpos j]
      · obtain ⟨u1, u2, u3⟩ := hu j hj
        simp only [Option.some.injEq, Prod.mk.injEq] at h
        obtain ⟨_, rfl, _⟩ := h
        simp only [nth_map hj]
        exact ⟨(C23_pgstat_background (d.sourceCounts unfold j) _ (nth b.counts j) _ _ (hpos j) u1 u2 u3).1,
          fun h => by simp at h⟩
  | wstat =>
    cases hb : d.back with
    | none => rw [hb] at hu; exact hu.elim
    | some b =>
      rw [hb] at hu
      dsimp only at hu
      refine ⟨_, rfl, fun j hj => ?_, fun x y z h j hj => ?_⟩
      · obtain ⟨u1, u2, u3⟩ := hu j hj
        simp only [nth_map hj]
        exact (C22_wstat_domain _ _ _ _ (hpos j) u1 u2 u3).1
      · obtain ⟨u1, u2, u3⟩ := hu j hj
        simp only [Option.some.injEq, Prod.mk.injEq] at h
        obtain ⟨rfl, rfl, _⟩ := h
        simp only [nth_map hj]
        exact ⟨(C22_wstat_background _ _ _ _ (hpos j).le u1 u2 u3).1,
          fun _ h => (C22_wstat_domain _ _ _ _ (hpos j) u1 u2 u3).2 h⟩

/-- one channel: 5 on counts, 3 off counts, ratio 1/2 -/
noncomputable def exFit : FitData where
  specCounts := [5]
  specErrors := [2]
  netCounts := [7 / 2]
  netErrors := [3]
  back := some ⟨[3], [2], [1 / 2]⟩
  matrix := [[1]]
  areaScale := [1]
  exposure := 1
  specPoisson := true
  backPoisson := true

theorem exFit_usable (stat : Stat) : Usable stat exFit := by
  cases stat <;> simp [Usable, exFit, FitData.size, nth]

set_option exponentiation.threshold 400 in
theorem exFit_inRange (stat : Stat) : InRange stat exFit [2] (fun _ => 2) := by
  refine ⟨fun r hr => ?_, fun j hj => ?_⟩
  · have : r = 0 := by simp [exFit] at hr; exact hr
    subst this
    simp only [nth, List.getD_cons_zero]
    constructor <;> norm_num
  have hj0 : j = 0 := by simp [exFit, FitData.size] at hj; exact hj
  subst hj0
  refine ⟨by simp [FitData.folded, exFit, nth], ?_, ?_⟩ <;> cases stat <;> norm_num [expected, exFit, nth]

/-- the hypotheses of `C25_fit` hold for a joint fit of one dataset with five different statistics -/
example : ∃ sites, fitSites ([Stat.chi2, .cstat, .pstat, .pgstat, .wstat].map fun s => (s, exFit, [2])) =
    .ok sites ∧ 0 ≤ (deviance (getLoglike sites)).total := by
  obtain ⟨sites, h1, _, _, _, h5, _⟩ := C25_fit
    ([Stat.chi2, .cstat, .pstat, .pgstat, .wstat].map fun s => (s, exFit, [2])) (fun _ _ => 2) (by
      intro i hi
      rw [List.getElem_map]
      exact ⟨exFit_usable _, exFit_inRange _⟩)
  exact ⟨sites, h1, h5⟩

/-- **C25** (missing background).  A statistic that uses background data never produces a value for a dataset without
background: evaluating it fails, whatever the model. -/
theorem C25_missing_background (stat : Stat) (h : stat = .pstat ∨ stat = .pgstat ∨ stat = .wstat) (d : FitData)
    (hb : d.back = none) (unfold : List ℝ) : likelihood stat d unfold = .error .assertionError := by
  unfold likelihood
  rcases h with rfl | rfl | rfl <;> rw [hb]

example : likelihood .wstat { exFit with back := none } [2] = .error .assertionError :=
  C25_missing_background _ (by simp) _ rfl _

end Elisa.Infer
