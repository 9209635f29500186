import Verif.Plot.ResidualProps
import Mathlib.Analysis.SpecialFunctions.Trigonometric.DerivHyp

/-!
# C131: deviance residuals and Pearson residuals of the same fit
-/

namespace Elisa.Plot.Compare

open Elisa Elisa.Infer Elisa.Plot Elisa.Grouping

section Lemmas

/-- `log x` for `x ≥ 1`, from both sides. -/
theorem log_bounds {x : ℝ} (hx : 1 ≤ x) : 2 * (x - 1) / (x + 1) ≤ Real.log x ∧ Real.log x ≤ (x - x⁻¹) / 2 := by
  have h0 : 0 < x := by linarith
  constructor
  · have := Real.le_log_one_add_of_nonneg (x := x - 1) (by linarith)
    rw [show x - 1 + 2 = x + 1 by ring, show 1 + (x - 1) = x by ring] at this
    exact this
  · rw [← Real.sinh_log h0]
    exact Real.self_le_sinh_iff.2 (Real.log_nonneg hx)

/-- `log x` for `0 < x ≤ 1`, from both sides. -/
theorem log_bounds' {x : ℝ} (h0 : 0 < x) (hx : x ≤ 1) : (x - x⁻¹) / 2 ≤ Real.log x ∧ Real.log x ≤ 2 * (x - 1) / (x + 1) := by
  obtain ⟨h1, h2⟩ := log_bounds (x := x⁻¹) ((one_le_inv₀ h0).2 hx)
  rw [Real.log_inv] at h1 h2
  rw [inv_inv] at h2
  refine ⟨by linarith, ?_⟩
  have e : 2 * (x⁻¹ - 1) / (x⁻¹ + 1) = -(2 * (x - 1) / (x + 1)) := by
    field_simp
    ring
  rw [e] at h1
  linarith

/-- The deviance of one Poisson datum. -/
noncomputable def dev (n μ : ℝ) : ℝ := 2 * (μ - n + xlogy n (n / μ))

/-- The square of the Pearson residual of one Poisson datum. -/
noncomputable def chi (n μ : ℝ) : ℝ := (n - μ) ^ 2 / μ

theorem dev_above {n μ : ℝ} (hμ : 0 < μ) (h : μ ≤ n) : 2 * (n - μ) ^ 2 / (n + μ) ≤ dev n μ ∧ dev n μ ≤ chi n μ := by
  have hn : 0 < n := by linarith
  obtain ⟨h1, h2⟩ := log_bounds (x := n / μ) ((one_le_div hμ).2 h)
  have e1 : 2 * (n / μ - 1) / (n / μ + 1) = 2 * (n - μ) / (n + μ) := by field_simp
  have e2 : (n / μ - (n / μ)⁻¹) / 2 = (n ^ 2 - μ ^ 2) / (2 * (n * μ)) := by field_simp
  rw [e1] at h1
  rw [e2] at h2
  unfold dev chi xlogy
  rw [if_neg hn.ne']
  have h1' := mul_le_mul_of_nonneg_left h1 hn.le
  have h2' := mul_le_mul_of_nonneg_left h2 hn.le
  have e3 : n * ((n ^ 2 - μ ^ 2) / (2 * (n * μ))) = (n ^ 2 - μ ^ 2) / (2 * μ) := by field_simp
  rw [e3] at h2'
  constructor
  · have e4 : 2 * (n - μ) ^ 2 / (n + μ) = 2 * (μ - n + n * (2 * (n - μ) / (n + μ))) := by field_simp; ring
    rw [e4]; linarith
  · have e4 : (n - μ) ^ 2 / μ = 2 * (μ - n + (n ^ 2 - μ ^ 2) / (2 * μ)) := by field_simp; ring
    rw [e4]; linarith

theorem dev_below {n μ : ℝ} (hn : 0 ≤ n) (hμ : 0 < μ) (h : n ≤ μ) : chi n μ ≤ dev n μ ∧ dev n μ ≤ 2 * (n - μ) ^ 2 / (n + μ) := by
  unfold dev chi xlogy
  rcases hn.eq_or_lt with h0 | hn
  · subst h0
    rw [if_pos rfl]
    have e1 : (0 - μ) ^ 2 / μ = μ := by field_simp; ring
    have e2 : 2 * (0 - μ) ^ 2 / (0 + μ) = 2 * μ := by rw [zero_add]; field_simp; ring
    rw [e1, e2]
    constructor <;> linarith
  · rw [if_neg hn.ne']
    obtain ⟨h1, h2⟩ := log_bounds' (x := n / μ) (by positivity) ((div_le_one hμ).2 h)
    have e1 : 2 * (n / μ - 1) / (n / μ + 1) = 2 * (n - μ) / (n + μ) := by field_simp
    have e2 : (n / μ - (n / μ)⁻¹) / 2 = (n ^ 2 - μ ^ 2) / (2 * (n * μ)) := by field_simp
    rw [e2] at h1
    rw [e1] at h2
    have h1' := mul_le_mul_of_nonneg_left h1 hn.le
    have h2' := mul_le_mul_of_nonneg_left h2 hn.le
    have e3 : n * ((n ^ 2 - μ ^ 2) / (2 * (n * μ))) = (n ^ 2 - μ ^ 2) / (2 * μ) := by field_simp
    rw [e3] at h1'
    constructor
    · have e4 : (n - μ) ^ 2 / μ = 2 * (μ - n + (n ^ 2 - μ ^ 2) / (2 * μ)) := by field_simp; ring
      rw [e4]; linarith
    · have e4 : 2 * (n - μ) ^ 2 / (n + μ) = 2 * (μ - n + n * (2 * (n - μ) / (n + μ))) := by field_simp; ring
      rw [e4]; linarith

/-- The two squares differ by at most the relative misfit. -/
theorem dev_chi {n μ : ℝ} (hn : 0 ≤ n) (hμ : 0 < μ) : |dev n μ - chi n μ| ≤ chi n μ * (|n - μ| / (n + μ)) := by
  have hp : 0 < n + μ := by linarith
  have key : 2 * (n - μ) ^ 2 / (n + μ) = chi n μ - chi n μ * ((n - μ) / (n + μ)) := by
    unfold chi; field_simp; ring
  rcases le_total n μ with h | h
  · obtain ⟨h1, h2⟩ := dev_below hn hμ h
    rw [abs_of_nonneg (by linarith), abs_of_nonpos (by linarith : n - μ ≤ 0), neg_div]
    rw [key] at h2
    linarith
  · obtain ⟨h1, h2⟩ := dev_above hμ h
    rw [abs_of_nonpos (by linarith), abs_of_nonneg (by linarith : 0 ≤ n - μ)]
    rw [key] at h1
    linarith

theorem misfit_le {n μ : ℝ} (hn : 0 ≤ n) (hμ : 0 ≤ μ) : |n - μ| / (n + μ) ≤ 1 := by
  apply div_le_one_of_le₀ _ (by linarith)
  rw [abs_le]; constructor <;> linarith

theorem chi_nonneg {n μ : ℝ} (hμ : 0 < μ) : 0 ≤ chi n μ := by unfold chi; positivity

theorem ratio_dev {n μ : ℝ} (hn : 0 ≤ n) (hμ : 0 < μ) : poisLik n μ / poisLik n n = Real.exp (-dev n μ / 2) := by
  have := (poissonDeviance_facts hn hμ).2.2
  rw [← this]
  congr 2
  unfold poissonDeviance dev
  ring

theorem exp_half {D E : ℝ} (h : Real.exp (-D / 2) = Real.exp (-E / 2)) : D = E := by
  have := Real.exp_injective h
  linarith

end Lemmas

/-- **C131 (one channel).**  Let `D` be the deviance and `x` the Pearson residual of a channel.  With `chi2` they say the same: `D = x²`.  With
`cstat` and `pstat`, for `n` observed and `μ` expected counts, `D` and `x²` differ by at most the fraction `|n - μ| / (n + μ)` of `x²`, `D` being
the larger one below the model and the smaller one above it.  With `wstat` and `pgstat` this holds for the two data of the channel together, the
background being the best one.  In all cases `D ≤ 2 x²`. -/
theorem C131_channel (stat : Stat) (d : FitData) (hu : Usable stat d) (j : Nat) (hj : j < d.size) (s D x : ℝ)
    (hs : 0 < expected stat d j s) (hs0 : stat ≠ .pstat → 0 < s) (hD : IsDeviance stat d j s D) (hx : IsPearson stat d j s x) :
    D ≤ 2 * x ^ 2 ∧
    (stat = .chi2 → D = x ^ 2) ∧
    (stat = .cstat ∨ stat = .pstat →
      |D - x ^ 2| ≤ x ^ 2 * (|nth d.specCounts j - expected stat d j s| / (nth d.specCounts j + expected stat d j s)) ∧
      (nth d.specCounts j ≤ expected stat d j s → x ^ 2 ≤ D) ∧ (expected stat d j s ≤ nth d.specCounts j → D ≤ x ^ 2)) ∧
    (∀ b, stat = .pgstat → d.back = some b → ∃ y, 0 ≤ y ∧
      |D - x ^ 2| ≤ x ^ 2 * (|nth d.specCounts j - (s + nth b.ratio j * y)| / (nth d.specCounts j + (s + nth b.ratio j * y)))) ∧
    (∀ b, stat = .wstat → d.back = some b → ∃ y, 0 < y ∧
      |D - x ^ 2| ≤ x ^ 2 * max (|nth d.specCounts j - (s + nth b.ratio j * y)| / (nth d.specCounts j + (s + nth b.ratio j * y)))
        (|nth b.counts j - y| / (nth b.counts j + y))) := by
  have poisson : ∀ n μ : ℝ, 0 ≤ n → 0 < μ → Real.exp (-D / 2) = poisLik n μ / poisLik n n → x = (n - μ) / Real.sqrt μ →
      D ≤ 2 * x ^ 2 ∧ |D - x ^ 2| ≤ x ^ 2 * (|n - μ| / (n + μ)) ∧ (n ≤ μ → x ^ 2 ≤ D) ∧ (μ ≤ n → D ≤ x ^ 2) := by
    intro n μ hn hμ h1 h2
    rw [ratio_dev hn hμ] at h1
    have hx2 : x ^ 2 = chi n μ := by rw [h2, div_pow, Real.sq_sqrt hμ.le]; rfl
    rw [exp_half h1, hx2]
    have hd := dev_chi hn hμ
    have hm := mul_le_mul_of_nonneg_left (misfit_le hn hμ.le) (chi_nonneg (n := n) hμ)
    refine ⟨?_, hd, fun h => (dev_below hn hμ h).1, fun h => (dev_above hμ h).2⟩
    have := (abs_le.1 hd).2
    linarith
  unfold Usable IsDeviance IsPearson expected at *
  cases stat with
  | chi2 =>
    simp only at *
    have hσ := hu j hj
    have e : D = x ^ 2 := by
      have h3 : Real.exp (-D / 2) = Real.exp (-x ^ 2 / 2) := by
        rw [hD, gaussLik, hx]
        congr 1
        field_simp
      exact exp_half h3
    refine ⟨?_, fun _ => e, by simp, by simp, by simp⟩
    rw [e]; nlinarith [sq_nonneg x]
  | cstat =>
    simp only at *
    obtain ⟨h1, h2⟩ := poisson _ s (hu j hj) hs hD hx
    exact ⟨h1, by simp, fun _ => h2, by simp, by simp⟩
  | pstat =>
    cases hb : d.back with
    | none => rw [hb] at hu; exact hu.elim
    | some b =>
      rw [hb] at hu hD hx hs
      simp only at *
      obtain ⟨h1, h2⟩ := poisson _ _ (hu j hj) hs hD hx
      exact ⟨h1, by simp, fun _ => h2, by simp, by simp⟩
  | pgstat =>
    cases hb : d.back with
    | none => rw [hb] at hu; exact hu.elim
    | some b =>
      rw [hb] at hu hD hx hs
      simp only at *
      obtain ⟨hn, hσ, ha⟩ := hu j hj
      obtain ⟨y, hy0, hbest, hr, -, -⟩ := hx
      have hμ : 0 < s + nth b.ratio j * y := by
        have := mul_nonneg ha.le hy0
        linarith
      have hsq : x ^ 2 = chi (nth d.specCounts j) (s + nth b.ratio j * y) + (nth b.counts j - y) ^ 2 / nth b.errors j ^ 2 := hr
      have hq : 0 ≤ (nth b.counts j - y) ^ 2 / nth b.errors j ^ 2 := by positivity
      have hDe : D = dev (nth d.specCounts j) (s + nth b.ratio j * y) + (nth b.counts j - y) ^ 2 / nth b.errors j ^ 2 := by
        obtain ⟨⟨z, hz0, hz⟩, hup⟩ := hD
        have hzy : z = y := by
          by_contra hne
          have h1 := hbest z hz0 hne
          have h2 := hup ⟨y, hy0, rfl⟩
          rw [hz] at h2
          exact absurd h2 (not_le.2 (div_lt_div_of_pos_right h1 (poisLik_self_pos hn)))
        rw [hzy] at hz
        apply exp_half
        rw [hz, onGaussLik, mul_comm, mul_div_assoc, ratio_dev hn hμ, gaussLik, ← Real.exp_add]
        congr 1
        field_simp
        ring
      have hd := dev_chi hn hμ
      have hc := chi_nonneg (n := nth d.specCounts j) hμ
      have hf0 : 0 ≤ |nth d.specCounts j - (s + nth b.ratio j * y)| / (nth d.specCounts j + (s + nth b.ratio j * y)) := by positivity
      have hle : |D - x ^ 2| ≤ x ^ 2 * (|nth d.specCounts j - (s + nth b.ratio j * y)| / (nth d.specCounts j + (s + nth b.ratio j * y))) := by
        rw [hDe, hsq, add_sub_add_right_eq_sub]
        refine hd.trans (mul_le_mul_of_nonneg_right (by linarith) hf0)
      refine ⟨?_, by simp, by simp, ?_, by simp⟩
      · have h1 := (abs_le.1 hle).2
        have h2 := mul_le_mul_of_nonneg_left (misfit_le hn hμ.le) (sq_nonneg x)
        linarith
      · intro b' _ hb'
        obtain rfl := Option.some.inj hb'
        exact ⟨y, hy0, hle⟩
  | wstat =>
    cases hb : d.back with
    | none => rw [hb] at hu; exact hu.elim
    | some b =>
      rw [hb] at hu hD hx hs
      simp only at *
      obtain ⟨hn, hm, ha⟩ := hu j hj
      obtain ⟨y, hy0, hbest, hr, -, -⟩ := hx
      have hμ : 0 < s + nth b.ratio j * y := by
        have := mul_nonneg ha.le hy0.le
        linarith
      have hsq : x ^ 2 = chi (nth d.specCounts j) (s + nth b.ratio j * y) + chi (nth b.counts j) y := hr
      have hDe : D = dev (nth d.specCounts j) (s + nth b.ratio j * y) + dev (nth b.counts j) y := by
        obtain ⟨⟨z, hz0, hz⟩, hup⟩ := hD
        have hzy : z = y := by
          by_contra hne
          have h1 := hbest z hz0 hne
          have h2 := hup ⟨y, hy0.le, rfl⟩
          rw [hz] at h2
          exact absurd h2 (not_le.2 (div_lt_div_of_pos_right h1 (mul_pos (poisLik_self_pos hn) (poisLik_self_pos hm))))
        rw [hzy] at hz
        apply exp_half
        rw [hz, onOffLik, mul_div_mul_comm, ratio_dev hn hμ, ratio_dev hm hy0, ← Real.exp_add]
        congr 1
        ring
      have hd := dev_chi hn hμ
      have hd' := dev_chi hm hy0
      have hc := chi_nonneg (n := nth d.specCounts j) hμ
      have hc' := chi_nonneg (n := nth b.counts j) hy0
      set P := |nth d.specCounts j - (s + nth b.ratio j * y)| / (nth d.specCounts j + (s + nth b.ratio j * y)) with hP
      set Q := |nth b.counts j - y| / (nth b.counts j + y) with hQ
      have hle : |D - x ^ 2| ≤ x ^ 2 * max P Q := by
        rw [hDe, hsq, add_sub_add_comm]
        refine (abs_add_le _ _).trans ((add_le_add hd hd').trans ?_)
        rw [add_mul]
        exact add_le_add (mul_le_mul_of_nonneg_left (le_max_left _ _) hc) (mul_le_mul_of_nonneg_left (le_max_right _ _) hc')
      refine ⟨?_, by simp, by simp, by simp, ?_⟩
      · have h1 := (abs_le.1 hle).2
        have h2 := mul_le_mul_of_nonneg_left (max_le (misfit_le hn hμ.le) (misfit_le hm hy0.le)) (sq_nonneg x)
        rw [← hP, ← hQ] at h2
        linarith
      · intro b' _ hb'
        obtain rfl := Option.some.inj hb'
        exact ⟨y, hy0, hle⟩

theorem div_sign {a c : ℝ} (hc : 0 < c) : (0 < a / c → 0 < a) ∧ (a / c < 0 → a < 0) := by
  refine ⟨fun h => (div_pos_iff_of_pos_right hc).1 h, fun h => ?_⟩
  by_contra hn
  exact absurd (div_nonneg (not_lt.1 hn) hc.le) (not_le.2 h)

/-- the sign of a Pearson residual is that of the net data minus the model -/
theorem pearson_sign {stat : Stat} {d : FitData} {j : Nat} {s x : ℝ} (hj : j < d.size) (hu : Usable stat d) (ha : Admissible d stat)
    (hn : NetConsistent d) (hpos : 0 < expected stat d j s) (hs : 0 < s) (hp : IsPearson stat d j s x) :
    (0 < x → s ≤ nth d.netCounts j) ∧ (x < 0 → nth d.netCounts j < s) := by
  have hnj := hn j hj
  unfold IsPearson at hp
  unfold Usable at hu
  cases stat with
  | chi2 =>
    simp only at hp hu
    rw [hp]
    obtain ⟨h1, h2⟩ := div_sign (a := nth d.netCounts j - s) (hu j hj)
    exact ⟨fun h => by linarith [h1 h], fun h => by linarith [h2 h]⟩
  | cstat =>
    simp only at hp
    have hb : d.back = none := ha.2
    rw [hb] at hnj
    rw [hp]
    obtain ⟨h1, h2⟩ := div_sign (a := nth d.specCounts j - s) (Real.sqrt_pos.2 hs)
    exact ⟨fun h => by linarith [h1 h], fun h => by linarith [h2 h]⟩
  | pstat =>
    cases hb : d.back with
    | none => rw [hb] at hp; exact hp.elim
    | some b =>
      rw [hb] at hp hnj
      unfold expected at hpos
      rw [hb] at hpos
      simp only at hp hnj hpos
      rw [hp]
      obtain ⟨h1, h2⟩ := div_sign (a := nth d.specCounts j - (s + nth b.ratio j * nth b.counts j)) (Real.sqrt_pos.2 hpos)
      exact ⟨fun h => by linarith [h1 h], fun h => by linarith [h2 h]⟩
  | pgstat =>
    cases hb : d.back with
    | none => rw [hb] at hp; exact hp.elim
    | some b =>
      rw [hb] at hp
      obtain ⟨y, -, -, -, q1, q2⟩ := hp
      exact ⟨q1, q2⟩
  | wstat =>
    cases hb : d.back with
    | none => rw [hb] at hp; exact hp.elim
    | some b =>
      rw [hb] at hp
      obtain ⟨y, -, -, -, q1, q2⟩ := hp
      exact ⟨q1, q2⟩

/-- **C131 (a fit).**  The deviance residuals and the Pearson residuals plotted for a fit are never of opposite sign; the square of the deviance
residual is at most twice the square of the Pearson residual; and with `chi2` the two are the same number.  With `wstat` the off counts of the
channel must be positive, since the Pearson residual may otherwise not exist (C53). -/
theorem C131_fit (stat : Stat) (d : FitData) (width unfold : List ℝ) (s : Nat → ℝ) (hu : Usable stat d)
    (ha : Admissible d stat) (hn : NetConsistent d) (hr : InRange stat d unfold s) (hs : ∀ j < d.size, 0 < s j)
    (hexp : 0 < d.exposure) (hw : ∀ j < d.size, 0 < nth width j)
    (hoff : stat = .wstat → ∀ b, d.back = some b → ∀ j < d.size, 0 < nth b.counts j) :
    ∃ rd rp, devResiduals stat d width unfold = .ok rd ∧ pearsonResiduals stat d width unfold = .ok rp ∧
      rd.length = d.size ∧ rp.length = d.size ∧ ∀ j < d.size,
      ∃ x, rp[j]? = some (some x) ∧ 0 ≤ nth rd j * x ∧ nth rd j ^ 2 ≤ 2 * x ^ 2 ∧ (stat = .chi2 → nth rd j = x) := by
  obtain ⟨rd, h1, l1, h2⟩ := C53_fit stat d width unfold s hu ha hn hr hs hexp hw
  obtain ⟨rp, h3, l2, h4⟩ := C53_pearson_partial stat d width unfold s hu hr hexp hw hoff
  refine ⟨rd, rp, h1, h3, l1, l2, fun j hj => ?_⟩
  obtain ⟨x, hx, hp⟩ := h4 j hj
  obtain ⟨k1, k2, k3, _, _⟩ := h2 j hj
  have hpos : 0 < expected stat d j (s j) := lt_of_lt_of_le (by norm_num) (hr.rate j hj).2.1
  obtain ⟨c1, c2, _⟩ := C131_channel stat d hu j hj (s j) _ x hpos (fun _ => hs j hj) k1 hp
  obtain ⟨q1, q2⟩ := pearson_sign hj hu ha hn hpos (hs j hj) hp
  have hsign : 0 ≤ nth rd j * x := by
    by_contra hneg
    rcases mul_neg_iff.1 (not_le.1 hneg) with ⟨h5, h6⟩ | ⟨h5, h6⟩
    · linarith [k2 h5, q2 h6]
    · linarith [k3 h5, q1 h6]
  refine ⟨x, hx, hsign, c1, fun he => ?_⟩
  rcases sq_eq_sq_iff_eq_or_eq_neg.1 (c2 he) with h | h
  · exact h
  · rw [h] at hsign
    have hx0 : x = 0 := by nlinarith [sq_nonneg x]
    rw [h, hx0, neg_zero]

example : ∃ rd rp x, devResiduals .wstat exFit [1] [2] = .ok rd ∧ pearsonResiduals .wstat exFit [1] [2] = .ok rp ∧
    rp[0]? = some (some x) ∧ 0 ≤ nth rd 0 * x ∧ nth rd 0 ^ 2 ≤ 2 * x ^ 2 := by
  have h0 : ∀ j, j < exFit.size → j = 0 := fun j hj => by simpa [exFit, FitData.size] using hj
  obtain ⟨rd, rp, h1, h2, -, -, h3⟩ := C131_fit .wstat exFit [1] [2] (fun _ => 2) (exFit_usable _)
    (by simp [Admissible, exFit]) (by
      intro j hj
      obtain rfl := h0 j hj
      norm_num [exFit, nth]) (exFit_inRange _) (by norm_num) (by norm_num [exFit]) (by
      intro j hj
      obtain rfl := h0 j hj
      norm_num [nth]) (by
      intro _ b hb j hj
      obtain rfl := h0 j hj
      simp only [exFit, Option.some.injEq] at hb
      subst hb
      norm_num [nth])
  obtain ⟨x, e1, e2, e3, -⟩ := h3 0 (by simp [exFit, FitData.size])
  exact ⟨rd, rp, x, h1, h2, e1, e2, e3⟩

end Elisa.Plot.Compare
