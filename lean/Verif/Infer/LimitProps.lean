import Verif.Infer.MergeProps
import Verif.Infer.StatProps
import Mathlib.Analysis.SpecialFunctions.Log.Deriv

/-!
# C126: the statistics agree where their assumptions agree

`pstat` takes the background as exactly known, `pgstat` and `wstat` profile it, `cstat` has none and `chi2` replaces
the Poisson by a Gaussian distribution.  The statistics reported by the fit for the same data and model are compared.
-/

namespace Elisa.Infer.Limit

open Elisa Elisa.Infer

/-- The deviance reported for channel `j`. -/
def reported (sites : Sites) (j : Nat) : ℝ := -2 * nth sites.loglike j

/-- The fit statistic reported for a data set. -/
noncomputable def total (sites : Sites) : ℝ := (deviance (getLoglike [sites])).total

theorem total_eq (sites : Sites) : total sites = ∑ j ∈ Finset.range sites.loglike.length, reported sites j := by
  unfold total deviance getLoglike reported
  simp only [List.map_cons, List.map_nil, List.flatten_cons, List.flatten_nil, List.append_nil]
  rw [Merge.sum_nth, Finset.mul_sum]

/-- sums of channel-wise bounds -/
theorem total_between {a b : Sites} {n : Nat} (ha : a.loglike.length = n) (hb : b.loglike.length = n) {lo hi : Nat → ℝ}
    (h : ∀ j < n, lo j ≤ reported a j - reported b j ∧ reported a j - reported b j ≤ hi j) :
    ∑ j ∈ Finset.range n, lo j ≤ total a - total b ∧ total a - total b ≤ ∑ j ∈ Finset.range n, hi j := by
  rw [total_eq, total_eq, ha, hb, ← Finset.sum_sub_distrib]
  exact ⟨Finset.sum_le_sum fun j hj => (h j (Finset.mem_range.1 hj)).1,
    Finset.sum_le_sum fun j hj => (h j (Finset.mem_range.1 hj)).2⟩

theorem exp_le_dev {D D' r : ℝ} (h : Real.exp (-D / 2) ≤ Real.exp (-D' / 2) * Real.exp r) : D' - D ≤ 2 * r := by
  rw [← Real.exp_add, Real.exp_le_exp] at h
  linarith

/-! ## one channel -/

theorem gauss_peak {B σ g x : ℝ} (hσ : 0 < σ) : gaussLik B x σ * Real.exp (g * (x - B)) ≤ Real.exp (g ^ 2 * σ ^ 2 / 2) := by
  unfold gaussLik
  rw [← Real.exp_add, Real.exp_le_exp]
  have : g ^ 2 * σ ^ 2 / 2 - (-((B - x) ^ 2 / (2 * σ ^ 2)) + g * (x - B)) = ((x - B) - g * σ ^ 2) ^ 2 / (2 * σ ^ 2) := by
    field_simp; ring
  have : 0 ≤ ((x - B) - g * σ ^ 2) ^ 2 / (2 * σ ^ 2) := by positivity
  linarith

theorem pois_peak {m g x : ℝ} (hm : 0 ≤ m) (hx : 0 ≤ x) (hg : g < 1) :
    poisLik m x * Real.exp (g * (x - m)) ≤ poisLik m m * Real.exp (m * (g ^ 2 / (1 - g))) := by
  rcases hm.eq_or_lt with rfl | hm
  · simp only [poisLik, Real.rpow_zero, one_mul, neg_zero, Real.exp_zero, zero_mul, mul_one, sub_zero]
    rw [← Real.exp_add, ← Real.exp_zero, Real.exp_le_exp]
    nlinarith
  · have h1 : 0 < 1 - g := by linarith
    set y := x / m with hy
    have hy0 : 0 ≤ y := by positivity
    have hle : y ≤ Real.exp (y * (1 - g) - 1 + g / (1 - g)) := by
      have e1 : y * (1 - g) ≤ Real.exp (y * (1 - g) - 1) := by
        have := Real.add_one_le_exp (y * (1 - g) - 1); linarith
      have e2 : 1 / (1 - g) ≤ Real.exp (g / (1 - g)) := by
        have := Real.add_one_le_exp (g / (1 - g))
        have e : g / (1 - g) + 1 = 1 / (1 - g) := by field_simp; ring
        linarith
      rw [Real.exp_add]
      calc y = y * (1 - g) * (1 / (1 - g)) := by field_simp
        _ ≤ _ := mul_le_mul e1 e2 (by positivity) (Real.exp_pos _).le
    have hpow : y ^ m ≤ Real.exp (m * (y * (1 - g) - 1 + g / (1 - g))) := by
      calc y ^ m ≤ (Real.exp (y * (1 - g) - 1 + g / (1 - g))) ^ m := Real.rpow_le_rpow hy0 hle hm.le
        _ = _ := by rw [← Real.exp_mul]; ring_nf
    have hx' : x = m * y := by rw [hy]; field_simp
    unfold poisLik
    rw [hx', Real.mul_rpow hm.le hy0]
    have e : m ^ m * Real.exp (-m) * Real.exp (m * (g ^ 2 / (1 - g))) =
        m ^ m * (Real.exp (m * (y * (1 - g) - 1 + g / (1 - g))) * (Real.exp (-(m * y)) * Real.exp (g * (m * y - m)))) := by
      simp only [mul_assoc, ← Real.exp_add]
      congr 2
      field_simp
      ring
    rw [e, mul_assoc, mul_assoc]
    refine mul_le_mul_of_nonneg_left ?_ (Real.rpow_pos_of_pos hm m).le
    exact mul_le_mul_of_nonneg_right hpow (by positivity)

/-- The relative misfit, as it enters the comparison: expected background counts in the source region are `a B`, and
with `μ = s + a B` expected counts, `a (n/μ - 1)` tells how much the source region wants to move the background. -/
noncomputable def pull (a n μ : ℝ) : ℝ := a * (n / μ - 1)

theorem pg_bounds {d : FitData} {b : FitBack} (hb : d.back = some b) {j : Nat} {s Dp Dg : ℝ}
    (hn : 0 ≤ nth d.specCounts j) (hB : 0 ≤ nth b.counts j) (ha : 0 ≤ nth b.ratio j) (hσ : 0 < nth b.errors j) (hs : 0 < s)
    (h1 : IsDeviance .pstat d j s Dp) (h2 : IsDeviance .pgstat d j s Dg) :
    0 ≤ Dp - Dg ∧ Dp - Dg ≤ (pull (nth b.ratio j) (nth d.specCounts j) (s + nth b.ratio j * nth b.counts j)) ^ 2 * nth b.errors j ^ 2 := by
  unfold IsDeviance at h1 h2
  rw [hb] at h1 h2
  simp only at h1 h2
  set n := nth d.specCounts j
  set B := nth b.counts j
  set a := nth b.ratio j
  set σ := nth b.errors j
  have hpos := poisLik_self_pos hn
  have hμ : 0 < s + a * B := by positivity
  constructor
  · have : Real.exp (-Dp / 2) ≤ Real.exp (-Dg / 2) := by
      apply h2.2
      refine ⟨B, hB, ?_⟩
      rw [h1, onGaussLik]
      simp [gaussLik]
    rw [Real.exp_le_exp] at this; linarith
  · obtain ⟨x, hx, he⟩ := h2.1
    have key : Real.exp (-Dg / 2) ≤ Real.exp (-Dp / 2) * Real.exp ((pull a n (s + a * B)) ^ 2 * σ ^ 2 / 2) := by
      rw [he, h1, div_mul_eq_mul_div]
      refine div_le_div_of_nonneg_right ?_ hpos.le
      have t := poisLik_le (μ := s + a * x) (μ₀ := s + a * B) hn (by positivity) (.inl hμ)
      have g := gauss_peak (B := B) (g := pull a n (s + a * B)) (x := x) hσ
      have e : (n / (s + a * B) - 1) * (s + a * x - (s + a * B)) = pull a n (s + a * B) * (x - B) := by unfold pull; ring
      rw [e] at t
      unfold onGaussLik
      calc poisLik n (s + a * x) * gaussLik B x σ
          ≤ poisLik n (s + a * B) * Real.exp (pull a n (s + a * B) * (x - B)) * gaussLik B x σ :=
            mul_le_mul_of_nonneg_right t (Real.exp_pos _).le
        _ = poisLik n (s + a * B) * (gaussLik B x σ * Real.exp (pull a n (s + a * B) * (x - B))) := by ring
        _ ≤ _ := mul_le_mul_of_nonneg_left g (poisLik_pos hμ).le
    have := exp_le_dev key
    linarith

theorem w_bounds {d : FitData} {b : FitBack} (hb : d.back = some b) {j : Nat} {s Dp Dw : ℝ}
    (hn : 0 ≤ nth d.specCounts j) (hB : 0 ≤ nth b.counts j) (ha : 0 ≤ nth b.ratio j) (hs : 0 < s)
    (h1 : IsDeviance .pstat d j s Dp) (h2 : IsDeviance .wstat d j s Dw) :
    0 ≤ Dp - Dw ∧ (pull (nth b.ratio j) (nth d.specCounts j) (s + nth b.ratio j * nth b.counts j) < 1 →
      Dp - Dw ≤ 2 * nth b.counts j * ((pull (nth b.ratio j) (nth d.specCounts j) (s + nth b.ratio j * nth b.counts j)) ^ 2 /
        (1 - pull (nth b.ratio j) (nth d.specCounts j) (s + nth b.ratio j * nth b.counts j)))) := by
  unfold IsDeviance at h1 h2
  rw [hb] at h1 h2
  simp only at h1 h2
  set n := nth d.specCounts j
  set B := nth b.counts j
  set a := nth b.ratio j
  have hpos := poisLik_self_pos hn
  have hposB := poisLik_self_pos hB
  have hμ : 0 < s + a * B := by positivity
  constructor
  · have : Real.exp (-Dp / 2) ≤ Real.exp (-Dw / 2) := by
      apply h2.2
      refine ⟨B, hB, ?_⟩
      rw [h1, onOffLik, mul_div_mul_right _ _ hposB.ne']
    rw [Real.exp_le_exp] at this; linarith
  · intro hg
    obtain ⟨x, hx, he⟩ := h2.1
    set g := pull a n (s + a * B) with hgdef
    have key : Real.exp (-Dw / 2) ≤ Real.exp (-Dp / 2) * Real.exp (B * (g ^ 2 / (1 - g))) := by
      rw [he, h1]
      have t := poisLik_le (μ := s + a * x) (μ₀ := s + a * B) hn (by positivity) (.inl hμ)
      have e : (n / (s + a * B) - 1) * (s + a * x - (s + a * B)) = g * (x - B) := by rw [hgdef]; unfold pull; ring
      rw [e] at t
      have p := pois_peak hB hx hg
      rw [div_mul_eq_mul_div, div_le_div_iff₀ (by positivity) hpos]
      unfold onOffLik
      calc poisLik n (s + a * x) * poisLik B x * poisLik n n
          ≤ poisLik n (s + a * B) * Real.exp (g * (x - B)) * poisLik B x * poisLik n n :=
            mul_le_mul_of_nonneg_right (mul_le_mul_of_nonneg_right t (poisLik_nonneg hx)) hpos.le
        _ = poisLik n (s + a * B) * poisLik n n * (poisLik B x * Real.exp (g * (x - B))) := by ring
        _ ≤ poisLik n (s + a * B) * poisLik n n * (poisLik B B * Real.exp (B * (g ^ 2 / (1 - g)))) :=
            mul_le_mul_of_nonneg_left p (mul_pos (poisLik_pos hμ) hpos).le
        _ = _ := by ring
    have := exp_le_dev key
    linarith

theorem source_pos {stat : Stat} {d : FitData} {u : List ℝ} {s : Nat → ℝ} (hne : stat ≠ .pstat) (hr : InRange stat d u s) {j : Nat}
    (hj : j < d.size) : 0 < s j := by
  have h := (hr.2 j hj).2.1
  have he : expected stat d j (s j) = s j := by
    cases stat <;> first | rfl | exact absurd rfl hne
  rw [he] at h
  have : (0 : ℝ) < 1e-30 := by norm_num
  linarith

/-! ## C126 -/

/-- **C126 (Gaussian background).**  For the same data and model, the statistic reported by `pgstat` is never larger than
that of `pstat`, which takes the background as known exactly, and it is smaller at most by the sum over the channels of
`(a σ (n/μ - 1))²`: the variance of the background scaled to the source region times the squared relative misfit.  As the
background errors go to zero the statistics agree, channel by channel and in total. -/
theorem C126_pgstat (d : FitData) (b : FitBack) (hb : d.back = some b) (hu : Usable .pgstat d) (hB : ∀ j < d.size, 0 ≤ nth b.counts j)
    (u : List ℝ) (s : Nat → ℝ) (hg : InRange .pgstat d u s) (hp : InRange .pstat d u s) :
    ∃ p g, likelihood .pstat d u = .ok p ∧ likelihood .pgstat d u = .ok g ∧
      (∀ j < d.size, 0 ≤ reported p j - reported g j ∧ reported p j - reported g j ≤
        (nth b.ratio j * nth b.errors j * (nth d.specCounts j / (s j + nth b.ratio j * nth b.counts j) - 1)) ^ 2) ∧
      0 ≤ total p - total g ∧ total p - total g ≤ ∑ j ∈ Finset.range d.size,
        (nth b.ratio j * nth b.errors j * (nth d.specCounts j / (s j + nth b.ratio j * nth b.counts j) - 1)) ^ 2 := by
  have hu' := hu
  unfold Usable at hu'
  rw [hb] at hu'
  have hup : Usable .pstat d := by unfold Usable; rw [hb]; exact fun j hj => (hu' j hj).1
  obtain ⟨p, p1, p2, p3⟩ := likelihood_point hup hp
  obtain ⟨g, g1, g2, g3⟩ := likelihood_point hu hg
  have hch : ∀ j < d.size, 0 ≤ reported p j - reported g j ∧ reported p j - reported g j ≤
      (nth b.ratio j * nth b.errors j * (nth d.specCounts j / (s j + nth b.ratio j * nth b.counts j) - 1)) ^ 2 := by
    intro j hj
    obtain ⟨a1, a2, a3⟩ := hu' j hj
    have := pg_bounds hb a1 (hB j hj) a3.le a2 (source_pos (by decide) hg hj) (p3 j hj).2 (g3 j hj).2
    refine ⟨this.1, this.2.trans_eq ?_⟩
    unfold pull; ring
  have ht := total_between p2 g2 (lo := fun _ => 0) hch
  simp only [Finset.sum_const_zero] at ht
  exact ⟨p, g, p1, g1, hch, ht⟩

/-- **C126 (Poisson background).**  For the same data and model, the statistic reported by `wstat` is never larger than that of
`pstat`.  Where the off counts do not leave the background so uncertain that `a (n/μ - 1)` reaches one (`a` is the ratio of
the exposures), it is smaller at most by `2 a² B (n/μ - 1)² / (1 - a (n/μ - 1))` in each channel: with `B` off counts, `a² B`
is the variance of the scaled background.  A longer background observation (`a` to zero with `a B` fixed) makes the statistics
agree. -/
theorem C126_wstat (d : FitData) (b : FitBack) (hb : d.back = some b) (hu : Usable .wstat d)
    (u : List ℝ) (s : Nat → ℝ) (hw : InRange .wstat d u s) (hp : InRange .pstat d u s) :
    ∃ p w, likelihood .pstat d u = .ok p ∧ likelihood .wstat d u = .ok w ∧
      (∀ j < d.size, 0 ≤ reported p j - reported w j ∧ ∀ g, g = nth b.ratio j * (nth d.specCounts j / (s j + nth b.ratio j * nth b.counts j) - 1) →
        g < 1 → reported p j - reported w j ≤ 2 * nth b.counts j * (g ^ 2 / (1 - g))) ∧ 0 ≤ total p - total w := by
  have hu' := hu
  unfold Usable at hu'
  rw [hb] at hu'
  have hup : Usable .pstat d := by unfold Usable; rw [hb]; exact fun j hj => (hu' j hj).1
  obtain ⟨p, p1, p2, p3⟩ := likelihood_point hup hp
  obtain ⟨w, w1, w2, w3⟩ := likelihood_point hu hw
  have hch : ∀ j < d.size, 0 ≤ reported p j - reported w j ∧
      ∀ g, g = nth b.ratio j * (nth d.specCounts j / (s j + nth b.ratio j * nth b.counts j) - 1) →
        g < 1 → reported p j - reported w j ≤ 2 * nth b.counts j * (g ^ 2 / (1 - g)) := by
    intro j hj
    obtain ⟨a1, a2, a3⟩ := hu' j hj
    have := w_bounds hb a1 a2 a3.le (source_pos (by decide) hw hj) (p3 j hj).2 (w3 j hj).2
    refine ⟨this.1, ?_⟩
    rintro g rfl hg
    exact this.2 hg
  have ht := total_between p2 w2 (lo := fun _ => 0) (hi := fun j => reported p j - reported w j) (fun j hj => ⟨(hch j hj).1, le_refl _⟩)
  simp only [Finset.sum_const_zero] at ht
  exact ⟨p, w, p1, w1, hch, ht.1⟩

/-- Background errors replaced. -/
def withErrors (b : FitBack) (e : List ℝ) : FitBack := ⟨b.counts, e, b.ratio⟩

/-- **C126 (larger background errors).**  Larger background errors never increase the statistic of `pgstat` at given
parameters, in any channel. -/
theorem C126_errors (d d' : FitData) (b : FitBack) (e : List ℝ) (hb : d.back = some b)
    (hd' : d' = { d with back := some (withErrors b e) }) (hu : Usable .pgstat d) (hle : ∀ j < d.size, nth b.errors j ≤ nth e j)
    (u : List ℝ) (s : Nat → ℝ) (hr : InRange .pgstat d u s) :
    ∃ g g', likelihood .pgstat d u = .ok g ∧ likelihood .pgstat d' u = .ok g' ∧ (∀ j < d.size, reported g' j ≤ reported g j) ∧
      total g' ≤ total g := by
  have hu' := hu
  unfold Usable at hu'
  rw [hb] at hu'
  have hud : Usable .pgstat d' := by
    subst hd'; unfold Usable
    intro j hj
    obtain ⟨a1, a2, a3⟩ := hu' j hj
    exact ⟨a1, a2.trans_le (hle j hj), a3⟩
  have hrd : InRange .pgstat d' u s := by subst hd'; exact hr
  have hsz : d'.size = d.size := by subst hd'; rfl
  obtain ⟨g, g1, g2, g3⟩ := likelihood_point hu hr
  obtain ⟨g', h1, h2, h3⟩ := likelihood_point hud hrd
  have hch : ∀ j < d.size, reported g' j ≤ reported g j := by
    intro j hj
    have x1 := (g3 j hj).2
    have x2 := (h3 j (hsz ▸ hj)).2
    unfold IsDeviance at x1 x2
    rw [hb] at x1
    subst hd'
    simp only [withErrors] at x1 x2
    obtain ⟨x, hx, he⟩ := x1.1
    obtain ⟨a1, a2, a3⟩ := hu' j hj
    have hs := source_pos (by decide) hr hj
    have : Real.exp (-(reported g j) / 2) ≤ Real.exp (-(reported g' j) / 2) := by
      unfold reported
      rw [he]
      refine le_trans ?_ (x2.2 ⟨x, hx, rfl⟩)
      refine div_le_div_of_nonneg_right ?_ (poisLik_self_pos a1).le
      unfold onGaussLik
      refine mul_le_mul_of_nonneg_left ?_ (poisLik_nonneg (by positivity))
      unfold gaussLik
      rw [Real.exp_le_exp, neg_le_neg_iff]
      apply div_le_div_of_nonneg_left (sq_nonneg _) (by positivity)
      have := hle j hj
      nlinarith
    rw [Real.exp_le_exp] at this; linarith
  have ht := total_between (a := g) (b := g') g2 (hsz ▸ h2) (lo := fun _ => 0) (hi := fun j => reported g j - reported g' j)
    (fun j hj => ⟨by have := hch j hj; linarith, le_refl _⟩)
  simp only [Finset.sum_const_zero] at ht
  exact ⟨g, g', g1, h1, hch, by linarith [ht.1]⟩

/-- **C126 (no background counts).**  `pstat` with a background that is zero in every channel does exactly what `cstat` does
without a background. -/
theorem C126_zero_background (d : FitData) (b : FitBack) (hb : d.back = some b) (h0 : ∀ j < d.size, nth b.counts j = 0) (u : List ℝ) :
    likelihood .pstat d u = likelihood .cstat { d with back := none } u := by
  unfold likelihood
  rw [hb]
  dsimp only
  have e : ((List.range d.size).map fun j => clip (1e-30) (1e15) (d.sourceRate u j * d.exposure + nth b.ratio j * nth b.counts j)) =
      (List.range d.size).map (FitData.sourceCounts { d with back := none } u) := by
    apply List.map_congr_left
    intro j hj
    rw [h0 j (List.mem_range.1 hj), mul_zero, add_zero]
    rfl
  rw [e]
  rfl

/-- **C126 (many counts).**  Without background and with the usual errors `√n`, the statistics of `chi2` and `cstat` of a
channel with `n` counts differ at most by `2 n x³ / (1 - x)`, where `x = |s - n| / n < 1` is the relative misfit: at a given
misfit in units of the error the difference vanishes as the counts grow. -/
theorem C126_chi2 (d : FitData) (hsame : ∀ j < d.size, nth d.netCounts j = nth d.specCounts j)
    (herr : ∀ j < d.size, 0 < nth d.netErrors j ∧ nth d.netErrors j ^ 2 = nth d.specCounts j)
    (u : List ℝ) (s : Nat → ℝ) (hr : InRange .cstat d u s) :
    ∃ x c, likelihood .chi2 d u = .ok x ∧ likelihood .cstat d u = .ok c ∧
      ∀ j < d.size, |s j - nth d.specCounts j| < nth d.specCounts j → ∀ r, r = |s j - nth d.specCounts j| / nth d.specCounts j →
        |reported x j - reported c j| ≤ 2 * nth d.specCounts j * (r ^ 3 / (1 - r)) := by
  have hux : Usable .chi2 d := by unfold Usable; exact fun j hj => (herr j hj).1
  have huc : Usable .cstat d := by unfold Usable; exact fun j hj => (herr j hj).2 ▸ sq_nonneg _
  have hrx : InRange .chi2 d u s := ⟨hr.1, fun j hj => by simpa [expected] using hr.2 j hj⟩
  obtain ⟨x, x1, x2, x3⟩ := likelihood_point hux hrx
  obtain ⟨c, c1, c2, c3⟩ := likelihood_point huc hr
  refine ⟨x, c, x1, c1, ?_⟩
  rintro j hj hlt r rfl
  have y1 := (x3 j hj).2
  have y2 := (c3 j hj).2
  unfold IsDeviance at y1 y2
  simp only at y1 y2
  obtain ⟨e1, e2⟩ := herr j hj
  change Real.exp (-(reported x j) / 2) = _ at y1
  change Real.exp (-(reported c j) / 2) = _ at y2
  rw [hsame j hj] at y1
  set n := nth d.specCounts j
  set σ := nth d.netErrors j
  set v := s j
  have hn : 0 < n := by rw [← e2]; positivity
  have hv : 0 < v := source_pos (by decide) hr hj
  -- the two deviances
  have d1 : reported x j = (v - n) ^ 2 / n := by
    unfold gaussLik at y1
    have := Real.exp_injective y1
    rw [e2] at this
    have e : (n - v) ^ 2 / (2 * n) = (v - n) ^ 2 / n / 2 := by field_simp; ring
    rw [e] at this
    linarith
  have d2 : reported c j = 2 * (v - n - n * Real.log (v / n)) := by
    unfold poisLik at y2
    rw [Real.rpow_def_of_pos hv, Real.rpow_def_of_pos hn, ← Real.exp_add, ← Real.exp_add, ← Real.exp_sub] at y2
    have := Real.exp_injective y2
    rw [Real.log_div hv.ne' hn.ne']
    linear_combination (-2) * this
  set t := (v - n) / n with ht
  have hvt : v / n = 1 + t := by rw [ht]; field_simp; ring
  have habs : |t| = |v - n| / n := by rw [ht, abs_div, abs_of_pos hn]
  have ht1 : |-t| < 1 := by rw [abs_neg, habs, div_lt_one hn]; exact hlt
  have hlog := Real.abs_log_sub_add_sum_range_le ht1 2
  simp only [Finset.sum_range_succ, Finset.sum_range_zero, abs_neg] at hlog
  rw [d1, d2, ← habs, hvt]
  have e3 : (v - n) ^ 2 / n - 2 * (v - n - n * Real.log (1 + t)) =
      2 * n * (0 + (-t) ^ (0 + 1) / ((0 : ℕ) + 1 : ℝ) + (-t) ^ (1 + 1) / ((1 : ℕ) + 1 : ℝ) + Real.log (1 - -t)) := by
    have hvn : v - n = n * t := by rw [ht]; field_simp
    rw [hvn]
    push_cast
    field_simp
    ring_nf
  rw [e3, abs_mul, abs_of_pos (by positivity : 0 < 2 * n)]
  exact mul_le_mul_of_nonneg_left hlog (by positivity)

/-! ### the hypotheses are met -/

example : ∃ b, exFit.back = some b ∧ Usable .pgstat exFit ∧ Usable .wstat exFit ∧ (∀ j < exFit.size, 0 ≤ nth b.counts j) ∧
    InRange .pgstat exFit [2] (fun _ => 2) ∧ InRange .pstat exFit [2] (fun _ => 2) ∧ InRange .wstat exFit [2] (fun _ => 2) :=
  ⟨_, rfl, exFit_usable _, exFit_usable _, by simp [exFit, FitData.size, nth], exFit_inRange _, exFit_inRange _, exFit_inRange _⟩

/-- 100 counts in one channel, error 10 -/
noncomputable def hundred : FitData where
  specCounts := [100]
  specErrors := [10]
  netCounts := [100]
  netErrors := [10]
  back := none
  matrix := [[1]]
  areaScale := [1]
  exposure := 1
  specPoisson := true
  backPoisson := false

set_option exponentiation.threshold 400 in
/-- with 90 expected counts the statistics differ by less than 0.25 -/
example : ∃ x c, likelihood .chi2 hundred [90] = .ok x ∧ likelihood .cstat hundred [90] = .ok c ∧
    |reported x 0 - reported c 0| ≤ 0.25 := by
  have hr : InRange .cstat hundred [90] fun _ => 90 := by
    refine ⟨fun r hr => ?_, fun j hj => ?_⟩
    · have : r = 0 := by simp [hundred] at hr; exact hr
      subst this
      simp only [nth, List.getD_cons_zero]
      constructor <;> norm_num
    · have : j = 0 := by simp [hundred, FitData.size] at hj; exact hj
      subst this
      refine ⟨by simp [FitData.folded, hundred, nth], ?_, ?_⟩ <;> simp only [expected] <;> norm_num
  obtain ⟨x, c, h1, h2, h3⟩ := C126_chi2 hundred (by simp [hundred, FitData.size, nth])
    (by simp [hundred, FitData.size, nth]; norm_num) [90] (fun _ => 90) hr
  refine ⟨x, c, h1, h2, ?_⟩
  have hn : nth hundred.specCounts 0 = 100 := by simp [hundred, nth]
  have := h3 0 (by simp [hundred, FitData.size]) (by rw [hn]; norm_num [abs_lt]) _ rfl
  rw [hn] at this
  refine this.trans ?_
  norm_num [abs_of_neg]

/-- `C126_pgstat` and `C126_wstat` on the data set of one channel: the profiled background never makes the statistic larger. -/
example : (∃ p g, likelihood .pstat exFit [2] = .ok p ∧ likelihood .pgstat exFit [2] = .ok g ∧ 0 ≤ total p - total g) ∧
    ∃ p w, likelihood .pstat exFit [2] = .ok p ∧ likelihood .wstat exFit [2] = .ok w ∧ 0 ≤ total p - total w := by
  obtain ⟨p, g, h1, h2, _, h3, _⟩ := C126_pgstat exFit _ rfl (exFit_usable _) (by simp [exFit, FitData.size, nth]) [2] (fun _ => 2) (exFit_inRange _) (exFit_inRange _)
  obtain ⟨p', w, k1, k2, _, k3⟩ := C126_wstat exFit _ rfl (exFit_usable _) [2] (fun _ => 2) (exFit_inRange _) (exFit_inRange _)
  exact ⟨⟨p, g, h1, h2, h3⟩, p', w, k1, k2, k3⟩

/-- `C126_errors`: a background error of 3 instead of 2 counts. -/
example : ∃ g g', likelihood .pgstat exFit [2] = .ok g ∧
    likelihood .pgstat { exFit with back := some (withErrors ⟨[3], [2], [1 / 2]⟩ [3]) } [2] = .ok g' ∧ total g' ≤ total g := by
  obtain ⟨g, g', h1, h2, _, h3⟩ := C126_errors exFit _ _ [3] rfl rfl (exFit_usable _) (by simp [exFit, FitData.size, nth]; norm_num) [2] (fun _ => 2) (exFit_inRange _)
  exact ⟨g, g', h1, h2, h3⟩

/-- `C126_zero_background`: the background region of the data set has no counts. -/
example : likelihood .pstat { exFit with back := some ⟨[0], [0], [1 / 2]⟩ } [2] = likelihood .cstat { exFit with back := none } [2] :=
  C126_zero_background { exFit with back := some ⟨[0], [0], [1 / 2]⟩ } _ rfl (by simp [exFit, FitData.size, nth]) [2]

end Elisa.Infer.Limit
