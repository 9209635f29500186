import Verif.Infer.ConvexProps

/-!
# C127: best-fit amplitudes are unique where the data can tell the components apart
-/

namespace Elisa.Infer.Unique

open Elisa Elisa.Infer

/-! ## Specification -/

/-- Channels whose statistic is strictly convex in the source counts: all of them for `chi2`, those with counts for
`cstat`, `pstat` and `pgstat`, those with counts in the source and in the background region for `wstat`. -/
def Informative (stat : Stat) (d : FitData) (j : Nat) : Prop :=
  match stat, d.back with
  | .chi2, _ => True
  | .wstat, some b => 0 < nth d.specCounts j ∧ 0 < nth b.counts j
  | _, _ => 0 < nth d.specCounts j

/-- No combination of the first `n` components is invisible in the informative channels. -/
def Resolved (parts : List Part) (n : Nat) : Prop :=
  ∀ M : Nat → ℝ, (∀ p ∈ parts, ∀ j < p.data.size, Informative p.stat p.data j → p.data.folded (p.fluxes M) j = 0) → ∀ c < n, M c = 0

/-! ## strict convexity of a channel -/

theorem pois_sq {n x y : ℝ} (hn : 0 ≤ n) (hx : 0 ≤ x) (hy : 0 ≤ y) :
    poisLik n x * poisLik n y ≤ poisLik n ((x + y) / 2) ^ 2 ∧
    (0 < n → x ≠ y → 0 < x → 0 < y → poisLik n x * poisLik n y < poisLik n ((x + y) / 2) ^ 2) := by
  have e1 : poisLik n x * poisLik n y = (x * y) ^ n * Real.exp (-(x + y)) := by
    unfold poisLik
    rw [Real.mul_rpow hx hy, neg_add, Real.exp_add]; ring
  have e2 : poisLik n ((x + y) / 2) ^ 2 = (((x + y) / 2) ^ 2) ^ n * Real.exp (-(x + y)) := by
    unfold poisLik
    have h0 : 0 ≤ (x + y) / 2 := by positivity
    rw [mul_pow, ← Real.rpow_natCast (((x + y) / 2) ^ n), ← Real.rpow_mul h0, mul_comm n, Real.rpow_mul h0, Real.rpow_natCast,
      ← Real.exp_nat_mul]
    congr 2
    push_cast; ring
  rw [e1, e2]
  constructor
  · refine mul_le_mul_of_nonneg_right (Real.rpow_le_rpow (by positivity) ?_ hn) (Real.exp_pos _).le
    nlinarith [sq_nonneg (x - y)]
  · intro hn hne hx hy
    refine mul_lt_mul_of_pos_right (Real.rpow_lt_rpow (by positivity) ?_ hn) (Real.exp_pos _)
    nlinarith [sq_pos_of_ne_zero (sub_ne_zero.2 hne)]

theorem gauss_sq {B x y σ : ℝ} (hσ : 0 < σ) :
    gaussLik B x σ * gaussLik B y σ ≤ gaussLik B ((x + y) / 2) σ ^ 2 ∧
    (x ≠ y → gaussLik B x σ * gaussLik B y σ < gaussLik B ((x + y) / 2) σ ^ 2) := by
  have e : gaussLik B x σ * gaussLik B y σ = Real.exp (-((x - y) ^ 2 / (4 * σ ^ 2))) * gaussLik B ((x + y) / 2) σ ^ 2 := by
    unfold gaussLik
    rw [← Real.exp_nat_mul, ← Real.exp_add, ← Real.exp_add]
    congr 1
    push_cast
    field_simp
    ring
  have hpos : 0 < gaussLik B ((x + y) / 2) σ ^ 2 := by unfold gaussLik; positivity
  rw [e]
  constructor
  · have : Real.exp (-((x - y) ^ 2 / (4 * σ ^ 2))) ≤ 1 := by
      rw [Real.exp_le_one_iff, neg_nonpos]; positivity
    nlinarith
  · intro hne
    have h2 : 0 < (x - y) ^ 2 := sq_pos_of_ne_zero (sub_ne_zero.2 hne)
    have : Real.exp (-((x - y) ^ 2 / (4 * σ ^ 2))) < 1 := by
      rw [Real.exp_lt_one_iff, neg_lt_zero]; positivity
    nlinarith

theorem dev_lt {D₁ D₂ D : ℝ} (h : Real.exp (-D₁ / 2) * Real.exp (-D₂ / 2) < Real.exp (-D / 2) ^ 2) : D < (D₁ + D₂) / 2 := by
  rw [← Real.exp_add, ← Real.exp_nat_mul, Real.exp_lt_exp] at h
  push_cast at h
  linarith

/-- two factors, of which one is strict -/
theorem mul_strict {a₁ a₂ a b₁ b₂ b : ℝ} (ha : a₁ * a₂ ≤ a ^ 2) (hb : b₁ * b₂ ≤ b ^ 2) (pa : 0 < a₁ * a₂) (pb : 0 < b₁ * b₂)
    (h : a₁ * a₂ < a ^ 2 ∨ b₁ * b₂ < b ^ 2) : (a₁ * b₁) * (a₂ * b₂) < (a * b) ^ 2 := by
  have e : (a₁ * b₁) * (a₂ * b₂) = (a₁ * a₂) * (b₁ * b₂) := by ring
  rw [e, mul_pow]
  rcases h with h | h
  · exact mul_lt_mul h hb pb (by positivity)
  · exact mul_lt_mul' ha h pb.le (lt_of_lt_of_le pa ha)

theorem div_strict {a₁ a₂ a c : ℝ} (hc : 0 < c) (h : a₁ * a₂ < a ^ 2) : a₁ / c * (a₂ / c) < (a / c) ^ 2 := by
  rw [div_mul_div_comm, div_pow, ← sq]
  exact div_lt_div_of_pos_right h (by positivity)

/-- **C127 (one channel).**  In an informative channel the deviance half-way between two different source counts is strictly
smaller than the mean of the two deviances. -/
theorem C127_strict (stat : Stat) (d : FitData) (hu : Usable stat d) (j : Nat) (hj : j < d.size) (hi : Informative stat d j)
    (s₁ s₂ D₁ D₂ D : ℝ) (hne : s₁ ≠ s₂) (hs₁ : 0 < expected stat d j s₁) (hs₂ : 0 < expected stat d j s₂)
    (hD₁ : IsDeviance stat d j s₁ D₁) (hD₂ : IsDeviance stat d j s₂ D₂) (hD : IsDeviance stat d j ((s₁ + s₂) / 2) D) :
    D < (D₁ + D₂) / 2 := by
  apply dev_lt
  unfold IsDeviance Usable expected Informative at *
  cases stat with
  | chi2 =>
    simp only at *
    rw [hD₁, hD₂, hD]
    exact (gauss_sq (hu j hj)).2 hne
  | cstat =>
    simp only at *
    rw [hD₁, hD₂, hD]
    exact div_strict (poisLik_self_pos (hu j hj)) ((pois_sq (hu j hj) hs₁.le hs₂.le).2 hi hne hs₁ hs₂)
  | pstat =>
    cases hb : d.back with
    | none => simp only [hb] at hu
    | some b =>
      simp only [hb] at *
      rw [hD₁, hD₂, hD]
      have e : (s₁ + s₂) / 2 + nth b.ratio j * nth b.counts j =
          ((s₁ + nth b.ratio j * nth b.counts j) + (s₂ + nth b.ratio j * nth b.counts j)) / 2 := by ring
      rw [e]
      exact div_strict (poisLik_self_pos (hu j hj)) ((pois_sq (hu j hj) hs₁.le hs₂.le).2 hi (fun h => hne (by linarith)) hs₁ hs₂)
  | pgstat =>
    cases hb : d.back with
    | none => simp only [hb] at hu
    | some b =>
      simp only [hb] at *
      obtain ⟨hn, hσ, ha⟩ := hu j hj
      obtain ⟨x, hx, ex⟩ := hD₁.1
      obtain ⟨y, hy, ey⟩ := hD₂.1
      have p1 : 0 < s₁ + nth b.ratio j * x := by positivity
      have p2 : 0 < s₂ + nth b.ratio j * y := by positivity
      have hz := hD.2 ⟨(x + y) / 2, by positivity, rfl⟩
      have e : (s₁ + s₂) / 2 + nth b.ratio j * ((x + y) / 2) = ((s₁ + nth b.ratio j * x) + (s₂ + nth b.ratio j * y)) / 2 := by ring
      refine lt_of_lt_of_le ?_ (pow_le_pow_left₀ (div_nonneg (mul_nonneg (poisLik_nonneg (by rw [e]; positivity)) (gaussLik_nonneg _ _ _))
        (poisLik_self_pos hn).le) hz 2)
      rw [ex, ey]
      refine div_strict (poisLik_self_pos hn) ?_
      unfold onGaussLik
      rw [e]
      refine mul_strict (pois_sq hn p1.le p2.le).1 (gauss_sq hσ).1 (mul_pos (poisLik_pos p1) (poisLik_pos p2))
        (mul_pos (Real.exp_pos _) (Real.exp_pos _)) ?_
      by_cases hxy : x = y
      · left
        refine (pois_sq hn p1.le p2.le).2 hi (fun h => hne ?_) p1 p2
        rw [hxy] at h; linarith
      · right; exact (gauss_sq hσ).2 hxy
  | wstat =>
    cases hb : d.back with
    | none => simp only [hb] at hu
    | some b =>
      simp only [hb] at *
      obtain ⟨hn, hm, ha⟩ := hu j hj
      obtain ⟨x, hx, ex⟩ := hD₁.1
      obtain ⟨y, hy, ey⟩ := hD₂.1
      have p1 : 0 < s₁ + nth b.ratio j * x := by positivity
      have p2 : 0 < s₂ + nth b.ratio j * y := by positivity
      have pos_of : ∀ {z s D : ℝ}, 0 ≤ z → Real.exp (-D / 2) = onOffLik (nth d.specCounts j) (nth b.counts j) s (nth b.ratio j) z /
          (poisLik (nth d.specCounts j) (nth d.specCounts j) * poisLik (nth b.counts j) (nth b.counts j)) → 0 < z := by
        intro z s D hz he
        rcases hz.eq_or_lt with h0 | h0
        · rw [← h0] at he
          have : poisLik (nth b.counts j) 0 = 0 := by
            unfold poisLik
            rw [Real.zero_rpow hi.2.ne']; ring
          unfold onOffLik at he
          rw [this, mul_zero, zero_div] at he
          exact absurd he (Real.exp_pos _).ne'
        · exact h0
      have qx := pos_of hx ex
      have qy := pos_of hy ey
      have hz := hD.2 ⟨(x + y) / 2, by positivity, rfl⟩
      have e : (s₁ + s₂) / 2 + nth b.ratio j * ((x + y) / 2) = ((s₁ + nth b.ratio j * x) + (s₂ + nth b.ratio j * y)) / 2 := by ring
      have hc := mul_pos (poisLik_self_pos hn) (poisLik_self_pos hm)
      refine lt_of_lt_of_le ?_ (pow_le_pow_left₀ (div_nonneg (mul_nonneg (poisLik_nonneg (by rw [e]; positivity)) (poisLik_nonneg (by positivity)))
        hc.le) hz 2)
      rw [ex, ey]
      refine div_strict hc ?_
      unfold onOffLik
      rw [e]
      refine mul_strict (pois_sq hn p1.le p2.le).1 (pois_sq hm hx hy).1 (mul_pos (poisLik_pos p1) (poisLik_pos p2))
        (mul_pos (poisLik_pos qx) (poisLik_pos qy)) ?_
      by_cases hxy : x = y
      · left
        refine (pois_sq hn p1.le p2.le).2 hi.1 (fun h => hne ?_) p1 p2
        rw [hxy] at h; linarith
      · right; exact (pois_sq hm hx hy).2 hi.2 hxy qx qy

/-! ## the whole fit -/

theorem mid_eq (K L : Nat → ℝ) : (1 - (1 / 2 : ℝ)) • K + (1 / 2 : ℝ) • L = fun c => (K c + L c) / 2 := by
  funext c
  simp only [Pi.add_apply, Pi.smul_apply, smul_eq_mul]
  ring

theorem devOf_mid {stat : Stat} {d : FitData} {u₁ u₂ um : List ℝ} (hu : Usable stat d)
    (hm : Mixed d.matrix.length (1 / 2) u₁ u₂ um) (hr₁ : InRange stat d u₁ (d.folded u₁)) (hr₂ : InRange stat d u₂ (d.folded u₂))
    {j : Nat} (hj : j < d.size) (hi : Informative stat d j) (hne : d.folded u₁ j ≠ d.folded u₂ j) :
    devOf (stat, d, um) < (devOf (stat, d, u₁) + devOf (stat, d, u₂)) / 2 := by
  obtain ⟨x₁, a1, a2, a3⟩ := C25_channel_deviance stat d u₁ _ hu hr₁
  obtain ⟨x₂, b1, b2, b3⟩ := C25_channel_deviance stat d u₂ _ hu hr₂
  obtain ⟨x, c1, c2, c3⟩ := C25_channel_deviance stat d um _ hu (inRange_mix (by norm_num) (by norm_num) hm hr₁ hr₂)
  have e : ∀ k, d.folded um k = (d.folded u₁ k + d.folded u₂ k) / 2 := by
    intro k; rw [folded_mix hm k]; ring
  unfold devOf
  simp only [a1, b1, c1]
  rw [nth_sum, nth_sum, nth_sum, a2, b2, c2, Finset.mul_sum, Finset.mul_sum, Finset.mul_sum, ← Finset.sum_add_distrib, Finset.sum_div]
  have pos : ∀ {u : List ℝ}, InRange stat d u (d.folded u) → ∀ k < d.size, 0 < expected stat d k (d.folded u k) :=
    fun h k hk => lt_of_lt_of_le (by norm_num) (h.2 k hk).2.1
  apply Finset.sum_lt_sum
  · intro k hk
    have hk' := Finset.mem_range.1 hk
    obtain ⟨D₁, e1, -, i1⟩ := a3 k hk'
    obtain ⟨D₂, e2, -, i2⟩ := b3 k hk'
    obtain ⟨D, e3, -, i3⟩ := c3 k hk'
    rw [e1, e2, e3]
    rw [folded_mix hm k] at i3
    have := C119_channel_convex stat d hu k hk' _ _ (1 / 2) D₁ D₂ D (by norm_num) (by norm_num) (pos hr₁ k hk').le (pos hr₂ k hk').le i1 i2 i3
    linarith
  · refine ⟨j, Finset.mem_range.2 hj, ?_⟩
    obtain ⟨D₁, e1, -, i1⟩ := a3 j hj
    obtain ⟨D₂, e2, -, i2⟩ := b3 j hj
    obtain ⟨D, e3, -, i3⟩ := c3 j hj
    rw [e1, e2, e3]
    rw [e j] at i3
    exact C127_strict stat d hu j hj hi _ _ D₁ D₂ D hne (pos hr₁ j hj) (pos hr₂ j hj) i1 i2 i3

/-- **C127 (same predictions).**  If two sets of amplitudes are both best fits (no allowed amplitudes have a smaller total
statistic, over any number of data sets with any statistics), they predict the same source counts in every informative
channel of every data set. -/
theorem C127_predictions (parts : List Part) (hu : ∀ p ∈ parts, Usable p.stat p.data) (K L : Nat → ℝ) (hK : K ∈ Allowed parts) (hL : L ∈ Allowed parts)
    (bK : ∀ M ∈ Allowed parts, fitStatistic parts K ≤ fitStatistic parts M)
    (bL : ∀ M ∈ Allowed parts, fitStatistic parts L ≤ fitStatistic parts M) :
    ∀ p ∈ parts, ∀ j < p.data.size, Informative p.stat p.data j → p.data.folded (p.fluxes K) j = p.data.folded (p.fluxes L) j := by
  intro p hp j hj hi
  by_contra hne
  set M := (1 - (1 / 2 : ℝ)) • K + (1 / 2 : ℝ) • L with hM
  have hMA : M ∈ Allowed parts := fun q hq =>
    inRange_mix (by norm_num) (by norm_num) (fluxes_mix q (1 / 2) K L) (hK q hq) (hL q hq)
  have h1 := bK M hMA
  have h2 := bL M hMA
  rw [(fitStatistic_eq parts hu M hMA).1] at h1 h2
  rw [(fitStatistic_eq parts hu K hK).1] at h1
  rw [(fitStatistic_eq parts hu L hL).1] at h2
  have hlt : (parts.map fun q => devOf (q.stat, q.data, q.fluxes M)).sum <
      (parts.map fun q => (devOf (q.stat, q.data, q.fluxes K) + devOf (q.stat, q.data, q.fluxes L)) / 2).sum := by
    apply List.sum_lt_sum
    · intro q hq
      have := devOf_mix (hu q hq) (by norm_num : (0 : ℝ) ≤ 1 / 2) (by norm_num) (fluxes_mix q (1 / 2) K L) (hK q hq) (hL q hq)
      refine le_trans this (le_of_eq ?_)
      ring
    · exact ⟨p, hp, devOf_mid (hu p hp) (fluxes_mix p (1 / 2) K L) (hK p hp) (hL p hp) hj hi hne⟩
  have e : (parts.map fun q => (devOf (q.stat, q.data, q.fluxes K) + devOf (q.stat, q.data, q.fluxes L)) / 2).sum =
      ((parts.map fun q => devOf (q.stat, q.data, q.fluxes K)).sum + (parts.map fun q => devOf (q.stat, q.data, q.fluxes L)).sum) / 2 := by
    generalize parts = l
    induction l with
    | nil => simp
    | cons a l ih =>
      simp only [List.map_cons, List.sum_cons, ih]
      ring
  rw [e] at hlt
  linarith

theorem folded_sub (p : Part) (K L : Nat → ℝ) (j : Nat) :
    p.data.folded (p.fluxes (K - L)) j = p.data.folded (p.fluxes K) j - p.data.folded (p.fluxes L) j := by
  unfold FitData.folded
  rw [← mul_sub, ← Finset.sum_sub_distrib]
  congr 1
  apply Finset.sum_congr rfl
  intro r hr
  have hr := Finset.mem_range.1 hr
  unfold Part.fluxes
  rw [nth_map hr, nth_map hr, nth_map hr, ← mul_sub, ← Finset.sum_sub_distrib]
  congr 1
  apply Finset.sum_congr rfl
  intro c _
  simp only [Pi.sub_apply]
  ring

/-- **C127 (unique amplitudes).**  If the informative channels of the data sets resolve the components (no combination of
components is invisible there), the best-fit amplitudes are unique. -/
theorem C127_unique (parts : List Part) (hu : ∀ p ∈ parts, Usable p.stat p.data) (n : Nat) (hres : Resolved parts n)
    (K L : Nat → ℝ) (hK : K ∈ Allowed parts) (hL : L ∈ Allowed parts)
    (bK : ∀ M ∈ Allowed parts, fitStatistic parts K ≤ fitStatistic parts M)
    (bL : ∀ M ∈ Allowed parts, fitStatistic parts L ≤ fitStatistic parts M) : ∀ c < n, K c = L c := by
  intro c hc
  have := hres (K - L) (fun p hp j hj hi => by
    rw [folded_sub, C127_predictions parts hu K L hK hL bK bL p hp j hj hi, sub_self]) c hc
  simp only [Pi.sub_apply] at this
  linarith

/-! ### the hypotheses are met -/

/-- a single component, for every statistic -/
noncomputable def exParts (stat : Stat) : List Part := [⟨stat, exFit, [[1]]⟩]

theorem ex_fluxes (stat : Stat) (K : Nat → ℝ) : (Part.fluxes ⟨stat, exFit, [[1]]⟩ K) = [K 0] := by
  simp [Part.fluxes, exFit, nth]

theorem ex_folded (K : ℝ) : exFit.folded [K] 0 = K := by
  simp [FitData.folded, exFit, nth]

example (stat : Stat) : Resolved (exParts stat) 1 := by
  intro M h c hc
  obtain rfl : c = 0 := by omega
  have := h ⟨stat, exFit, [[1]]⟩ (by simp [exParts]) 0 (by simp [exFit, FitData.size])
    (by cases stat <;> simp [Informative, exFit, nth])
  rw [ex_fluxes] at this
  exact (ex_folded (M 0)).symm.trans this

set_option exponentiation.threshold 400 in
/-- The amplitude 5 is the best fit of `cstat` to the five counts. -/
example : (fun _ => 5 : Nat → ℝ) ∈ Allowed (exParts .cstat) ∧
    ∀ M ∈ Allowed (exParts .cstat), fitStatistic (exParts .cstat) (fun _ => 5) ≤ fitStatistic (exParts .cstat) M := by
  have hu : ∀ p ∈ exParts .cstat, Usable p.stat p.data := by
    intro p hp
    obtain rfl := List.mem_singleton.1 hp
    exact exFit_usable _
  have hA : (fun _ => 5 : Nat → ℝ) ∈ Allowed (exParts .cstat) := by
    intro p hp
    obtain rfl := List.mem_singleton.1 hp
    simp only [ex_fluxes]
    refine ⟨fun r hr => ?_, fun j hj => ⟨rfl, ?_⟩⟩
    · obtain rfl : r = 0 := by simpa [exFit] using hr
      simp only [nth, List.getD_cons_zero]
      constructor <;> norm_num
    · obtain rfl : j = 0 := by simpa [exFit, FitData.size] using hj
      rw [ex_folded]
      simp only [expected]
      constructor <;> norm_num
  refine ⟨hA, fun M hM => ?_⟩
  have dev : ∀ M ∈ Allowed (exParts .cstat), ∃ D, fitStatistic (exParts .cstat) M = D ∧ 0 ≤ D ∧ IsDeviance .cstat exFit 0 (M 0) D := by
    intro M hM
    rw [(fitStatistic_eq _ hu M hM).1]
    have hr := hM _ (List.mem_singleton.2 rfl)
    simp only [ex_fluxes] at hr
    obtain ⟨x, a1, a2, a3⟩ := C25_channel_deviance .cstat exFit [M 0] _ (exFit_usable _) hr
    obtain ⟨D, e, h0, hd⟩ := a3 0 (by simp [exFit, FitData.size])
    refine ⟨D, ?_, h0, ?_⟩
    · simp only [exParts, List.map_cons, List.map_nil, List.sum_cons, List.sum_nil, add_zero, ex_fluxes, devOf, a1]
      rw [← e, nth_sum, a2]
      simp [exFit, FitData.size]
    · rwa [ex_folded] at hd
  obtain ⟨D, e, h0, hd⟩ := dev _ hA
  obtain ⟨D', e', h0', -⟩ := dev _ hM
  rw [e, e']
  have : D = 0 := by
    unfold IsDeviance at hd
    simp only [exFit, nth, List.getD_cons_zero] at hd
    rw [div_self (poisLik_pos (by norm_num)).ne', Real.exp_eq_one_iff] at hd
    linarith
  linarith

/-- `C127_strict` on the data set of one channel: the deviance at three expected counts is below the mean of those at two and four. -/
example : ∃ D₂ D₃ D₄ : ℝ, IsDeviance .cstat exFit 0 2 D₂ ∧ IsDeviance .cstat exFit 0 3 D₃ ∧ IsDeviance .cstat exFit 0 4 D₄ ∧ D₃ < (D₂ + D₄) / 2 := by
  have mk : ∀ s : ℝ, 0 < s → ∃ D, IsDeviance .cstat exFit 0 s D := by
    intro s hs
    refine ⟨-2 * Real.log (poisLik 5 s / poisLik 5 5), ?_⟩
    have : 0 < poisLik 5 s / poisLik 5 5 := div_pos (poisLik_pos hs) (poisLik_pos (by norm_num))
    show Real.exp (-(-2 * Real.log (poisLik 5 s / poisLik 5 5)) / 2) = poisLik 5 s / poisLik 5 5
    rw [show -(-2 * Real.log (poisLik 5 s / poisLik 5 5)) / 2 = Real.log (poisLik 5 s / poisLik 5 5) by ring, Real.exp_log this]
  obtain ⟨D₂, h2⟩ := mk 2 (by norm_num)
  obtain ⟨D₃, h3⟩ := mk 3 (by norm_num)
  obtain ⟨D₄, h4⟩ := mk 4 (by norm_num)
  refine ⟨D₂, D₃, D₄, h2, h3, h4, C127_strict .cstat exFit (exFit_usable _) 0 (by simp [exFit, FitData.size]) (by simp [Informative, exFit, nth]) 2 4 D₂ D₄ D₃
    (by norm_num) (by norm_num [expected, exFit]) (by norm_num [expected, exFit]) h2 h4 (by norm_num; exact h3)⟩

end Elisa.Infer.Unique
