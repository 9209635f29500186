import Verif.Infer.ConvexProps
import Mathlib.Topology.Order.Compact
import Mathlib.Topology.ContinuousOn

/-!
# C130: the fit statistic is continuous and a best fit exists
-/

namespace Elisa.Infer.Exist

open Elisa Elisa.Infer Elisa.Grouping Topology

section Lemmas

variable {X : Type} [TopologicalSpace X]

theorem clip_continuous (lo hi : ℝ) : Continuous (clip lo hi) := by
  unfold clip
  exact (continuous_id.max continuous_const).min continuous_const

theorem clip_pos {lo hi : ℝ} (h1 : 0 < lo) (h2 : 0 < hi) (x : ℝ) : 0 < clip lo hi x :=
  lt_min (h1.trans_le (le_max_right _ _)) h2

theorem pois_continuous {n : ℝ} {f : X → ℝ} (hf : Continuous f) (h : n = 0 ∨ ∀ x, 0 < f x) :
    Continuous fun x => poissonLogProb n (f x) := by
  unfold poissonLogProb xlogy
  by_cases hn : n = 0
  · simp only [hn, if_true]
    exact (((continuous_const.sub hf).sub continuous_const).min continuous_const)
  · simp only [hn, if_false]
    have hpos := h.resolve_left hn
    exact ((((continuous_const.mul (hf.log fun x => (hpos x).ne')).sub hf).sub continuous_const).min continuous_const)

theorem normal_continuous {v σ : ℝ} {f : X → ℝ} (hf : Continuous f) : Continuous fun x => normalLogProb v (f x) σ := by
  unfold normalLogProb
  have : Continuous fun x => (v - f x) / σ := (continuous_const.sub hf).div_const σ
  exact (continuous_const.mul this).mul this

/-- The best background of the W statistic depends continuously on the source counts. -/
theorem wback_continuous {n m a : ℝ} (ha : 0 < a) : Continuous fun s => wstatBackground s n m a := by
  unfold wstatBackground
  by_cases hn : n = 0
  · simp only [hn, if_true]; exact continuous_const
  by_cases hm : m = 0
  · simp only [hn, hm, if_true, if_false]
    refine Continuous.if_le ?_ continuous_const continuous_id continuous_const ?_
    · exact continuous_const.sub (continuous_id.div_const a)
    · intro s hs
      rw [hs]
      field_simp
      ring
  · simp only [hn, hm, if_false]
    have hc : Continuous fun s : ℝ => a * (n + m) - (a + 1) * s := continuous_const.sub (continuous_const.mul continuous_id)
    exact ((hc.add (((hc.mul hc).add (continuous_const.mul continuous_id)).sqrt)).div_const _)

/-- The best background of the PG statistic depends continuously on positive source counts. -/
theorem pgback_continuous {n B σ a : ℝ} (hn : 0 ≤ n) (ha : 0 < a) {f : X → ℝ} (hf : Continuous f) (hpos : ∀ x, 0 < f x) :
    Continuous fun x => pgstatBackground (f x) n B σ a := by
  unfold pgstatBackground
  dsimp only
  generalize B - a * (σ * σ) = e
  have hF : Continuous fun x => a * (σ * σ) * n + e * f x := continuous_const.add (continuous_const.mul hf)
  have hc : Continuous fun x => a * e - f x := continuous_const.sub hf
  have hroot : Continuous fun x => (a * e - f x + Real.sqrt ((a * e - f x) * (a * e - f x) + 4 * a * (a * (σ * σ) * n + e * f x))) / (2 * a) :=
    ((hc.add (((hc.mul hc).add (continuous_const.mul hF)).sqrt)).div_const _)
  rcases hn.eq_or_lt with hn0 | hn0
  · by_cases h0 : 0 ≤ e
    · simp only [h0, true_or, if_true, ← hn0, lt_irrefl, if_false]
      exact continuous_const
    · have : ∀ x, ¬ (0 ≤ e ∨ 0 ≤ a * (σ * σ) * n + e * f x) := by
        intro x
        rw [← hn0]
        push Not at h0 ⊢
        refine ⟨h0, ?_⟩
        have := mul_neg_of_neg_of_pos h0 (hpos x)
        linarith
      simp only [this, if_false]
      exact continuous_const
  · simp only [hn0, if_true]
    by_cases h0 : 0 ≤ e
    · simp only [h0, true_or, if_true]
      exact hroot
    · simp only [h0, false_or]
      refine Continuous.if_le hroot continuous_const continuous_const hF ?_
      intro x hx
      rw [← hx]
      push Not at h0
      have hneg : a * e - f x ≤ 0 := by
        have := mul_neg_of_pos_of_neg ha h0
        linarith [hpos x]
      have hs : Real.sqrt ((a * e - f x) * (a * e - f x) + 4 * a * 0) = -(a * e - f x) := by
        rw [show (a * e - f x) * (a * e - f x) + 4 * a * 0 = (-(a * e - f x)) ^ 2 by ring]
        exact Real.sqrt_sq (by linarith)
      rw [hs]
      simp

theorem rate_continuous (d : FitData) {u : X → List ℝ} (hu : ∀ r < d.matrix.length, Continuous fun x => nth (u x) r) (j : ℕ) :
    Continuous fun x => d.sourceRate (u x) j := by
  unfold FitData.sourceRate
  refine Continuous.mul ?_ continuous_const
  refine continuous_list_sum (f := fun r x => nth (d.matrix.getD r []) j * clip (1e-300) (1e300) (nth (u x) r)) _ ?_
  intro r hr
  exact continuous_const.mul ((clip_continuous _ _).comp (hu r (List.mem_range.1 hr)))

theorem counts_continuous (d : FitData) {u : X → List ℝ} (hu : ∀ r < d.matrix.length, Continuous fun x => nth (u x) r) (j : ℕ) :
    Continuous fun x => d.sourceCounts (u x) j :=
  (clip_continuous _ _).comp ((rate_continuous d hu j).mul continuous_const)

theorem counts_pos (d : FitData) (u : List ℝ) (j : ℕ) : 0 < d.sourceCounts u j := clip_pos (by norm_num) (by norm_num) _

theorem nth_map_range (f : ℕ → ℝ) {n j : ℕ} (hj : j < n) : nth ((List.range n).map f) j = f j := by
  unfold nth
  rw [List.getD_eq_getElem?_getD, List.getElem?_map, List.getElem?_range hj]
  rfl

theorem list_sum (f : ℕ → X → ℝ) (n : ℕ) (hf : ∀ j < n, Continuous (f j)) : Continuous fun x => ((List.range n).map fun j => f j x).sum :=
  continuous_list_sum (f := f) _ fun j hj => hf j (List.mem_range.1 hj)

end Lemmas

/-- A data set with its statistic and the spectrum of its model, for every value `x` of the parameters. -/
structure Member (X : Type) where
  stat : Stat
  data : FitData
  flux : X → List ℝ

/-- The spectrum changes continuously with the parameters, bin by bin. -/
def Member.Steady {X : Type} [TopologicalSpace X] (m : Member X) : Prop :=
  ∀ r < m.data.matrix.length, Continuous fun x => nth (m.flux x) r

/-- The fit statistic as the code computes it at the value `x` of the parameters, if it can be computed. -/
noncomputable def statistic {X : Type} (ms : List (Member X)) (x : X) : Except PyErr ℝ :=
  (fitSites (ms.map fun m => (m.stat, m.data, m.flux x))).map fun sites => (deviance (getLoglike sites)).total

/-- One data set. -/
theorem member_continuous {X : Type} [TopologicalSpace X] (m : Member X) (hu : Usable m.stat m.data) (hs : m.Steady) :
    (∀ x, ∃ s, likelihood m.stat m.data (m.flux x) = .ok s) ∧ Continuous fun x => devOf (m.stat, m.data, m.flux x) := by
  obtain ⟨stat, d, u⟩ := m
  simp only at hu
  have hc : ∀ j, Continuous fun x => d.sourceCounts (u x) j := counts_continuous d hs
  have hr : ∀ j, Continuous fun x => d.sourceRate (u x) j := rate_continuous d hs
  have hp := counts_pos d
  cases stat with
  | chi2 =>
    refine ⟨fun x => ⟨_, rfl⟩, ?_⟩
    simp only [devOf, likelihood]
    refine continuous_const.mul (list_sum _ _ ?_)
    intro j hj
    simp only [nth_map_range _ hj]
    exact normal_continuous (hc j)
  | cstat =>
    refine ⟨fun x => ⟨_, rfl⟩, ?_⟩
    simp only [devOf, likelihood]
    refine continuous_const.mul (list_sum _ _ ?_)
    intro j hj
    simp only [nth_map_range _ hj]
    exact pois_continuous (hc j) (Or.inr fun x => hp _ j)
  | pstat =>
    cases hb : d.back with
    | none => simp [Usable, hb] at hu
    | some b =>
      refine ⟨fun x => ?_, ?_⟩
      · simp only [likelihood, hb]; exact ⟨_, rfl⟩
      simp only [devOf, likelihood, hb]
      refine continuous_const.mul (list_sum _ _ ?_)
      intro j hj
      simp only [nth_map_range _ hj]
      refine pois_continuous ((clip_continuous _ _).comp (((hr j).mul continuous_const).add continuous_const)) (Or.inr fun x => ?_)
      exact clip_pos (by norm_num) (by norm_num) _
  | pgstat =>
    cases hb : d.back with
    | none => simp [Usable, hb] at hu
    | some b =>
      refine ⟨fun x => ?_, ?_⟩
      · simp only [likelihood, hb]; exact ⟨_, rfl⟩
      simp only [Usable, hb] at hu
      simp only [devOf, likelihood, hb]
      refine continuous_const.mul (list_sum _ _ ?_)
      intro j hj
      obtain ⟨hn, hσ, ha⟩ := hu j hj
      simp only [nth_map_range _ hj]
      have hbc : Continuous fun x => pgstatBackground (d.sourceCounts (u x) j) (nth d.specCounts j) (nth b.counts j) (nth b.errors j) (nth b.ratio j) :=
        pgback_continuous hn ha (hc j) fun x => hp _ j
      refine (pois_continuous ((hc j).add (continuous_const.mul hbc)) (Or.inr fun x => ?_)).add (normal_continuous hbc)
      have := (pgstatBackground_facts (B := nth b.counts j) (hp (u x) j) hn hσ ha).1
      exact add_pos_of_pos_of_nonneg (hp (u x) j) (mul_nonneg ha.le this)
  | wstat =>
    cases hb : d.back with
    | none => simp [Usable, hb] at hu
    | some b =>
      refine ⟨fun x => ?_, ?_⟩
      · simp only [likelihood, hb]; exact ⟨_, rfl⟩
      simp only [Usable, hb] at hu
      simp only [devOf, likelihood, hb]
      refine continuous_const.mul (list_sum _ _ ?_)
      intro j hj
      obtain ⟨hn, hm, ha⟩ := hu j hj
      simp only [nth_map_range _ hj]
      have hbc : Continuous fun x => wstatBackground (d.sourceCounts (u x) j) (nth d.specCounts j) (nth b.counts j) (nth b.ratio j) :=
        (wback_continuous ha).comp (hc j)
      have hfacts := fun x => wstatBackground_facts (hp (u x) j).le hn hm ha
      refine (pois_continuous ((hc j).add (continuous_const.mul hbc)) (Or.inr fun x => ?_)).add (pois_continuous hbc ?_)
      · exact add_pos_of_pos_of_nonneg (hp (u x) j) (mul_nonneg ha.le (hfacts x).1)
      · by_cases hm0 : nth b.counts j = 0
        · exact Or.inl hm0
        · exact Or.inr fun x => (hfacts x).2.2.1.resolve_right hm0

/-- **C130 (continuity).**  For usable data, the statistic of the fit can be computed for all values of the parameters, whatever the spectra
are (also where fluxes or counts are clipped, and where the best background changes its formula), and if the spectra of the models change
continuously with the parameters, so does the statistic: it has no jumps. -/
theorem C130_continuous {X : Type} [TopologicalSpace X] (ms : List (Member X)) (hu : ∀ m ∈ ms, Usable m.stat m.data) (hs : ∀ m ∈ ms, m.Steady) :
    ∃ f : X → ℝ, Continuous f ∧ ∀ x, statistic ms x = .ok (f x) := by
  refine ⟨fun x => (ms.map fun m => devOf (m.stat, m.data, m.flux x)).sum, ?_, ?_⟩
  · exact continuous_list_sum (f := fun (m : Member X) x => devOf (m.stat, m.data, m.flux x)) _ fun m hm => (member_continuous m (hu m hm) (hs m hm)).2
  · intro x
    have : ∃ sites, fitSites (ms.map fun m => (m.stat, m.data, m.flux x)) = .ok sites := by
      clear hs
      induction ms with
      | nil => exact ⟨[], rfl⟩
      | cons m ms ih =>
        obtain ⟨ss, h2⟩ := ih fun m hm => hu m (List.mem_cons_of_mem _ hm)
        have h1 : ∃ s, likelihood m.stat m.data (m.flux x) = .ok s := by
          have := hu m List.mem_cons_self
          obtain ⟨stat, d, u⟩ := m
          cases stat <;> cases hb : d.back <;> simp only [Usable, hb] at this <;> simp only [likelihood, hb] <;> exact ⟨_, rfl⟩
        obtain ⟨s, h1⟩ := h1
        refine ⟨s :: ss, ?_⟩
        unfold fitSites at *
        rw [List.map_cons, List.mapM_cons]
        simp only [h1, h2]
        rfl
    obtain ⟨sites, hsites⟩ := this
    unfold statistic
    rw [hsites]
    simp only [Except.map]
    rw [fitSites_total _ _ hsites, List.map_map]
    rfl

/-- **C130 (a best fit exists).**  Let every parameter range over a closed interval, or more generally the parameters over a compact set.  Then
some value of the parameters has the smallest statistic; and for every confidence level the values of the parameters whose statistic exceeds
the smallest one by at most `Δ` form a compact set which holds the best fit, so that the extreme values of any parameter in it are reached. -/
theorem C130_best_fit {X : Type} [TopologicalSpace X] (ms : List (Member X)) (hu : ∀ m ∈ ms, Usable m.stat m.data) (hs : ∀ m ∈ ms, m.Steady)
    (S : Set X) (hS : IsCompact S) (hne : S.Nonempty) (Δ : ℝ) (hΔ : 0 ≤ Δ) (g : X → ℝ) (hg : Continuous g) :
    ∃ best ∈ S, ∃ v, statistic ms best = .ok v ∧ (∀ x ∈ S, ∀ w, statistic ms x = .ok w → v ≤ w) ∧
      ∃ lo ∈ S, ∃ hi ∈ S, (∃ w, statistic ms lo = .ok w ∧ w ≤ v + Δ) ∧ (∃ w, statistic ms hi = .ok w ∧ w ≤ v + Δ) ∧
        g lo ≤ g best ∧ g best ≤ g hi ∧
        ∀ x ∈ S, ∀ w, statistic ms x = .ok w → w ≤ v + Δ → g lo ≤ g x ∧ g x ≤ g hi := by
  obtain ⟨f, hf, he⟩ := C130_continuous ms hu hs
  obtain ⟨best, hb, hmin⟩ := hS.exists_isMinOn hne hf.continuousOn
  have hT : IsCompact (S ∩ {x | f x ≤ f best + Δ}) := hS.inter_right (isClosed_le hf continuous_const)
  have hbT : best ∈ S ∩ {x | f x ≤ f best + Δ} := ⟨hb, by simpa using hΔ⟩
  obtain ⟨lo, hlo, hlo'⟩ := hT.exists_isMinOn ⟨best, hbT⟩ hg.continuousOn
  obtain ⟨hi, hhi, hhi'⟩ := hT.exists_isMaxOn ⟨best, hbT⟩ hg.continuousOn
  refine ⟨best, hb, f best, he best, ?_, lo, hlo.1, hi, hhi.1, ⟨f lo, he lo, hlo.2⟩, ⟨f hi, he hi, hhi.2⟩, hlo' hbT, hhi' hbT, ?_⟩
  · intro x hx w hw
    rw [he x] at hw
    rw [← Except.ok.inj hw]
    exact hmin hx
  · intro x hx w hw hle
    rw [he x] at hw
    rw [← Except.ok.inj hw] at hle
    exact ⟨hlo' ⟨hx, hle⟩, hhi' ⟨hx, hle⟩⟩

/-- One channel with 5 counts, and a model that is a constant `x`. -/
noncomputable def constantModel (stat : Stat) : Member ℝ := ⟨stat, exFit, fun x => [x]⟩

set_option exponentiation.threshold 400 in
theorem constant_range (stat : Stat) {x : ℝ} (h1 : 1 ≤ x) (h2 : x ≤ 2) : InRange stat exFit [x] (exFit.folded [x]) := by
  refine ⟨fun r hr => ?_, fun j hj => ?_⟩
  · have : r = 0 := by simp [exFit] at hr; exact hr
    subst this
    constructor <;> norm_num [nth] <;> linarith
  have hj0 : j = 0 := by simp [exFit, FitData.size] at hj; exact hj
  subst hj0
  have hf : exFit.folded [x] 0 = x := by simp [FitData.folded, exFit, nth]
  rw [hf]
  refine ⟨rfl, ?_, ?_⟩ <;> cases stat <;> norm_num [expected, exFit, nth] <;> linarith

/-- **C130 (a bound that is never reached).**  The fit samples a bounded parameter in an unconstrained space, which covers the open interval
between the bounds only.  If the data favour a value beyond a bound, there is no best fit: every value has a better one.  The witness is a
channel with 5 counts and a constant model between 1 and 2, for all five statistics. -/
theorem C130_open_bounds (stat : Stat) :
    ¬ ∃ x ∈ Set.Ioo (1 : ℝ) 2, ∃ v, statistic [constantModel stat] x = .ok v ∧
      ∀ y ∈ Set.Ioo (1 : ℝ) 2, ∀ w, statistic [constantModel stat] y = .ok w → v ≤ w := by
  rintro ⟨x, ⟨hx1, hx2⟩, v, hv, hmin⟩
  have hval : ∀ y : ℝ, 1 ≤ y → y ≤ 2 → ∃ D, statistic [constantModel stat] y = .ok D ∧ IsDeviance stat exFit 0 y D := by
    intro y h1 h2
    obtain ⟨sites, e1, e2, e3⟩ := C25_channel_deviance stat exFit [y] _ (exFit_usable stat) (constant_range stat h1 h2)
    obtain ⟨D, e4, -, e5⟩ := e3 0 (by simp [exFit, FitData.size])
    have hf : exFit.folded [y] 0 = y := by simp [FitData.folded, exFit, nth]
    rw [hf] at e5
    refine ⟨D, ?_, e5⟩
    have hlen : sites.loglike.length = 1 := by simpa [exFit, FitData.size] using e2
    obtain ⟨l, hl⟩ := List.length_eq_one_iff.1 hlen
    have hsites : fitSites ([constantModel stat].map fun m => (m.stat, m.data, m.flux y)) = .ok [sites] := by
      simp [fitSites, constantModel, e1, List.mapM_cons, bind, Except.bind, pure, Except.pure]
    unfold statistic
    rw [hsites]
    rw [hl] at e4
    simp only [Except.map, deviance, getLoglike, List.map_cons, List.map_nil, List.flatten_cons, List.flatten_nil, List.append_nil, hl,
      List.sum_cons, List.sum_nil, add_zero]
    rw [← e4]
    rfl
  obtain ⟨D₂, a1, a2⟩ := hval x hx1.le hx2.le
  obtain ⟨D₁, b1, b2⟩ := hval ((x + 2) / 2) (by linarith) (by linarith)
  have hbest : 2 ≤ bestCounts stat exFit 0 := by cases stat <;> norm_num [bestCounts, exFit, nth]
  have hexp : ∀ y : ℝ, 1 ≤ y → 0 ≤ expected stat exFit 0 y := by
    intro y hy
    cases stat <;> norm_num [expected, exFit, nth] <;> linarith
  have hlt : D₁ < D₂ := C119_single_minimum stat exFit (exFit_usable stat) 0 (by simp [exFit, FitData.size]) ((x + 2) / 2) x D₁ D₂
    (hexp x hx1.le) (hexp _ (by linarith)) (Or.inr ⟨by linarith, by linarith⟩) b2 a2
  have := hmin ((x + 2) / 2) ⟨by linarith, by linarith⟩ D₁ b1
  rw [a1] at hv
  rw [← Except.ok.inj hv] at this
  linarith

/-- The hypotheses of `C130_best_fit` are met: five data sets, one for each statistic, with a constant model between 1 and 2. -/
example : ∃ best ∈ Set.Icc (1 : ℝ) 2, ∃ v, statistic ([Stat.chi2, .cstat, .pstat, .pgstat, .wstat].map constantModel) best = .ok v ∧
    ∀ x ∈ Set.Icc (1 : ℝ) 2, ∀ w, statistic ([Stat.chi2, .cstat, .pstat, .pgstat, .wstat].map constantModel) x = .ok w → v ≤ w := by
  obtain ⟨best, h1, v, h2, h3, -⟩ := C130_best_fit ([Stat.chi2, .cstat, .pstat, .pgstat, .wstat].map constantModel)
    (by
      intro m hm
      obtain ⟨s, -, rfl⟩ := List.mem_map.1 hm
      exact exFit_usable s)
    (by
      intro m hm
      obtain ⟨s, -, rfl⟩ := List.mem_map.1 hm
      intro r hr
      have : r = 0 := by simp [constantModel, exFit] at hr; exact hr
      subst this
      exact continuous_id)
    (Set.Icc (1 : ℝ) 2) isCompact_Icc ⟨1, by norm_num⟩ 1 (by norm_num) id continuous_id
  exact ⟨best, h1, v, h2, h3⟩

end Elisa.Infer.Exist
