import Verif.Infer.Posterior
import Verif.Infer.ExistProps
import Mathlib.MeasureTheory.Integral.Bochner.Basic
import Mathlib.MeasureTheory.Constructions.BorelSpace.Order
import Mathlib.Analysis.SpecialFunctions.Integrals.Basic
import Mathlib.Analysis.Complex.ExponentialBounds

/-!
# C135: what a Bayesian fit samples is prior times likelihood
-/

namespace Elisa.Infer.Bayes

open Elisa Elisa.Infer Elisa.Infer.Exist MeasureTheory

/-! ## Specification -/

/-- The density of the default prior: uniform between the bounds, or uniform in the logarithm. -/
noncomputable def FreeParam.density (p : FreeParam) (x : ℝ) : ℝ :=
  if p.log then 1 / (x * Real.log (p.hi / p.lo)) else 1 / (p.hi - p.lo)

/-- The bounds of a parameter, as `UniformParameter` checks them. -/
structure FreeParam.Valid (p : FreeParam) : Prop where
  order : p.lo < p.hi
  pos : p.log = true → 0 < p.lo

/-- All free parameters lie within their bounds. -/
def Inside (ps : List FreeParam) (x : String → ℝ) : Prop := ∀ p ∈ ps, p.lo ≤ x p.name ∧ x p.name ≤ p.hi

/-- What the members of the fit give for the values `x` of the parameters. -/
def runOf {X : Type} (ms : List (Member X)) (x : X) : List (Stat × FitData × List ℝ) := ms.map fun m => (m.stat, m.data, m.flux x)

/-! ## Lemmas -/

theorem poissonLogProb_nonpos (n μ : ℝ) : poissonLogProb n μ ≤ 0 := min_le_right _ _

theorem normalLogProb_nonpos (v μ σ : ℝ) : normalLogProb v μ σ ≤ 0 := by
  unfold normalLogProb
  have := mul_self_nonneg ((v - μ) / σ)
  dsimp only
  nlinarith

theorem sum_map_nonpos {A : Type} (f : A → ℝ) (l : List A) (h : ∀ a ∈ l, f a ≤ 0) : (l.map f).sum ≤ 0 := by
  induction l with
  | nil => simp
  | cons a l ih =>
    simp only [List.map_cons, List.sum_cons]
    have := h a List.mem_cons_self
    have := ih fun b hb => h b (List.mem_cons_of_mem _ hb)
    linarith

theorem sum_map_add' {A : Type} (f g : A → ℝ) (l : List A) : (l.map fun a => f a + g a).sum = (l.map f).sum + (l.map g).sum := by
  induction l with
  | nil => simp
  | cons a l ih => simp only [List.map_cons, List.sum_cons, ih]; ring

theorem range_pair (n : ℕ) (f g : ℕ → ℝ) :
    ((List.range n).map fun j => nth ((List.range n).map f) j + nth ((List.range n).map g) j).sum
      = ((List.range n).map f).sum + ((List.range n).map g).sum := by
  rw [← sum_map_add']
  congr 1
  refine List.map_congr_left fun j hj => ?_
  rw [nth_map (List.mem_range.1 hj), nth_map (List.mem_range.1 hj)]

/-- The sites of a data set add up to what is recorded as its log likelihood, which is never positive. -/
theorem site_sum (stat : Stat) (d : FitData) (u : List ℝ) (s : Sites) (h : likelihood stat d u = .ok s) :
    siteLogProb s = s.loglike.sum ∧ s.loglike.sum ≤ 0 := by
  cases stat <;> cases hb : d.back <;> simp only [likelihood, hb] at h <;>
    first
    | (cases h; done)
    | (have e := (Except.ok.inj h).symm
       subst e
       simp only [siteLogProb, add_zero, true_and, range_pair]
       first
       | exact sum_map_nonpos _ _ fun j _ => normalLogProb_nonpos _ _ _
       | exact sum_map_nonpos _ _ fun j _ => poissonLogProb_nonpos _ _
       | exact add_nonpos (sum_map_nonpos _ _ fun j _ => poissonLogProb_nonpos _ _) (sum_map_nonpos _ _ fun j _ => normalLogProb_nonpos _ _ _)
       | exact add_nonpos (sum_map_nonpos _ _ fun j _ => poissonLogProb_nonpos _ _) (sum_map_nonpos _ _ fun j _ => poissonLogProb_nonpos _ _))

theorem sites_sum (ds : List (Stat × FitData × List ℝ)) : ∀ sites, fitSites ds = .ok sites →
    (sites.map siteLogProb).sum = -(deviance (getLoglike sites)).total / 2 ∧ 0 ≤ (deviance (getLoglike sites)).total := by
  suffices H : ∀ sites, fitSites ds = .ok sites → (sites.map siteLogProb).sum = ((sites.map (·.loglike)).flatten).sum ∧
      ((sites.map (·.loglike)).flatten).sum ≤ 0 by
    intro sites h
    obtain ⟨h1, h2⟩ := H sites h
    simp only [deviance, getLoglike]
    rw [h1]
    constructor
    · ring
    · linarith
  induction ds with
  | nil =>
    intro sites h
    obtain rfl : [] = sites := Except.ok.inj h
    simp
  | cons x ds ih =>
    intro sites h
    unfold fitSites at h ih
    rw [List.mapM_cons] at h
    cases h1 : likelihood x.1 x.2.1 x.2.2 with
    | error e => rw [h1] at h; cases h
    | ok s =>
      rw [h1] at h
      cases h2 : ds.mapM fun x => likelihood x.1 x.2.1 x.2.2 with
      | error e => rw [h2] at h; cases h
      | ok ss =>
        rw [h2] at h
        have e := (Except.ok.inj h).symm
        subst e
        obtain ⟨k1, k2⟩ := ih ss h2
        obtain ⟨k3, k4⟩ := site_sum _ _ _ s h1
        simp only [List.map_cons, List.sum_cons, List.flatten_cons, List.sum_append]
        rw [k1, k3]
        exact ⟨rfl, add_nonpos k4 k2⟩

theorem statistic_nonneg {X : Type} (ms : List (Member X)) (x : X) (D : ℝ) (h : statistic ms x = .ok D) : 0 ≤ D := by
  unfold statistic at h
  cases hs : fitSites (ms.map fun m => (m.stat, m.data, m.flux x)) with
  | error e => rw [hs] at h; cases h
  | ok sites =>
    rw [hs] at h
    have e : (deviance (getLoglike sites)).total = D := Except.ok.inj h
    rw [← e]
    exact (sites_sum _ _ hs).2

theorem logProb_density (p : FreeParam) (hp : p.Valid) (x : ℝ) (h1 : p.lo ≤ x) : Real.exp (p.logProb x) = p.density x := by
  unfold FreeParam.logProb FreeParam.density
  cases hl : p.log with
  | false =>
    simp only [Bool.false_eq_true, if_false]
    rw [Real.exp_neg, Real.exp_log (sub_pos.2 hp.order), one_div]
  | true =>
    simp only [if_true]
    have h0 := hp.pos hl
    have hx : 0 < x := h0.trans_le h1
    have hd : 0 < Real.log p.hi - Real.log p.lo := sub_pos.2 (Real.log_lt_log h0 hp.order)
    rw [Real.log_div (h0.trans hp.order).ne' h0.ne', Real.exp_sub, Real.exp_neg, Real.exp_log hd, Real.exp_log hx]
    field_simp

theorem density_pos (p : FreeParam) (hp : p.Valid) (x : ℝ) (h1 : p.lo ≤ x) : 0 < p.density x := by
  rw [← logProb_density p hp x h1]; exact Real.exp_pos _

theorem exp_sum {A : Type} (f : A → ℝ) (l : List A) : Real.exp (l.map f).sum = (l.map fun a => Real.exp (f a)).prod := by
  induction l with
  | nil => simp
  | cons a l ih => simp only [List.map_cons, List.sum_cons, List.prod_cons, Real.exp_add, ih]

/-! ## C135 -/

/-- **C135** (prior).  The default prior is a probability density on the interval between the bounds. -/
theorem C135_prior (p : FreeParam) (hp : p.Valid) :
    (∀ x ∈ Set.Icc p.lo p.hi, 0 < p.density x) ∧ ∫ x in p.lo..p.hi, p.density x = 1 := by
  refine ⟨fun x hx => density_pos p hp x hx.1, ?_⟩
  unfold FreeParam.density
  cases hl : p.log with
  | false =>
    simp only [Bool.false_eq_true, if_false, intervalIntegral.integral_const, smul_eq_mul]
    exact mul_one_div_cancel (sub_pos.2 hp.order).ne'
  | true =>
    have h0 := hp.pos hl
    have h1 := h0.trans hp.order
    have hd : 0 < Real.log (p.hi / p.lo) := Real.log_pos ((one_lt_div h0).2 hp.order)
    simp only [if_true]
    have : (fun x : ℝ => 1 / (x * Real.log (p.hi / p.lo))) = fun x => (1 / Real.log (p.hi / p.lo)) * (1 / x) := by
      funext x; rw [one_div_mul_one_div, mul_comm]
    rw [this, intervalIntegral.integral_const_mul, integral_one_div_of_pos h0 h1]
    exact one_div_mul_cancel hd.ne'

/-- **C135** (posterior).  What a Bayesian fit samples is the product of the priors of the free parameters, each counted once, and
of the likelihood whose logarithm is minus half the statistic that a maximum-likelihood fit of the same data minimises -
for every statistic, also those that profile a background, and for any number of data sets. -/
theorem C135_posterior (ps : List FreeParam) (hv : ∀ p ∈ ps, p.Valid) (ms : List (Member (String → ℝ))) (x : String → ℝ)
    (hx : Inside ps x) (D : ℝ) (hD : statistic ms x = .ok D) :
    ∃ l, logDensity ps (runOf ms) x = .ok l ∧ Real.exp l = (ps.map fun p => p.density (x p.name)).prod * Real.exp (-D / 2) := by
  unfold statistic at hD
  unfold logDensity runOf
  cases hs : fitSites (ms.map fun m => (m.stat, m.data, m.flux x)) with
  | error e => rw [hs] at hD; cases hD
  | ok sites =>
    rw [hs] at hD
    have e : (deviance (getLoglike sites)).total = D := Except.ok.inj hD
    refine ⟨_, rfl, ?_⟩
    rw [Real.exp_add, (sites_sum _ _ hs).1, e, exp_sum]
    congr 2
    exact List.map_congr_left fun p hp => logProb_density p (hv p hp) _ (hx p hp).1

/-- **C135** (flat priors).  With uniform priors, one set of values is at least as probable as another exactly when its statistic is
not larger: the most probable values are the best-fit values. -/
theorem C135_flat (ps : List FreeParam) (hv : ∀ p ∈ ps, p.Valid) (hlin : ∀ p ∈ ps, p.log = false)
    (ms : List (Member (String → ℝ))) (x y : String → ℝ) (hx : Inside ps x) (hy : Inside ps y) (Dx Dy lx ly : ℝ)
    (hDx : statistic ms x = .ok Dx) (hDy : statistic ms y = .ok Dy) (hlx : logDensity ps (runOf ms) x = .ok lx)
    (hly : logDensity ps (runOf ms) y = .ok ly) : lx ≤ ly ↔ Dy ≤ Dx := by
  obtain ⟨l1, e1, k1⟩ := C135_posterior ps hv ms x hx Dx hDx
  obtain ⟨l2, e2, k2⟩ := C135_posterior ps hv ms y hy Dy hDy
  obtain rfl : l1 = lx := Except.ok.inj (e1.symm.trans hlx)
  obtain rfl : l2 = ly := Except.ok.inj (e2.symm.trans hly)
  have hsame : (ps.map fun p => p.density (x p.name)) = ps.map fun p => p.density (y p.name) := by
    refine List.map_congr_left fun p hp => ?_
    simp only [FreeParam.density, hlin p hp, Bool.false_eq_true, if_false]
  have hpos : 0 < (ps.map fun p => p.density (y p.name)).prod := by
    apply List.prod_pos
    intro a ha
    obtain ⟨p, hp, rfl⟩ := List.mem_map.1 ha
    exact density_pos p (hv p hp) _ (hy p hp).1
  rw [← Real.exp_le_exp, k1, k2, hsame, mul_le_mul_iff_right₀ hpos, Real.exp_le_exp]
  constructor <;> intro h <;> linarith

/-- **C135** (logarithmic priors).  With any mixture of uniform and log-uniform priors, the posterior density of the parameters in their
own scale - the logarithm of those with a log-uniform prior - is a constant times the likelihood: on that scale the most
probable values are the best-fit values. -/
theorem C135_own_scale (ps : List FreeParam) (hv : ∀ p ∈ ps, p.Valid) (ms : List (Member (String → ℝ))) :
    ∃ c : ℝ, 0 < c ∧ ∀ (x : String → ℝ) (D l : ℝ), Inside ps x → statistic ms x = .ok D → logDensity ps (runOf ms) x = .ok l →
      Real.exp l * (ps.map fun p => if p.log then x p.name else 1).prod = c * Real.exp (-D / 2) := by
  refine ⟨(ps.map fun p => if p.log then 1 / Real.log (p.hi / p.lo) else 1 / (p.hi - p.lo)).prod, ?_, ?_⟩
  · apply List.prod_pos
    intro a ha
    obtain ⟨p, hp, rfl⟩ := List.mem_map.1 ha
    cases hl : p.log with
    | false =>
      simp only [Bool.false_eq_true, if_false]
      exact one_div_pos.2 (sub_pos.2 (hv p hp).order)
    | true =>
      simp only [if_true]
      exact one_div_pos.2 (Real.log_pos ((one_lt_div ((hv p hp).pos hl)).2 (hv p hp).order))
  · intro x D l hx hD hl
    obtain ⟨l1, e1, k1⟩ := C135_posterior ps hv ms x hx D hD
    obtain rfl : l1 = l := Except.ok.inj (e1.symm.trans hl)
    rw [k1, mul_right_comm]
    congr 1
    clear hl e1 k1 hD
    induction ps with
    | nil => simp
    | cons p ps ih =>
      simp only [List.map_cons, List.prod_cons]
      have h1 := ih (fun q hq => hv q (List.mem_cons_of_mem _ hq)) (fun q hq => hx q (List.mem_cons_of_mem _ hq))
      rw [← h1, mul_mul_mul_comm]
      congr 1
      unfold FreeParam.density
      cases hlog : p.log with
      | false => simp
      | true =>
        simp only [if_true]
        have : x p.name ≠ 0 := (((hv p List.mem_cons_self).pos hlog).trans_le (hx p List.mem_cons_self).1).ne'
        by_cases h0 : Real.log (p.hi / p.lo) = 0
        · simp [h0]
        · field_simp

/-- **C135** (evidence).  Whatever the priors, as a probability measure on the parameters: the evidence - the likelihood averaged over
the prior - is positive, at most 1 and at most the largest likelihood, so the posterior can always be normalised; and further
data sets never increase it. -/
theorem C135_evidence {X : Type} [TopologicalSpace X] [MeasurableSpace X] [OpensMeasurableSpace X] (μ : Measure X)
    [IsProbabilityMeasure μ] (ms : List (Member X)) (hu : ∀ m ∈ ms, Usable m.stat m.data) (hs : ∀ m ∈ ms, m.Steady) :
    ∃ f : X → ℝ, (∀ x, statistic ms x = .ok (f x)) ∧ Integrable (fun x => Real.exp (-f x / 2)) μ ∧
      0 < ∫ x, Real.exp (-f x / 2) ∂μ ∧ (∫ x, Real.exp (-f x / 2) ∂μ) ≤ 1 ∧
      (∀ best, (∀ x, f best ≤ f x) → (∫ x, Real.exp (-f x / 2) ∂μ) ≤ Real.exp (-f best / 2)) ∧
      ∀ (m : Member X) (g : X → ℝ), Usable m.stat m.data → m.Steady → (∀ x, statistic (m :: ms) x = .ok (g x)) →
        (∫ x, Real.exp (-g x / 2) ∂μ) ≤ ∫ x, Real.exp (-f x / 2) ∂μ := by
  have main : ∀ ms : List (Member X), (∀ m ∈ ms, Usable m.stat m.data) → (∀ m ∈ ms, m.Steady) →
      ∃ f : X → ℝ, (∀ x, statistic ms x = .ok (f x)) ∧ Integrable (fun x => Real.exp (-f x / 2)) μ := by
    intro ms hu hs
    obtain ⟨f, hf, he⟩ := C130_continuous ms hu hs
    refine ⟨f, he, ?_⟩
    have hm : Measurable fun x => Real.exp (-f x / 2) := (Real.continuous_exp.comp ((hf.neg).div_const 2)).measurable
    refine Integrable.mono' (integrable_const (1 : ℝ)) hm.aestronglyMeasurable (Filter.Eventually.of_forall fun x => ?_)
    rw [Real.norm_eq_abs, abs_of_pos (Real.exp_pos _)]
    have := statistic_nonneg ms x _ (he x)
    exact Real.exp_le_one_iff.2 (by linarith)
  obtain ⟨f, he, hi⟩ := main ms hu hs
  refine ⟨f, he, hi, ?_, ?_, ?_, ?_⟩
  · exact integral_exp_pos hi
  · calc ∫ x, Real.exp (-f x / 2) ∂μ ≤ ∫ _, (1 : ℝ) ∂μ := by
          refine integral_mono hi (integrable_const _) fun x => ?_
          have := statistic_nonneg ms x _ (he x)
          exact Real.exp_le_one_iff.2 (by linarith)
      _ = 1 := by simp
  · intro best hbest
    calc ∫ x, Real.exp (-f x / 2) ∂μ ≤ ∫ _, Real.exp (-f best / 2) ∂μ := by
          refine integral_mono hi (integrable_const _) fun x => ?_
          have := hbest x
          exact Real.exp_le_exp.2 (by linarith)
      _ = Real.exp (-f best / 2) := by simp
  · intro m g hum hsm hg
    obtain ⟨g', hg', hi'⟩ := main (m :: ms) (by simpa using ⟨hum, hu⟩) (by simpa using ⟨hsm, hs⟩)
    obtain rfl : g' = g := funext fun x => Except.ok.inj ((hg' x).symm.trans (hg x))
    refine integral_mono hi' hi fun x => ?_
    have h2 : f x ≤ g' x := by
      have e1 := hg x
      have e2 := he x
      unfold statistic at e1 e2
      cases hs : fitSites (ms.map fun m => (m.stat, m.data, m.flux x)) with
      | error e => rw [hs] at e2; cases e2
      | ok sites =>
        rw [hs] at e2
        cases h1 : likelihood m.stat m.data (m.flux x) with
        | error e =>
          unfold fitSites at e1
          rw [List.map_cons, List.mapM_cons] at e1
          simp only [h1] at e1
          cases e1
        | ok s =>
          have hall : fitSites ((m :: ms).map fun m => (m.stat, m.data, m.flux x)) = .ok (s :: sites) := by
            unfold fitSites at hs ⊢
            rw [List.map_cons, List.mapM_cons]
            simp only [h1, hs]
            rfl
          rw [hall] at e1
          have k1 : (deviance (getLoglike (s :: sites))).total = g' x := Except.ok.inj e1
          have k2 : (deviance (getLoglike sites)).total = f x := Except.ok.inj e2
          rw [← k1, ← k2]
          have := (site_sum _ _ _ s h1).2
          simp only [deviance, getLoglike, List.map_cons, List.flatten_cons, List.sum_append]
          linarith
    exact Real.exp_le_exp.2 (by linarith)

/-! ## The most probable values need not be the best-fit values -/

/-- The parameter `K` with a log-uniform prior. -/
noncomputable def logK : FreeParam := ⟨"K", true, 1 / 10, 100⟩

theorem logK_valid : logK.Valid := ⟨by norm_num [logK], fun _ => by norm_num [logK]⟩

/-- Five counts, and `K` expected. -/
noncomputable def counting : Member (String → ℝ) := ⟨.cstat, exFit, fun x => [x "K"]⟩

set_option exponentiation.threshold 400 in
theorem counting_stat (x : String → ℝ) (h1 : 1 ≤ x "K") (h2 : x "K" ≤ 10) :
    ∃ D, statistic [counting] x = .ok D ∧ Real.exp (-D / 2) = poisLik 5 (x "K") / poisLik 5 5 := by
  have hr : InRange .cstat exFit [x "K"] (exFit.folded [x "K"]) := by
    have hf : exFit.folded [x "K"] 0 = x "K" := by simp [FitData.folded, exFit, nth]
    refine ⟨fun r hr => ?_, fun j hj => ?_⟩
    · have : r = 0 := by simp [exFit] at hr; exact hr
      subst this
      simp only [nth, List.getD_cons_zero]
      constructor
      · exact le_trans (by norm_num) h1
      · exact le_trans h2 (by norm_num)
    · have : j = 0 := by simp [exFit, FitData.size] at hj; exact hj
      subst this
      rw [hf]
      refine ⟨rfl, ?_, ?_⟩ <;> norm_num [expected] <;> linarith
  obtain ⟨sites, e1, e2, e3⟩ := C25_channel_deviance .cstat exFit [x "K"] _ (exFit_usable .cstat) hr
  obtain ⟨D, e4, -, e5⟩ := e3 0 (by simp [exFit, FitData.size])
  have hf : exFit.folded [x "K"] 0 = x "K" := by simp [FitData.folded, exFit, nth]
  rw [hf] at e5
  have hlen : sites.loglike.length = 1 := by simpa [exFit, FitData.size] using e2
  obtain ⟨l, hl⟩ := List.length_eq_one_iff.1 hlen
  have hsites : fitSites ([counting].map fun m => (m.stat, m.data, m.flux x)) = .ok [sites] := by
    simp [fitSites, counting, e1, List.mapM_cons, bind, Except.bind, pure, Except.pure]
  refine ⟨(deviance (getLoglike [sites])).total, ?_, ?_⟩
  · unfold statistic
    rw [hsites]
    rfl
  · have e6 : (deviance (getLoglike [sites])).total = D := by
      rw [hl] at e4
      simp only [deviance, getLoglike, List.map_cons, List.map_nil, List.flatten_cons, List.flatten_nil, List.append_nil, hl, List.sum_cons, List.sum_nil, add_zero]
      simpa [nth] using e4
    rw [e6]
    simpa [IsDeviance, exFit, nth] using e5

/-- **C135** (refuted: log-uniform priors).  With the default log-uniform prior of a parameter the most probable value of the parameter is
not its best-fit value: for five counts the best-fit value is 5, and 4 is more probable. -/
theorem C135_mode_refuted : ∃ (x y : String → ℝ) (Dx Dy lx ly : ℝ), Inside [logK] x ∧ Inside [logK] y ∧
    statistic [counting] x = .ok Dx ∧ statistic [counting] y = .ok Dy ∧ Dx < Dy ∧
    logDensity [logK] (runOf [counting]) x = .ok lx ∧ logDensity [logK] (runOf [counting]) y = .ok ly ∧ lx < ly := by
  have hin : ∀ v : ℝ, 1 ≤ v → v ≤ 10 → Inside [logK] fun _ => v := by
    intro v h1 h2 p hp
    rw [List.mem_singleton.1 hp]
    exact ⟨by norm_num [logK]; linarith, by norm_num [logK]; linarith⟩
  obtain ⟨Dx, e1, k1⟩ := counting_stat (fun _ => 5) (by norm_num) (by norm_num)
  obtain ⟨Dy, e2, k2⟩ := counting_stat (fun _ => 4) (by norm_num) (by norm_num)
  obtain ⟨lx, f1, m1⟩ := C135_posterior [logK] (by intro p hp; rw [List.mem_singleton.1 hp]; exact logK_valid) [counting] (fun _ => 5)
    (hin 5 (by norm_num) (by norm_num)) Dx e1
  obtain ⟨ly, f2, m2⟩ := C135_posterior [logK] (by intro p hp; rw [List.mem_singleton.1 hp]; exact logK_valid) [counting] (fun _ => 4)
    (hin 4 (by norm_num) (by norm_num)) Dy e2
  have hL : 0 < Real.log (logK.hi / logK.lo) := Real.log_pos (by norm_num [logK])
  have p5 : poisLik 5 5 = 3125 * Real.exp (-5) := by
    unfold poisLik
    congr 1
    rw [show (5 : ℝ) ^ (5 : ℝ) = (5 : ℝ) ^ ((5 : ℕ) : ℝ) by norm_num, Real.rpow_natCast]; norm_num
  have p4 : poisLik 5 4 = 1024 * Real.exp (-4) := by
    unfold poisLik
    congr 1
    rw [show (4 : ℝ) ^ (5 : ℝ) = (4 : ℝ) ^ ((5 : ℕ) : ℝ) by norm_num, Real.rpow_natCast]; norm_num
  have he : Real.exp (-4) = Real.exp 1 * Real.exp (-5) := by rw [← Real.exp_add]; norm_num
  have h5 := Real.exp_pos (-5)
  have hlo := Real.exp_one_gt_d9
  have hhi := Real.exp_one_lt_d9
  have q : poisLik 5 4 / poisLik 5 5 = 1024 / 3125 * Real.exp 1 := by
    rw [p4, p5, he]; field_simp
  refine ⟨fun _ => 5, fun _ => 4, Dx, Dy, lx, ly, hin 5 (by norm_num) (by norm_num), hin 4 (by norm_num) (by norm_num), e1, e2, ?_, f1, f2, ?_⟩
  · have : Real.exp (-Dy / 2) < Real.exp (-Dx / 2) := by
      rw [k1, k2, q, div_self (by rw [p5]; positivity)]
      nlinarith
    have := Real.exp_lt_exp.1 this
    linarith
  · rw [← Real.exp_lt_exp, m1, m2, k1, k2, q, div_self (by rw [p5]; positivity)]
    have d : ∀ v : ℝ, logK.density v = 1 / (v * Real.log (logK.hi / logK.lo)) := fun v => rfl
    simp only [List.map_cons, List.map_nil, List.prod_cons, List.prod_nil, mul_one, d]
    generalize Real.log (logK.hi / logK.lo) = L at hL
    rw [show 1 / (5 * L) = 1 / L * (1 / 5) by field_simp, show 1 / (4 * L) = 1 / L * (1 / 4) by field_simp, mul_assoc]
    refine mul_lt_mul_of_pos_left ?_ (one_div_pos.2 hL)
    nlinarith

/-! ## Cases -/

/-- The same parameter with a uniform prior. -/
noncomputable def linK : FreeParam := ⟨"K", false, 1 / 10, 100⟩

example : ∫ x in (1 / 10 : ℝ)..100, logK.density x = 1 := (C135_prior logK logK_valid).2

example : ∃ lx ly : ℝ, logDensity [linK] (runOf [counting]) (fun _ => 5) = .ok lx ∧
    logDensity [linK] (runOf [counting]) (fun _ => 4) = .ok ly ∧ ¬ lx ≤ ly := by
  have hv : ∀ p ∈ [linK], p.Valid := by
    intro p hp; rw [List.mem_singleton.1 hp]; exact ⟨by norm_num [linK], fun h => by simp [linK] at h⟩
  have hin : ∀ v : ℝ, 1 ≤ v → v ≤ 10 → Inside [linK] fun _ => v := by
    intro v h1 h2 p hp
    rw [List.mem_singleton.1 hp]
    exact ⟨by norm_num [linK]; linarith, by norm_num [linK]; linarith⟩
  obtain ⟨D5, e1, k1⟩ := counting_stat (fun _ => 5) (by norm_num) (by norm_num)
  obtain ⟨D4, e2, k2⟩ := counting_stat (fun _ => 4) (by norm_num) (by norm_num)
  obtain ⟨lx, f1, -⟩ := C135_posterior [linK] hv [counting] _ (hin 5 (by norm_num) (by norm_num)) D5 e1
  obtain ⟨ly, f2, -⟩ := C135_posterior [linK] hv [counting] _ (hin 4 (by norm_num) (by norm_num)) D4 e2
  refine ⟨lx, ly, f1, f2, ?_⟩
  rw [C135_flat [linK] hv (by simp [linK]) [counting] _ _ (hin 5 (by norm_num) (by norm_num)) (hin 4 (by norm_num) (by norm_num)) D5 D4 lx ly e1 e2 f1 f2]
  intro h
  have h' : Real.exp (-D5 / 2) ≤ Real.exp (-D4 / 2) := Real.exp_le_exp.2 (by linarith)
  have p5 : 0 < poisLik 5 5 := by unfold poisLik; positivity
  rw [k1, k2, div_le_div_iff_of_pos_right p5] at h'
  have a5 : poisLik 5 5 = 3125 * Real.exp (-5) := by
    unfold poisLik
    congr 1
    rw [show (5 : ℝ) ^ (5 : ℝ) = (5 : ℝ) ^ ((5 : ℕ) : ℝ) by norm_num, Real.rpow_natCast]; norm_num
  have a4 : poisLik 5 4 = 1024 * (Real.exp 1 * Real.exp (-5)) := by
    rw [← Real.exp_add]
    unfold poisLik
    rw [show (4 : ℝ) ^ (5 : ℝ) = (4 : ℝ) ^ ((5 : ℕ) : ℝ) by norm_num, Real.rpow_natCast]; norm_num
  rw [a5, a4] at h'
  have := Real.exp_pos (-5)
  have hhi := Real.exp_one_lt_d9
  nlinarith

example (μ : Measure ℝ) [IsProbabilityMeasure μ] (stat : Stat) : ∃ f : ℝ → ℝ, (∀ x, statistic [constantModel stat] x = .ok (f x)) ∧
    0 < ∫ x, Real.exp (-f x / 2) ∂μ := by
  obtain ⟨f, h1, -, h2, -⟩ := C135_evidence μ [constantModel stat]
    (by intro m hm; rw [List.mem_singleton.1 hm]; exact exFit_usable stat)
    (by
      intro m hm; rw [List.mem_singleton.1 hm]
      intro r hr
      have : r = 0 := by simp [constantModel, exFit] at hr; exact hr
      subst this
      exact continuous_id)
  exact ⟨f, h1, h2⟩

end Elisa.Infer.Bayes
