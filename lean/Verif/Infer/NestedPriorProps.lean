import Verif.Infer.NestedPrior
import Mathlib.MeasureTheory.Measure.Lebesgue.Basic
import Mathlib.MeasureTheory.Constructions.Pi
import Mathlib.MeasureTheory.Integral.Bochner.Basic
import Mathlib.MeasureTheory.Integral.Bochner.Set
import Mathlib.MeasureTheory.Function.SpecialFunctions.Basic
import Mathlib.Probability.ConditionalProbability

/-!
# C71: the unit cube of the nested samplers carries the prior
-/

namespace Elisa.Infer

open MeasureTheory Set
open scoped ENNReal

/-- The uniform law on the unit interval. -/
noncomputable def unitLaw : Measure ℝ := volume.restrict (Icc 0 1)

/-- The probability law a prior stands for (specification).  For `other` it is given from outside. -/
noncomputable def Prior.law (ext : (ℝ → ℝ) → Measure ℝ) : Prior → Measure ℝ
  | .uniform lo hi => (ENNReal.ofReal (hi - lo))⁻¹ • volume.restrict (Icc lo hi)
  | .other icdf => ext icdf
  | .transformed base fs => fs.foldl (fun μ f => μ.map f) (base.law ext)
  | .wrapped base => base.law ext
  | .bernoulli p => ENNReal.ofReal p • Measure.dirac 1 + ENNReal.ofReal (1 - p) • Measure.dirac 0
  | .categorical ps => Measure.sum fun k : ℕ => ENNReal.ofReal (ps.getD k 0) • Measure.dirac (k : ℝ)

/-- The arguments a prior must have, and that a third-party `icdf` really is one. -/
def Prior.Valid (ext : (ℝ → ℝ) → Measure ℝ) : Prior → Prop
  | .uniform lo hi => lo < hi
  | .other icdf => Measurable icdf ∧ unitLaw.map icdf = ext icdf
  | .transformed base fs => base.Valid ext ∧ ∀ f ∈ fs, Measurable f
  | .wrapped base => base.Valid ext
  | .bernoulli p => 0 ≤ p ∧ p ≤ 1
  | .categorical ps => (∀ p ∈ ps, 0 ≤ p) ∧ ps.sum = 1

theorem unitLaw_Ioc : unitLaw = volume.restrict (Ioc 0 1) :=
  (Measure.restrict_congr_set Ioc_ae_eq_Icc).symm

theorem foldl_measurable (fs : List (ℝ → ℝ)) (h : ∀ f ∈ fs, Measurable f) :
    Measurable (fun x : ℝ => fs.foldl (fun x f => f x) x) := by
  induction fs with
  | nil => exact measurable_id
  | cons f t ih =>
    simp only [List.foldl_cons]
    exact (ih (fun g hg => h g (by simp [hg]))).comp (h f (by simp))

theorem foldl_map (fs : List (ℝ → ℝ)) (h : ∀ f ∈ fs, Measurable f) (μ : Measure ℝ) :
    μ.map (fun x : ℝ => fs.foldl (fun x f => f x) x) = fs.foldl (fun μ f => μ.map f) μ := by
  induction fs generalizing μ with
  | nil => simp
  | cons f t ih =>
    simp only [List.foldl_cons]
    rw [← ih (fun g hg => h g (by simp [hg])),
      Measure.map_map (foldl_measurable t (fun g hg => h g (by simp [hg]))) (h f (by simp))]
    rfl

theorem count_measurable (cs : List ℝ) : Measurable (fun q : ℝ => ((cs.filter (fun c => c < q)).length : ℝ)) := by
  induction cs with
  | nil => simpa using measurable_const
  | cons c t ih =>
    have : (fun q : ℝ => (((c :: t).filter (fun c => c < q)).length : ℝ)) =
        fun q => ((t.filter (fun c => c < q)).length : ℝ) + if c < q then 1 else 0 := by
      funext q
      by_cases h : c < q <;> simp [List.filter_cons, h]
    rw [this]
    exact ih.add (Measurable.ite measurableSet_Ioi measurable_const measurable_const)

theorem fromCube_measurable (ext : (ℝ → ℝ) → Measure ℝ) : ∀ d : Prior, d.Valid ext → Measurable d.fromCube
  | .uniform lo hi, _ => by
      have : (Prior.uniform lo hi).fromCube = fun q => lo + q * (hi - lo) := by funext q; rfl
      rw [this]; fun_prop
  | .other icdf, h => h.1
  | .transformed base fs, h => (foldl_measurable fs h.2).comp (fromCube_measurable ext base h.1)
  | .wrapped base, h => fromCube_measurable ext base h
  | .bernoulli p, _ => Measurable.ite measurableSet_Iio measurable_const measurable_const
  | .categorical ps, _ => count_measurable _

theorem map_const_on {f : ℝ → ℝ} {s : Set ℝ} {c : ℝ} (hs : MeasurableSet s) (hf : Measurable f)
    (h : ∀ q ∈ s, f q = c) (μ : Measure ℝ) : (μ.restrict s).map f = μ s • Measure.dirac c := by
  have : f =ᵐ[μ.restrict s] fun _ => c := (ae_restrict_iff' hs).2 (ae_of_all _ h)
  rw [Measure.map_congr this, Measure.map_const]
  simp

theorem uniform_law (lo hi : ℝ) (h : lo < hi) :
    unitLaw.map (fun q => lo + q * (hi - lo)) = (ENNReal.ofReal (hi - lo))⁻¹ • volume.restrict (Icc lo hi) := by
  have hd : 0 < hi - lo := sub_pos.2 h
  have hf : Measurable (fun q : ℝ => lo + q * (hi - lo)) := by fun_prop
  have hpre : (fun q : ℝ => lo + q * (hi - lo)) ⁻¹' Icc lo hi = Icc 0 1 := by
    ext q
    simp only [mem_preimage, mem_Icc]
    constructor
    · rintro ⟨a, b⟩
      exact ⟨by nlinarith, by nlinarith⟩
    · rintro ⟨a, b⟩
      exact ⟨by nlinarith, by nlinarith⟩
  unfold unitLaw
  rw [← hpre, ← Measure.restrict_map hf measurableSet_Icc]
  have hvol : (volume : Measure ℝ).map (fun q : ℝ => lo + q * (hi - lo)) = (ENNReal.ofReal (hi - lo))⁻¹ • volume := by
    have e : (fun q : ℝ => lo + q * (hi - lo)) = (fun x => lo + x) ∘ (fun q => q * (hi - lo)) := rfl
    rw [e, ← Measure.map_map (by fun_prop) (by fun_prop), Real.map_volume_mul_right hd.ne',
      Measure.map_smul, map_add_left_eq_self, abs_of_pos (inv_pos.2 hd), ENNReal.ofReal_inv_of_pos hd]
  rw [hvol, Measure.restrict_smul]

theorem categorical_law (ps : List ℝ) (hp : ∀ p ∈ ps, 0 ≤ p) (c : ℝ) :
    (volume.restrict (Ioc c (c + ps.sum))).map (fun q => (((cumsumFrom c ps).filter (fun x => x < q)).length : ℝ)) =
      Measure.sum fun k : ℕ => ENNReal.ofReal (ps.getD k 0) • Measure.dirac (k : ℝ) := by
  induction ps generalizing c with
  | nil =>
    simp only [List.sum_nil, add_zero, Ioc_self, Measure.restrict_empty, Measure.map_zero]
    ext s hs
    simp [Measure.sum_apply _ hs]
  | cons p t ih =>
    have hp0 : 0 ≤ p := hp p (by simp)
    have ht : ∀ x ∈ t, 0 ≤ x := fun x hx => hp x (by simp [hx])
    have hts : 0 ≤ t.sum := List.sum_nonneg ht
    have hge : ∀ (l : List ℝ) (a : ℝ), (∀ x ∈ l, 0 ≤ x) → ∀ x ∈ cumsumFrom a l, a ≤ x := by
      intro l
      induction l with
      | nil => intro a _ x hx; simp [cumsumFrom] at hx
      | cons y l ih =>
        intro a hl x hx
        have hy := hl y (by simp)
        rw [cumsumFrom, List.mem_cons] at hx
        rcases hx with rfl | hx
        · linarith
        · have := ih (a + y) (fun z hz => hl z (by simp [hz])) x hx
          linarith
    set F : ℝ → ℝ := fun q => (((cumsumFrom c (p :: t)).filter (fun x => x < q)).length : ℝ) with hF
    have hFm : Measurable F := count_measurable _
    have hsplit : Ioc c (c + (p :: t).sum) = Ioc c (c + p) ∪ Ioc (c + p) (c + p + t.sum) := by
      rw [Ioc_union_Ioc_eq_Ioc (by linarith) (by linarith), List.sum_cons, add_assoc]
    have hdisj : Disjoint (Ioc c (c + p)) (Ioc (c + p) (c + p + t.sum)) := by
      rw [Set.disjoint_left]; intro x hx hy; exact absurd hx.2 (not_le.2 hy.1)
    rw [hsplit, Measure.restrict_union hdisj measurableSet_Ioc, Measure.map_add _ _ hFm]
    have h1 : (volume.restrict (Ioc c (c + p))).map F = ENNReal.ofReal p • Measure.dirac 0 := by
      rw [map_const_on (c := 0) measurableSet_Ioc hFm]
      · rw [Real.volume_Ioc]; congr 2; ring
      · intro q hq
        simp only [hF, Nat.cast_eq_zero, List.length_eq_zero_iff, List.filter_eq_nil_iff, decide_eq_true_eq, not_lt]
        intro x hx
        rw [cumsumFrom, List.mem_cons] at hx
        rcases hx with rfl | hx
        · exact hq.2
        · exact hq.2.trans (hge t (c + p) ht x hx)
    have h2 : (volume.restrict (Ioc (c + p) (c + p + t.sum))).map F =
        (Measure.sum fun k : ℕ => ENNReal.ofReal (t.getD k 0) • Measure.dirac (k : ℝ)).map (fun x => x + 1) := by
      rw [← ih ht (c + p), Measure.map_map (by fun_prop) (count_measurable _)]
      apply Measure.map_congr
      refine (ae_restrict_iff' measurableSet_Ioc).2 (ae_of_all _ fun q hq => ?_)
      have : c + p < q := hq.1
      simp [hF, cumsumFrom, List.filter_cons, this]
    rw [h1, h2, Measure.map_sum (by fun_prop : AEMeasurable (fun x : ℝ => x + 1) _)]
    ext s hs
    rw [Measure.add_apply, Measure.sum_apply _ hs, Measure.sum_apply _ hs]
    conv_rhs => rw [tsum_eq_zero_add' ENNReal.summable]
    simp only [List.getD_cons_zero, List.getD_cons_succ, Nat.cast_zero, Measure.smul_apply]
    congr 1
    apply tsum_congr
    intro k
    have hm1 : Measurable (fun x : ℝ => x + 1) := by fun_prop
    have hdir : Measure.map (fun x : ℝ => x + 1) (Measure.dirac (k : ℝ)) = Measure.dirac ((k : ℝ) + 1) := by
      exact Measure.map_dirac' hm1 _
    rw [Measure.map_smul, hdir, Measure.smul_apply]
    push_cast
    rfl

/-- **C71** (one parameter).  A uniformly drawn cube coordinate, mapped as the code maps it, is distributed exactly as
the prior — for uniform and log-uniform priors, any transformed or wrapped prior, Bernoulli and categorical
priors, and any prior whose own `icdf` is right. -/
theorem C71_prior (ext : (ℝ → ℝ) → Measure ℝ) : ∀ d : Prior, d.Valid ext → unitLaw.map d.fromCube = d.law ext
  | .uniform lo hi, h => uniform_law lo hi h
  | .other icdf, h => h.2
  | .transformed base fs, h => by
      have e : (Prior.transformed base fs).fromCube = (fun x => fs.foldl (fun x f => f x) x) ∘ base.fromCube := rfl
      rw [e, ← Measure.map_map (foldl_measurable fs h.2) (fromCube_measurable ext base h.1), C71_prior ext base h.1,
        foldl_map fs h.2]
      rfl
  | .wrapped base, h => C71_prior ext base h
  | .bernoulli p, h => by
      obtain ⟨h0, h1⟩ := h
      have hm : Measurable (Prior.bernoulli p).fromCube :=
        Measurable.ite measurableSet_Iio measurable_const measurable_const
      have hs : Icc (0 : ℝ) 1 = Ico 0 p ∪ Icc p 1 := by rw [Ico_union_Icc_eq_Icc h0 h1]
      have hd : Disjoint (Ico (0 : ℝ) p) (Icc p 1) := by
        rw [Set.disjoint_left]; intro x hx hy; exact absurd hx.2 (not_lt.2 hy.1)
      unfold unitLaw Prior.law
      rw [hs, Measure.restrict_union hd measurableSet_Icc, Measure.map_add _ _ hm,
        map_const_on (c := 1) measurableSet_Ico hm, map_const_on (c := 0) measurableSet_Icc hm]
      · simp
      · intro q hq; exact if_neg (not_lt.2 hq.1)
      · intro q hq; exact if_pos hq.2
  | .categorical ps, h => by
      have := categorical_law ps h.1 0
      rw [zero_add, h.2] at this
      rw [unitLaw_Ioc]
      exact this

/-- **C71** (log-uniform, spelled out).  For positive bounds the mapped coordinate is below `x` with probability
`log(x/low) / log(high/low)`, and it always lies between the bounds. -/
theorem C71_log_uniform (lo hi : ℝ) (h0 : 0 < lo) (h : lo < hi) :
    (∀ q ∈ Icc (0 : ℝ) 1, (Prior.logUniform lo hi).fromCube q ∈ Icc lo hi) ∧
    (∀ x ∈ Icc lo hi, unitLaw {q | (Prior.logUniform lo hi).fromCube q ≤ x} =
      ENNReal.ofReal (Real.log (x / lo) / Real.log (hi / lo))) := by
  have hhi : 0 < hi := h0.trans h
  have hl : Real.log lo < Real.log hi := Real.log_lt_log h0 h
  have hd : 0 < Real.log hi - Real.log lo := sub_pos.2 hl
  have e : ∀ q, (Prior.logUniform lo hi).fromCube q = Real.exp (Real.log lo + q * (Real.log hi - Real.log lo)) :=
    fun q => rfl
  refine ⟨fun q hq => ?_, fun x hx => ?_⟩
  · rw [e, mem_Icc]
    constructor
    · conv_lhs => rw [← Real.exp_log h0]
      exact Real.exp_le_exp.2 (by nlinarith [hq.1])
    · conv_rhs => rw [← Real.exp_log hhi]
      exact Real.exp_le_exp.2 (by nlinarith [hq.2])
  · have hx0 : 0 < x := h0.trans_le hx.1
    have hle : Real.log lo ≤ Real.log x := Real.log_le_log h0 hx.1
    have hle2 : Real.log x ≤ Real.log hi := Real.log_le_log hx0 hx.2
    have hset : {q | (Prior.logUniform lo hi).fromCube q ≤ x} = Iic (Real.log (x / lo) / Real.log (hi / lo)) := by
      ext q
      rw [mem_setOf_eq, mem_Iic, e, Real.log_div hx0.ne' h0.ne', Real.log_div hhi.ne' h0.ne', le_div_iff₀ hd]
      rw [← Real.le_log_iff_exp_le hx0]
      constructor <;> intro _ <;> linarith
    have h1 : 0 ≤ Real.log (x / lo) / Real.log (hi / lo) := by
      rw [Real.log_div hx0.ne' h0.ne', Real.log_div hhi.ne' h0.ne']
      exact div_nonneg (by linarith) hd.le
    have h2 : Real.log (x / lo) / Real.log (hi / lo) ≤ 1 := by
      rw [Real.log_div hx0.ne' h0.ne', Real.log_div hhi.ne' h0.ne', div_le_one hd]
      linarith
    rw [hset]
    unfold unitLaw
    rw [Measure.restrict_apply measurableSet_Iic]
    have : Iic (Real.log (x / lo) / Real.log (hi / lo)) ∩ Icc 0 1 = Icc 0 (Real.log (x / lo) / Real.log (hi / lo)) := by
      ext q
      simp only [mem_inter_iff, mem_Iic, mem_Icc]
      constructor
      · rintro ⟨a, b, -⟩; exact ⟨b, a⟩
      · rintro ⟨a, b⟩; exact ⟨b, a, b.trans h2⟩
    rw [this, Real.volume_Icc, sub_zero]

example := C71_log_uniform 1 100 (by norm_num) (by norm_num)

/-- **C71** (bounds and order for the default priors).  The parameter obtained from the cube lies within its bounds
and grows with the coordinate. -/
theorem C71_default_prior (log : Bool) (lo hi : ℝ) (h : lo < hi) (h0 : log = true → 0 < lo) :
    (∀ q ∈ Icc (0 : ℝ) 1, (defaultPrior log lo hi).fromCube q ∈ Icc lo hi) ∧
    StrictMono (defaultPrior log lo hi).fromCube ∧
    (defaultPrior log lo hi).fromCube 0 = lo ∧ (defaultPrior log lo hi).fromCube 1 = hi := by
  cases log
  · have e : (defaultPrior false lo hi).fromCube = fun q => lo + q * (hi - lo) := by
      unfold defaultPrior; simp only [Bool.false_eq_true, if_false]; funext q; rfl
    rw [e]
    refine ⟨fun q hq => ⟨by nlinarith [hq.1], by nlinarith [hq.2]⟩, fun a b hab => ?_, by ring, by ring⟩
    show lo + a * (hi - lo) < lo + b * (hi - lo)
    nlinarith
  · have hlo := h0 rfl
    have hhi : 0 < hi := hlo.trans h
    have hl : Real.log lo < Real.log hi := Real.log_lt_log hlo h
    have e : defaultPrior true lo hi = Prior.logUniform lo hi := by unfold defaultPrior; simp
    have e' : (defaultPrior true lo hi).fromCube =
        fun q => Real.exp (Real.log lo + q * (Real.log hi - Real.log lo)) := by rw [e]; rfl
    refine ⟨by rw [e]; exact (C71_log_uniform lo hi hlo h).1, ?_, ?_, ?_⟩
    · rw [e']
      intro a b hab
      exact Real.exp_lt_exp.2 (by nlinarith)
    · rw [e']; simp [Real.exp_log hlo]
    · rw [e']; simp [Real.exp_log hhi]

example := C71_default_prior true 1 100 (by norm_num) (fun _ => by norm_num)

/-- **C71** (all parameters, evidence).  When every prior is float-valued, averaging the likelihood over the unit cube
(what the nested sampler integrates) is averaging it over the joint prior: the evidence the samplers estimate is the
evidence of the model, and the mapped cube points follow the prior. -/
theorem C71_evidence_partial {n : ℕ} (ext : (ℝ → ℝ) → Measure ℝ) (ds : Fin n → Prior) (hv : ∀ i, (ds i).Valid ext)
    (hfl : ∀ i, (ds i).sampleType = .float) (logL : (Fin n → ℝ) → ℝ) (hL : Measurable logL) :
    (Measure.pi fun _ : Fin n => unitLaw).map (paramsFromCube ds) = Measure.pi (fun i => (ds i).law ext) ∧
    ∫ q, Real.exp (nestedLogLike ds logL q) ∂(Measure.pi fun _ : Fin n => unitLaw) =
      ∫ p, Real.exp (logL p) ∂(Measure.pi fun i => (ds i).law ext) := by
  have e : paramsFromCube ds = fun q i => (ds i).fromCube (q i) := by
    funext q i; unfold paramsFromCube unravelCoord; rw [hfl i]
  haveI : IsProbabilityMeasure unitLaw := ⟨by simp [unitLaw]⟩
  have hm : ∀ i, Measurable (ds i).fromCube := fun i => fromCube_measurable ext _ (hv i)
  haveI : ∀ i, IsProbabilityMeasure (unitLaw.map (ds i).fromCube) := fun i =>
    Measure.isProbabilityMeasure_map (hm i).aemeasurable
  have hmap : (Measure.pi fun _ : Fin n => unitLaw).map (paramsFromCube ds) = Measure.pi (fun i => (ds i).law ext) := by
    rw [e]
    have := Measure.pi_map_pi (μ := fun _ : Fin n => unitLaw) (f := fun i => (ds i).fromCube)
      (fun i => (hm i).aemeasurable)
    rw [this]
    congr 1
    funext i
    exact C71_prior ext _ (hv i)
  refine ⟨hmap, ?_⟩
  rw [← hmap, integral_map]
  · rfl
  · rw [e]
    exact (measurable_pi_lambda _ fun i => (hm i).comp (measurable_pi_apply i)).aemeasurable
  · exact (Real.measurable_exp.comp hL).aestronglyMeasurable

/-- **C71, violated for discrete priors.**  The cube is built with the parameter's own sample type, so the coordinate
of an integer-valued parameter loses its fraction: a Bernoulli parameter with success probability one half is always
1 inside the cube, although the prior gives it probability one half. -/
theorem C71_discrete_refuted :
    (∀ q ∈ Ico (0 : ℝ) 1, (Prior.bernoulli (1 / 2)).fromCube (unravelCoord (.bernoulli (1 / 2)) q) = 1) ∧
    (∀ ext, (Prior.bernoulli (1 / 2)).Valid ext ∧ (Prior.bernoulli (1 / 2)).law ext {1} = ENNReal.ofReal (1 / 2)) := by
  constructor
  · intro q hq
    have : ⌊q⌋ = 0 := Int.floor_eq_zero_iff.2 hq
    unfold Prior.fromCube unravelCoord
    simp only [Prior.sampleType, this, Int.cast_zero]
    norm_num
  · intro ext
    refine ⟨by constructor <;> norm_num, ?_⟩
    simp [Prior.law]

/-- **C71, mislabelled coordinates.**  UltraNest's own report can attach a cube coordinate's name to another parameter's
coordinate: its labels are in model order, the coordinates in alphabetical order. The returned samples are not
affected. -/
theorem C71_ultranest_labels_refuted : ultranestLabels ["PL.norm", "BB.kT"] = [("u_PL.norm", "u_BB.kT"), ("u_BB.kT", "u_PL.norm")] := by
  decide +kernel

/-! ### Non-vacuity -/

example : (Prior.logUniform 1 100).Valid (fun _ => 0) :=
  ⟨by show Real.log 1 < Real.log 100; exact Real.log_lt_log (by norm_num) (by norm_num),
    by intro f hf; rw [List.mem_singleton.1 hf]; exact Real.measurable_exp⟩

example : (Prior.categorical [1 / 4, 1 / 4, 1 / 2]).Valid (fun _ => 0) := by
  constructor
  · intro p hp; simp at hp; rcases hp with rfl | rfl | rfl <;> norm_num
  · norm_num

example : ∃ ds : Fin 2 → Prior, (∀ i, (ds i).Valid (fun _ => 0)) ∧ (∀ i, (ds i).sampleType = .float) :=
  ⟨fun _ => .uniform 0 5, fun _ => by show (0 : ℝ) < 5; norm_num, fun _ => rfl⟩

end Elisa.Infer
