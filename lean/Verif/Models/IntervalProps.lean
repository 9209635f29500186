import Verif.Models.Interval
import Mathlib.MeasureTheory.Integral.Prod
import Mathlib.MeasureTheory.Integral.IntervalIntegral.MeanValue

/-!
# C65: a model with interval parameters is the average over the intervals
-/

namespace Elisa.Models.Interval

open MeasureTheory

/-! ## Specification -/

/-- Exact quadrature of continuous integrands: the idealisation of the adaptive rules. -/
def Exact (quad : Quad) : Prop := ∀ f a b, Continuous f → quad f a b = ∫ x in a..b, f x

/-- The repeated integral over the intervals, the last entry outermost. -/
noncomputable def nested : List Entry → CompiledFn → CompiledFn
  | [], f => f
  | e :: es, f => nested es fun params => ∫ v in e.a..e.b, f (Function.update params e.pid v)

/-- The documented normalisation `∏ (b_i - a_i)`. -/
def volumeOf (es : List Entry) : ℝ := (es.map fun e => e.b - e.a).prod

/-- The model value does not depend on the parameter. -/
def IndependentOf (f : CompiledFn) (pid : ℕ) : Prop := ∀ params v, f (Function.update params pid v) = f params

/-! ## Auxiliary facts -/

theorem compile_cons (quad : Quad) (e : Entry) (es : List Entry) (f : CompiledFn) :
    compileFn quad (e :: es) f = compileFn quad es (integralFactory quad e.pid e.a e.b f) := rfl

theorem update_continuous (params : Env) (pid : ℕ) : Continuous fun v : ℝ => Function.update params pid v :=
  continuous_const.update pid continuous_id

theorem integral_continuous {f : CompiledFn} (hf : Continuous f) (pid : ℕ) (a b : ℝ) :
    Continuous fun params : Env => ∫ v in a..b, f (Function.update params pid v) := by
  apply intervalIntegral.continuous_parametric_intervalIntegral_of_continuous'
  apply hf.comp
  exact continuous_fst.update pid continuous_snd

theorem factory_eq {quad : Quad} (hq : Exact quad) {f : CompiledFn} (hf : Continuous f) (pid : ℕ) (a b : ℝ) :
    integralFactory quad pid a b f = fun params => (∫ v in a..b, f (Function.update params pid v)) / (b - a) := by
  funext params
  unfold integralFactory setParam
  rw [hq (fun value => f (Function.update params pid value)) _ _ (hf.comp (update_continuous params pid))]

theorem nested_div (es : List Entry) (f : CompiledFn) (c : ℝ) (params : Env) :
    nested es (fun p => f p / c) params = nested es f params / c := by
  induction es generalizing f with
  | nil => rfl
  | cons e es ih =>
    simp only [nested]
    rw [← ih]
    congr 1
    funext p
    rw [intervalIntegral.integral_div]

/-! ## C65 -/

/-- One interval parameter: the value is the mean of the model over the interval. -/
theorem C65_average (quad : Quad) (hq : Exact quad) (f : CompiledFn) (hf : Continuous f) (pid : ℕ) (a b : ℝ) (params : Env) :
    compileFn quad [⟨pid, a, b⟩] f params = (∫ v in a..b, f (Function.update params pid v)) / (b - a) := by
  unfold compileFn
  simp only [List.foldl_cons, List.foldl_nil]
  rw [factory_eq hq hf]

/-- Any number of interval parameters: the documented `1/∏(b_i - a_i) ∫…∫`. -/
theorem C65_documented (quad : Quad) (hq : Exact quad) (es : List Entry) (f : CompiledFn) (hf : Continuous f) (params : Env) :
    compileFn quad es f params = nested es f params / volumeOf es := by
  induction es generalizing f with
  | nil => simp [compileFn, nested, volumeOf]
  | cons e es ih =>
    rw [compile_cons, factory_eq hq hf, ih _ ((integral_continuous hf _ _ _).div_const _), nested_div]
    simp only [nested, volumeOf, List.map_cons, List.prod_cons]
    rw [div_div]

example := C65_documented (fun f a b => ∫ x in a..b, f x) (fun _ _ _ _ => rfl) [⟨0, 1, 3⟩, ⟨1, 0, 2⟩] (fun p => p 0 + p 1 * p 2) (by fun_prop) (fun _ => 7)

theorem compile_continuous (quad : Quad) (hq : Exact quad) (es : List Entry) (f : CompiledFn) (hf : Continuous f) :
    Continuous (compileFn quad es f) := by
  induction es generalizing f with
  | nil => exact hf
  | cons e es ih =>
    rw [compile_cons, factory_eq hq hf]
    exact ih _ ((integral_continuous hf _ _ _).div_const _)

/-- The order in which the interval parameters are integrated out does not matter. -/
theorem C65_order (quad : Quad) (hq : Exact quad) (es es' : List Entry) (hperm : es.Perm es')
    (hnd : (es.map (·.pid)).Nodup) (f : CompiledFn) (hf : Continuous f) (params : Env) :
    compileFn quad es f params = compileFn quad es' f params := by
  have swap2 : ∀ (x y : Entry) (g : CompiledFn), Continuous g → x.pid ≠ y.pid →
      integralFactory quad x.pid x.a x.b (integralFactory quad y.pid y.a y.b g)
        = integralFactory quad y.pid y.a y.b (integralFactory quad x.pid x.a x.b g) := by
    intro x y g hg hne
    rw [factory_eq hq hg y.pid, factory_eq hq hg x.pid,
      factory_eq hq ((integral_continuous hg _ _ _).div_const _),
      factory_eq hq ((integral_continuous hg _ _ _).div_const _)]
    funext p
    rw [intervalIntegral.integral_div, intervalIntegral.integral_div, div_right_comm]
    congr 2
    rw [intervalIntegral_intervalIntegral_swap]
    · refine intervalIntegral.integral_congr fun u _ => intervalIntegral.integral_congr fun v _ => ?_
      rw [Function.update_comm hne]
    · have hcont : Continuous fun z : ℝ × ℝ => g (Function.update (Function.update p x.pid z.1) y.pid z.2) := by
        apply hg.comp
        have h1 : Continuous fun z : ℝ × ℝ => Function.update p x.pid z.1 := (update_continuous p x.pid).comp continuous_fst
        exact h1.update y.pid continuous_snd
      have hK : IsCompact (Set.uIcc x.a x.b ×ˢ Set.uIcc y.a y.b) := isCompact_uIcc.prod isCompact_uIcc
      exact (hcont.continuousOn.integrableOn_compact hK).mono_set
        (Set.prod_mono Set.uIoc_subset_uIcc Set.uIoc_subset_uIcc)
  induction hperm generalizing f with
  | nil => rfl
  | cons x _ ih =>
    rw [compile_cons, compile_cons]
    simp only [List.map_cons, List.nodup_cons] at hnd
    refine ih hnd.2 _ ?_
    rw [factory_eq hq hf]
    exact (integral_continuous hf _ _ _).div_const _
  | swap x y l =>
    simp only [compile_cons]
    simp only [List.map_cons, List.nodup_cons, List.mem_cons, not_or] at hnd
    rw [swap2 x y f hf (Ne.symm hnd.1.1)]
  | trans h1 _ ih1 ih2 =>
    rw [ih1 hnd f hf, ih2 ((h1.map (·.pid)).nodup_iff.1 hnd) f hf]

example := C65_order (fun f a b => ∫ x in a..b, f x) (fun _ _ _ _ => rfl) [⟨0, 1, 3⟩, ⟨1, 0, 2⟩] [⟨1, 0, 2⟩, ⟨0, 1, 3⟩] (.swap _ _ _) (by simp) (fun p => p 0 + p 1 * p 2) (by fun_prop)
  (fun _ => 7)

/-- A value that the caller supplies for an interval parameter is irrelevant, for every quadrature
rule. -/
theorem C65_supplied_value_ignored (quad : Quad) (es : List Entry) (f : CompiledFn) (e : Entry) (he : e ∈ es)
    (params : Env) (v : ℝ) : compileFn quad es f (Function.update params e.pid v) = compileFn quad es f params := by
  have keep : ∀ (es : List Entry) (f : CompiledFn) (pid : ℕ), IndependentOf f pid → IndependentOf (compileFn quad es f) pid := by
    intro es
    induction es with
    | nil => intro f pid h; exact h
    | cons x es ih =>
      intro f pid h
      rw [compile_cons]
      apply ih
      intro p v
      unfold integralFactory setParam
      congr 2
      funext u
      by_cases hx : x.pid = pid
      · subst hx
        rw [Function.update_idem]
      · rw [Function.update_comm (Ne.symm hx), h]
  induction es generalizing f with
  | nil => simp at he
  | cons x es ih =>
    rw [compile_cons]
    rcases List.mem_cons.1 he with rfl | he
    · refine keep es _ e.pid ?_ params v
      intro p u
      unfold integralFactory setParam
      simp only [Function.update_idem]
    · exact ih _ he

example := C65_supplied_value_ignored (fun f a b => ∫ x in a..b, f x) [⟨0, 1, 3⟩, ⟨1, 0, 2⟩] (fun p => p 0 + p 1 * p 2) ⟨1, 0, 2⟩ (by simp) (fun _ => 7) 9

/-- A model that does not depend on the interval parameter is unchanged, whatever the quadrature rule,
as long as the rule is exact for constants: the average over an interval parameter that only another
part of the model uses is harmless. -/
theorem C65_independent (quad : Quad) (hc : ∀ c a b, quad (fun _ => c) a b = c * (b - a)) (es : List Entry)
    (hab : ∀ e ∈ es, e.a ≠ e.b) (f : CompiledFn) (hf : ∀ e ∈ es, IndependentOf f e.pid) (params : Env) :
    compileFn quad es f params = f params := by
  induction es generalizing f with
  | nil => rfl
  | cons e es ih =>
    have h1 : integralFactory quad e.pid e.a e.b f = f := by
      funext p
      unfold integralFactory setParam
      have : (fun value => f (Function.update p e.pid value)) = fun _ => f p := by
        funext u; exact hf e (by simp) p u
      rw [this, hc, mul_div_assoc, div_self (sub_ne_zero.2 (hab e (by simp)).symm), mul_one]
    rw [compile_cons, h1]
    exact ih (fun x hx => hab x (by simp [hx])) f (fun x hx => hf x (by simp [hx]))

example := C65_independent (fun f a b => ∫ x in a..b, f x) (fun c a b => by simp [mul_comm]) [⟨0, 1, 3⟩] (by simp) (fun p => p 1 * p 2)
  (by intro e he; simp at he; subst he; intro p v; simp [Function.update]) (fun _ => 7)

/-- Exchanging the ends of an interval changes nothing. -/
theorem C65_orientation (quad : Quad) (hq : Exact quad) (f : CompiledFn) (hf : Continuous f) (pid : ℕ) (a b : ℝ) (params : Env) :
    compileFn quad [⟨pid, a, b⟩] f params = compileFn quad [⟨pid, b, a⟩] f params := by
  rw [C65_average quad hq f hf, C65_average quad hq f hf, intervalIntegral.integral_symm, ← neg_sub a b, neg_div_neg_eq]

example := C65_orientation (fun f a b => ∫ x in a..b, f x) (fun _ _ _ _ => rfl) (fun p => p 0 + p 1 * p 2) (by fun_prop) 0 1 3 (fun _ => 7)

/-- The average of a sum is the sum of the averages: the parts of a model averaged separately add up
to the averaged model. -/
theorem C65_additive (quad : Quad) (hq : Exact quad) (es : List Entry) (f g : CompiledFn) (hf : Continuous f)
    (hg : Continuous g) (params : Env) :
    compileFn quad es (fun p => f p + g p) params = compileFn quad es f params + compileFn quad es g params := by
  induction es generalizing f g with
  | nil => rfl
  | cons e es ih =>
    have hsum : Continuous fun p => f p + g p := hf.add hg
    rw [compile_cons, compile_cons, compile_cons, factory_eq hq hsum, factory_eq hq hf, factory_eq hq hg,
      ← ih _ _ ((integral_continuous hf _ _ _).div_const _) ((integral_continuous hg _ _ _).div_const _)]
    congr 1
    funext p
    rw [intervalIntegral.integral_add, add_div]
    · exact (hf.comp (update_continuous p e.pid)).intervalIntegrable _ _
    · exact (hg.comp (update_continuous p e.pid)).intervalIntegrable _ _

example := C65_additive (fun f a b => ∫ x in a..b, f x) (fun _ _ _ _ => rfl) [⟨0, 1, 3⟩, ⟨1, 0, 2⟩] (fun p => p 0) (fun p => p 1 * p 2) (by fun_prop) (by fun_prop) (fun _ => 7)

/-- The average stays within the bounds of the model over the interval. -/
theorem C65_bounded (quad : Quad) (hq : Exact quad) (f : CompiledFn) (hf : Continuous f) (pid : ℕ) (a b lo hi : ℝ)
    (hab : a < b) (params : Env) (h : ∀ v ∈ Set.Icc a b, lo ≤ f (Function.update params pid v) ∧ f (Function.update params pid v) ≤ hi) :
    lo ≤ compileFn quad [⟨pid, a, b⟩] f params ∧ compileFn quad [⟨pid, a, b⟩] f params ≤ hi := by
  rw [C65_average quad hq f hf]
  have hpos := sub_pos.2 hab
  have hi' := (hf.comp (update_continuous params pid)).intervalIntegrable (μ := volume) a b
  rw [le_div_iff₀ hpos, div_le_iff₀ hpos]
  constructor
  · have := intervalIntegral.integral_mono_on hab.le (intervalIntegrable_const (c := lo)) hi' (fun v hv => (h v hv).1)
    simpa [mul_comm] using this
  · have := intervalIntegral.integral_mono_on hab.le hi' (intervalIntegrable_const (c := hi)) (fun v hv => (h v hv).2)
    simpa [mul_comm] using this

example := C65_bounded (fun f a b => ∫ x in a..b, f x) (fun _ _ _ _ => rfl) (fun p => p 0) (by fun_prop) 0 1 3 1 3 (by norm_num) (fun _ => 7)
  (by intro v hv; simpa [Function.update] using hv)

/-- An interval of zero length is accepted, and the value is then not the value of the model (the
quotient `0/0`, here 0). -/
theorem C65_empty_interval_refuted : checkInterval [1, 1] = .ok (1, 1) ∧
    ∀ (quad : Quad) (params : Env), Exact quad → compileFn quad [⟨0, 1, 1⟩] (fun _ => 5) params ≠ 5 := by
  refine ⟨rfl, fun quad params hq => ?_⟩
  rw [C65_average quad hq _ continuous_const]
  norm_num

/-- **C65.** The constructor accepts exactly the two-element sequences, whatever their order. -/
theorem C65_two_ends (l : List ℝ) :
    (∀ a b, checkInterval l = .ok (a, b) ↔ l = [a, b]) ∧ (l.length ≠ 2 → ∃ e, checkInterval l = .error e) := by
  unfold checkInterval
  constructor
  · intro a b
    split
    · simp
    · rename_i h
      simp only [reduceCtorEq, false_iff]
      exact fun e => h a b e
  · intro h
    split
    · simp at h
    · exact ⟨_, rfl⟩

noncomputable example : Quad := fun f a b => ∫ x in a..b, f x

example : Exact (fun f a b => ∫ x in a..b, f x) := fun _ _ _ _ => rfl

example : compileFn (fun f a b => ∫ x in a..b, f x) [⟨0, 1, 3⟩] (fun p => p 0 + p 1) (fun _ => 7) = 9 := by
  rw [C65_average _ (fun _ _ _ _ => rfl) _ (by fun_prop)]
  simp [Function.update]
  norm_num

end Elisa.Models.Interval
