import Verif.Models.SpectraProps
import Mathlib.MeasureTheory.Integral.IntervalIntegral.TrapezoidalRule

/-!
# C42: numerical bin integration
-/

namespace Elisa.Models.Spectra

open Real MeasureTheory

/-! ## Specification -/

/-- The bin averages of the function `M`. -/
noncomputable def binAverages (M : ℝ → ℝ) (egrid : List ℝ) : List ℝ :=
  perBin (fun a b => (∫ E in a..b, M E) / (b - a)) egrid

/-- A strictly increasing grid. -/
def Increasing (egrid : List ℝ) : Prop := egrid.IsChain (· < ·)

/-- Bin by bin combination of two arrays. -/
def combine (s t : ℝ) (xs ys : List ℝ) : List ℝ := List.zipWith (fun x y => s * x + t * y) xs ys

/-! ## Auxiliary facts -/

theorem perBin_congr_chain {α : Type} {f h : ℝ → ℝ → α} {g : List ℝ} (hg : Increasing g)
    (H : ∀ a ∈ g, ∀ b ∈ g, a < b → f a b = h a b) : perBin f g = perBin h g := by
  induction g with
  | nil => rfl
  | cons a g ih =>
    cases g with
    | nil => rfl
    | cons b g =>
      unfold Increasing at hg
      rw [List.isChain_cons_cons] at hg
      rw [perBin_cons, perBin_cons, H a (by simp) b (by simp) hg.1,
        ih hg.2 fun x hx y hy => H x (by simp [hx]) y (by simp [hy])]

theorem cubic_integral (c0 c1 c2 c3 a b : ℝ) : ∫ E in a..b, (c0 + c1 * E + c2 * E ^ 2 + c3 * E ^ 3)
    = c0 * (b - a) + c1 * (b ^ 2 - a ^ 2) / 2 + c2 * (b ^ 3 - a ^ 3) / 3 + c3 * (b ^ 4 - a ^ 4) / 4 := by
  have h : ∀ x ∈ Set.uIcc a b, HasDerivAt (fun E : ℝ => c0 * E + c1 * E ^ 2 / 2 + c2 * E ^ 3 / 3 + c3 * E ^ 4 / 4)
      (c0 + c1 * x + c2 * x ^ 2 + c3 * x ^ 3) x := by
    intro x _
    have h1 : HasDerivAt (fun E : ℝ => E) 1 x := hasDerivAt_id x
    have h2 : HasDerivAt (fun E : ℝ => E ^ 2) (2 * x) x := by simpa using hasDerivAt_pow 2 x
    have h3 : HasDerivAt (fun E : ℝ => E ^ 3) (3 * x ^ 2) x := by simpa using hasDerivAt_pow 3 x
    have h4 : HasDerivAt (fun E : ℝ => E ^ 4) (4 * x ^ 3) x := by simpa using hasDerivAt_pow 4 x
    have := ((((h1.const_mul c0).add ((h2.const_mul c1).div_const 2)).add ((h3.const_mul c2).div_const 3)).add
      ((h4.const_mul c3).div_const 4))
    have he : c0 * 1 + c1 * (2 * x) / 2 + c2 * (3 * x ^ 2) / 3 + c3 * (4 * x ^ 3) / 4
        = c0 + c1 * x + c2 * x ^ 2 + c3 * x ^ 3 := by ring
    rw [he] at this
    exact this
  rw [intervalIntegral.integral_eq_sub_of_hasDerivAt h]
  · ring
  · apply Continuous.intervalIntegrable
    fun_prop

theorem linear_integral (c0 c1 a b : ℝ) : ∫ E in a..b, (c0 + c1 * E) = c0 * (b - a) + c1 * (b ^ 2 - a ^ 2) / 2 := by
  have := cubic_integral c0 c1 0 0 a b
  simpa using this

/-! ## C42 -/

/-- Trapezoidal bins of an additive component are exact for linear continua, on every grid. -/
theorem C42_trapz_linear (c0 c1 : ℝ) (egrid : List ℝ) :
    trapz true (fun E => c0 + c1 * E) egrid = binIntegrals (fun E => c0 + c1 * E) egrid := by
  unfold trapz binIntegrals
  refine perBin_congr fun a _ b _ => ?_
  rw [linear_integral]
  norm_num
  ring

/-- Simpson bins of an additive component are exact for cubic continua, on every grid. -/
theorem C42_simpson_cubic (c0 c1 c2 c3 : ℝ) (egrid : List ℝ) :
    simpson true (fun E => c0 + c1 * E + c2 * E ^ 2 + c3 * E ^ 3) egrid
      = binIntegrals (fun E => c0 + c1 * E + c2 * E ^ 2 + c3 * E ^ 3) egrid := by
  unfold simpson binIntegrals
  refine perBin_congr fun a _ b _ => ?_
  rw [cubic_integral]
  norm_num
  ring

/-- Multiplicative components return bin averages, exactly for linear functions (trapezoidal rule). -/
theorem C42_trapz_average (c0 c1 : ℝ) (egrid : List ℝ) (hg : Increasing egrid) :
    trapz false (fun E => c0 + c1 * E) egrid = binAverages (fun E => c0 + c1 * E) egrid := by
  unfold trapz binAverages
  refine perBin_congr_chain hg fun a _ b _ hab => ?_
  rw [linear_integral]
  have : b - a ≠ 0 := (sub_pos.2 hab).ne'
  norm_num
  field_simp
  ring

example := C42_trapz_average 1 2 [1, 2, 5] (by norm_num [Increasing])

/-- The same with the Simpson rule, for cubic functions. -/
theorem C42_simpson_average (c0 c1 c2 c3 : ℝ) (egrid : List ℝ) (hg : Increasing egrid) :
    simpson false (fun E => c0 + c1 * E + c2 * E ^ 2 + c3 * E ^ 3) egrid
      = binAverages (fun E => c0 + c1 * E + c2 * E ^ 2 + c3 * E ^ 3) egrid := by
  unfold simpson binAverages
  refine perBin_congr_chain hg fun a _ b _ hab => ?_
  rw [cubic_integral]
  have : b - a ≠ 0 := (sub_pos.2 hab).ne'
  norm_num
  field_simp
  ring

example := C42_simpson_average 1 2 3 4 [1, 2, 5] (by norm_num [Increasing])

/-- A multiplicative component that is constant gives that constant in every bin, by both rules and
on every grid (also a non-monotone or repeated one). -/
theorem C42_constant (c : ℝ) (egrid : List ℝ) :
    trapz false (fun _ => c) egrid = List.replicate (egrid.length - 1) c ∧
    simpson false (fun _ => c) egrid = List.replicate (egrid.length - 1) c := by
  have key : ∀ g : List ℝ, perBin (fun _ _ => c) g = List.replicate (g.length - 1) c := by
    intro g
    induction g with
    | nil => rfl
    | cons a g ih =>
      cases g with
      | nil => rfl
      | cons b g => rw [perBin_cons, ih]; simp [List.replicate_succ]
  constructor
  · rw [← key]
    refine perBin_congr fun a _ b _ => ?_
    norm_num
    ring
  · rw [← key]
    refine perBin_congr fun a _ b _ => ?_
    norm_num
    ring

/-- Both rules are linear in the continuum, for additive and multiplicative components. -/
theorem C42_linear (add : Bool) (s t : ℝ) (f g : ℝ → ℝ) (egrid : List ℝ) :
    trapz add (fun E => s * f E + t * g E) egrid = combine s t (trapz add f egrid) (trapz add g egrid) ∧
    simpson add (fun E => s * f E + t * g E) egrid = combine s t (simpson add f egrid) (simpson add g egrid) := by
  constructor
  · unfold trapz combine
    rw [zipWith_perBin]
    refine perBin_congr fun a _ b _ => ?_
    ring
  · unfold simpson combine
    rw [zipWith_perBin]
    refine perBin_congr fun a _ b _ => ?_
    ring

theorem perBin_forall {α : Type} {f : ℝ → ℝ → α} {P : α → Prop} {g : List ℝ} (hg : Increasing g)
    (H : ∀ a ∈ g, ∀ b ∈ g, a < b → P (f a b)) : ∀ x ∈ perBin f g, P x := by
  induction g with
  | nil => simp [perBin]
  | cons a g ih =>
    cases g with
    | nil => simp [perBin]
    | cons b g =>
      unfold Increasing at hg
      rw [List.isChain_cons_cons] at hg
      rw [perBin_cons]
      intro x hx
      rcases List.mem_cons.1 hx with rfl | hx
      · exact H a (by simp) b (by simp) hg.1
      · exact ih hg.2 (fun x hx y hy => H x (by simp [hx]) y (by simp [hy])) x hx

/-- Non-negative continua give non-negative bins and averages. -/
theorem C42_nonneg (add : Bool) (f : ℝ → ℝ) (hf : ∀ E, 0 < E → 0 ≤ f E) (egrid : List ℝ) (hp : Positive egrid)
    (hg : Increasing egrid) : (∀ v ∈ trapz add f egrid, 0 ≤ v) ∧ (∀ v ∈ simpson add f egrid, 0 ≤ v) := by
  constructor
  · refine perBin_forall hg fun a ha b hb hab => ?_
    have h1 := hf a (hp a ha)
    have h2 := hf b (hp b hb)
    have h3 := sub_pos.2 hab
    split_ifs <;> positivity
  · refine perBin_forall hg fun a ha b hb hab => ?_
    have ha' := hp a ha
    have hb' := hp b hb
    have h1 := hf a ha'
    have h2 := hf b hb'
    have h4 := hf (0.5 * (a + b)) (by positivity)
    have h3 := sub_pos.2 hab
    split_ifs <;> positivity

example := C42_nonneg true (fun E => E) (fun _ h => h.le) [1, 2, 5] (by simp [Positive]) (by norm_num [Increasing])

/-- Multiplicative factors between 0 and 1 stay between 0 and 1 after averaging. -/
theorem C42_bounded (f : ℝ → ℝ) (lo hi : ℝ) (hf : ∀ E, 0 < E → lo ≤ f E ∧ f E ≤ hi) (egrid : List ℝ)
    (hp : Positive egrid) (hg : Increasing egrid) :
    (∀ v ∈ trapz false f egrid, lo ≤ v ∧ v ≤ hi) ∧ (∀ v ∈ simpson false f egrid, lo ≤ v ∧ v ≤ hi) := by
  constructor
  · refine perBin_forall hg fun a ha b hb hab => ?_
    have h1 := hf a (hp a ha)
    have h2 := hf b (hp b hb)
    norm_num
    constructor <;> linarith [h1.1, h1.2, h2.1, h2.2]
  · refine perBin_forall hg fun a ha b hb hab => ?_
    have ha' := hp a ha
    have hb' := hp b hb
    have h1 := hf a ha'
    have h2 := hf b hb'
    have h4 := hf (0.5 * (a + b)) (by positivity)
    norm_num at h4 ⊢
    constructor <;> linarith [h1.1, h1.2, h2.1, h2.2, h4.1, h4.2]

example := C42_bounded (fun E => E / (1 + E)) 0 1 (fun E h => ⟨by positivity, by rw [div_le_one (by positivity)]; linarith⟩) [1, 2, 5] (by simp [Positive]) (by norm_num [Increasing])

/-- The error of the trapezoidal rule on each bin of a twice continuously differentiable continuum is
at most `M width³ / 12` for a bound `M` of the second derivative on the bin. -/
theorem C42_trapz_error (f : ℝ → ℝ) (a b : ℝ) (hab : a < b) (hf : ContDiffOn ℝ 2 f (Set.Icc a b)) (M : ℝ)
    (hM : ∀ x ∈ Set.Icc a b, |iteratedDerivWithin 2 f (Set.Icc a b) x| ≤ M) :
    ∃ v, trapz true f [a, b] = [v] ∧ |v - ∫ E in a..b, f E| ≤ M * (b - a) ^ 3 / 12 := by
  refine ⟨_, rfl, ?_⟩
  rw [← Set.uIcc_of_le hab.le] at hf
  have hM' : ∀ x, |iteratedDerivWithin 2 f (Set.uIcc a b) x| ≤ M := by
    intro x
    rw [Set.uIcc_of_le hab.le]
    by_cases hx : x ∈ Set.Icc a b
    · exact hM x hx
    · rw [iteratedDerivWithin_succ, derivWithin_zero_of_notMem_closure (by rwa [isClosed_Icc.closure_eq]), abs_zero]
      exact (abs_nonneg _).trans (hM a ⟨le_rfl, hab.le⟩)
  have h := trapezoidal_error_le_of_c2 (f := f) (a := a) (b := b) (ζ := M) hf hM' Nat.one_pos
  simp only [trapezoidal_error, trapezoidal_integral_one] at h
  norm_num at h ⊢
  rw [abs_of_pos (sub_pos.2 hab)] at h
  have e : 1 / 2 * (b - a) * (f a + f b) = (b - a) / 2 * (f a + f b) := by ring
  rw [e]
  linarith

example : Increasing [1, 2, 4] ∧ Positive [1, 2, 4] := by
  constructor
  · simp [Increasing]; norm_num
  · intro e he; simp at he; rcases he with rfl | rfl | rfl <;> norm_num

example : simpson true (fun E => 0 + 0 * E + 0 * E ^ 2 + 4 * E ^ 3) [0, 1, 2] = [1, 15] := by
  simp [simpson, perBin]; norm_num

end Elisa.Models.Spectra
