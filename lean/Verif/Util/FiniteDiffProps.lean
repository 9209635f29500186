import Verif.Util.FiniteDiff
import Mathlib.Analysis.Calculus.MeanValue
import Mathlib.Analysis.Calculus.Deriv.Pow
import Mathlib.Analysis.Calculus.Deriv.Shift

/-!
# C70: the numerical gradient of Python components
-/

namespace Elisa.Util

theorem fdMagnitude_pos (p : ℝ) : 0 < fdMagnitude p := by
  unfold fdMagnitude
  split_ifs with h
  · norm_num
  · exact abs_pos.2 h

theorem fdStep_pos (m : FdMethod) {eps : ℝ} (he : 0 < eps) (p : ℝ) : 0 < fdStep m eps p := by
  unfold fdStep
  cases m
  · exact mul_pos (fdMagnitude_pos p) (Real.rpow_pos_of_pos he _)
  · exact mul_pos (fdMagnitude_pos p) (Real.sqrt_pos.2 he)

/-- **C70** (the value is untouched, and parameters without a tangent do not matter).  The returned value is the
component's value; the returned tangent is the sum over the differentiated parameters of tangent times difference
quotient, so it is additive and homogeneous in the tangents. -/
theorem C70_linear {n : ℕ} (m : FdMethod) (eps : ℝ) (f : (Fin n → ℝ) → ℝ) (p : Fin n → ℝ) (s t : Fin n → ℝ) (a b : ℝ) :
    (fdjvp m eps f p (fun i => some (a * s i + b * t i))).2 =
      a * (fdjvp m eps f p (fun i => some (s i))).2 + b * (fdjvp m eps f p (fun i => some (t i))).2 ∧
    (∀ t' : Fin n → Option ℝ, (fdjvp m eps f p t').1 = f p ∧
      (fdjvp m eps f p t').2 = (fdjvp m eps f p (fun i => some ((t' i).getD 0))).2) := by
  constructor
  · unfold fdjvp
    simp only
    rw [Finset.mul_sum, Finset.mul_sum, ← Finset.sum_add_distrib]
    exact Finset.sum_congr rfl fun i _ => by ring
  · intro t'
    refine ⟨rfl, ?_⟩
    unfold fdjvp
    simp only
    refine Finset.sum_congr rfl fun i _ => ?_
    cases t' i <;> simp

/-- `f` restricted to parameter `i`, the others staying at `p`. -/
noncomputable def alongParam {n : ℕ} (f : (Fin n → ℝ) → ℝ) (p : Fin n → ℝ) (i : Fin n) (x : ℝ) : ℝ := f (Function.update p i x)

theorem alongParam_self {n : ℕ} (f : (Fin n → ℝ) → ℝ) (p : Fin n → ℝ) (i : Fin n) : alongParam f p i (p i) = f p := by
  simp [alongParam]

/-- **C70** (exact cases).  With either method the result is the exact directional derivative of a component
that is affine in each of its differentiated parameters; with the central method also of one that is quadratic. No
step size matters. -/
theorem C70_exact {n : ℕ} (m : FdMethod) (eps : ℝ) (he : 0 < eps) (f : (Fin n → ℝ) → ℝ) (p : Fin n → ℝ)
    (t : Fin n → Option ℝ) (q c : Fin n → ℝ)
    (hf : ∀ i, t i ≠ none → ∀ x, alongParam f p i x = f p + c i * (x - p i) + q i * (x - p i) ^ 2)
    (hq : m = .central ∨ ∀ i, q i = 0) :
    (fdjvp m eps f p t).2 = ∑ i, (t i).getD 0 * c i := by
  unfold fdjvp
  simp only
  refine Finset.sum_congr rfl fun i _ => ?_
  rcases hti : t i with _ | ti
  · simp
  · have h0 := (fdStep_pos m he (p i)).ne'
    have hfi := hf i (by rw [hti]; simp)
    simp only [Option.getD_some]
    congr 1
    unfold fdDeriv
    simp only
    cases m with
    | central =>
      have e1 := hfi (p i + fdStep .central eps (p i))
      have e2 := hfi (p i - fdStep .central eps (p i))
      unfold alongParam at e1 e2
      simp only [e1, e2]
      field_simp
      ring
    | forward =>
      have hqi : q i = 0 := by
        rcases hq with h | h
        · cases h
        · exact h i
      have e1 := hfi (p i + fdStep .forward eps (p i))
      unfold alongParam at e1
      simp only [e1, hqi]
      field_simp
      ring

theorem grow_bound {g g' : ℝ → ℝ} {h c : ℝ} {k : ℕ}
    (h0 : g 0 = 0) (hd : ∀ t ∈ Set.Icc 0 h, HasDerivAt g (g' t) t)
    (hb : ∀ t ∈ Set.Icc 0 h, |g' t| ≤ c * t ^ k) :
    ∀ t ∈ Set.Icc 0 h, |g t| ≤ c * t ^ (k + 1) / (k + 1) := by
  have key := image_norm_le_of_norm_deriv_right_le_deriv_boundary (f := g) (f' := g') (a := 0) (b := h)
    (B := fun t => c * t ^ (k + 1) / (k + 1)) (B' := fun t => c * t ^ k)
    (fun t ht => (hd t ht).continuousAt.continuousWithinAt)
    (fun t ht => (hd t ⟨ht.1, ht.2.le⟩).hasDerivWithinAt)
    (by simp [h0])
    (fun t => by
      have := ((hasDerivAt_pow (k + 1) t).const_mul c).div_const ((k : ℝ) + 1)
      have hk : ((k : ℝ) + 1) ≠ 0 := by positivity
      refine this.congr_deriv ?_
      push_cast
      field_simp)
    (fun t ht => by simpa using hb t ⟨ht.1, ht.2.le⟩)
  intro t ht
  simpa using key ht

/-- **C70** (error of the central method).  If along a parameter the component is three times differentiable with
third derivative at most `M` in size between the two evaluation points, the difference quotient is off the true
partial derivative by at most `M h² / 6`, where `h` is `|p| eps^(1/3)` (or `eps^(1/3)` at zero). -/
theorem C70_central_error {n : ℕ} (eps : ℝ) (he : 0 < eps) (f : (Fin n → ℝ) → ℝ) (p : Fin n → ℝ) (i : Fin n)
    (d1 d2 d3 : ℝ → ℝ) (M h : ℝ) (hh : h = (if p i = 0 then 1 else |p i|) * eps ^ ((1 : ℝ) / 3))
    (hd1 : ∀ x ∈ Set.Icc (p i - h) (p i + h), HasDerivAt (alongParam f p i) (d1 x) x)
    (hd2 : ∀ x ∈ Set.Icc (p i - h) (p i + h), HasDerivAt d1 (d2 x) x)
    (hd3 : ∀ x ∈ Set.Icc (p i - h) (p i + h), HasDerivAt d2 (d3 x) x)
    (hM : ∀ x ∈ Set.Icc (p i - h) (p i + h), |d3 x| ≤ M) :
    |fdDeriv .central eps f p i - d1 (p i)| ≤ M * h ^ 2 / 6 := by
  have hstep : fdStep .central eps (p i) = h := hh.symm
  have hpos : 0 < h := hstep ▸ fdStep_pos .central he (p i)
  set P := p i with hP
  have mp : ∀ t ∈ Set.Icc 0 h, P + t ∈ Set.Icc (P - h) (P + h) := fun t ht => ⟨by linarith [ht.1], by linarith [ht.2]⟩
  have mm : ∀ t ∈ Set.Icc 0 h, P - t ∈ Set.Icc (P - h) (P + h) := fun t ht => ⟨by linarith [ht.2], by linarith [ht.1]⟩
  -- second derivative level
  have b3 : ∀ t ∈ Set.Icc 0 h, |d2 (P + t) - d2 (P - t)| ≤ 2 * M * t ^ (0 + 1) / ((0 : ℕ) + 1) :=
    grow_bound (g := fun t => d2 (P + t) - d2 (P - t)) (g' := fun t => d3 (P + t) - -d3 (P - t)) (by simp)
      (fun t ht => by
        have h1 := (hd3 _ (mp t ht)).comp_const_add P t
        have h2 := (hd3 _ (mm t ht)).comp_const_sub P t
        exact h1.sub h2)
      (fun t ht => by
        have h1 := hM _ (mp t ht)
        have h2 := hM _ (mm t ht)
        rw [pow_zero, mul_one, sub_neg_eq_add]
        exact (abs_add_le _ _).trans (by linarith))
  have b2 : ∀ t ∈ Set.Icc 0 h, |d1 (P + t) + d1 (P - t) - 2 * d1 P| ≤ 2 * M * t ^ (1 + 1) / ((1 : ℕ) + 1) :=
    grow_bound (g := fun t => d1 (P + t) + d1 (P - t) - 2 * d1 P) (g' := fun t => d2 (P + t) + -d2 (P - t))
      (by simp; ring)
      (fun t ht => by
        have h1 := (hd2 _ (mp t ht)).comp_const_add P t
        have h2 := (hd2 _ (mm t ht)).comp_const_sub P t
        exact (h1.add h2).sub_const _)
      (fun t ht => by
        have := b3 t ht
        rw [← sub_eq_add_neg]
        simpa using this)
  have b1 : ∀ t ∈ Set.Icc 0 h,
      |alongParam f p i (P + t) - alongParam f p i (P - t) - 2 * d1 P * t| ≤ M * t ^ (2 + 1) / ((2 : ℕ) + 1) :=
    grow_bound (g := fun t => alongParam f p i (P + t) - alongParam f p i (P - t) - 2 * d1 P * t)
      (g' := fun t => d1 (P + t) - -d1 (P - t) - 2 * d1 P * 1)
      (by simp)
      (fun t ht => by
        have h1 := (hd1 _ (mp t ht)).comp_const_add P t
        have h2 := (hd1 _ (mm t ht)).comp_const_sub P t
        exact (h1.sub h2).sub ((hasDerivAt_id t).const_mul (2 * d1 P)))
      (fun t ht => by
        have := b2 t ht
        rw [sub_neg_eq_add, mul_one]
        refine this.trans (le_of_eq ?_)
        push_cast; ring)
  have hb := b1 h ⟨hpos.le, le_rfl⟩
  unfold fdDeriv
  simp only
  rw [← hP, hstep]
  have e : (f (Function.update p i (P + h)) - f (Function.update p i (P - h))) / (2 * h) - d1 P =
      (alongParam f p i (P + h) - alongParam f p i (P - h) - 2 * d1 P * h) / (2 * h) := by
    unfold alongParam; field_simp
  rw [e, abs_div, abs_of_pos (by positivity : 0 < 2 * h), div_le_iff₀ (by positivity)]
  refine hb.trans (le_of_eq ?_)
  push_cast; ring

/-- **C70** (error of the forward method): `M h / 2` with `h = |p| sqrt eps` (or `sqrt eps` at zero) and `M` a bound on
the second derivative between the parameter and the perturbed parameter. -/
theorem C70_forward_error {n : ℕ} (eps : ℝ) (he : 0 < eps) (f : (Fin n → ℝ) → ℝ) (p : Fin n → ℝ) (i : Fin n)
    (d1 d2 : ℝ → ℝ) (M h : ℝ) (hh : h = (if p i = 0 then 1 else |p i|) * Real.sqrt eps)
    (hd1 : ∀ x ∈ Set.Icc (p i) (p i + h), HasDerivAt (alongParam f p i) (d1 x) x)
    (hd2 : ∀ x ∈ Set.Icc (p i) (p i + h), HasDerivAt d1 (d2 x) x)
    (hM : ∀ x ∈ Set.Icc (p i) (p i + h), |d2 x| ≤ M) :
    |fdDeriv .forward eps f p i - d1 (p i)| ≤ M * h / 2 := by
  have hstep : fdStep .forward eps (p i) = h := hh.symm
  have hpos : 0 < h := hstep ▸ fdStep_pos .forward he (p i)
  set P := p i with hP
  have mp : ∀ t ∈ Set.Icc 0 h, P + t ∈ Set.Icc P (P + h) := fun t ht => ⟨by linarith [ht.1], by linarith [ht.2]⟩
  have b2 : ∀ t ∈ Set.Icc 0 h, |d1 (P + t) - d1 P| ≤ M * t ^ (0 + 1) / ((0 : ℕ) + 1) :=
    grow_bound (g := fun t => d1 (P + t) - d1 P) (g' := fun t => d2 (P + t)) (by simp)
      (fun t ht => ((hd2 _ (mp t ht)).comp_const_add P t).sub_const _)
      (fun t ht => by rw [pow_zero, mul_one]; exact hM _ (mp t ht))
  have b1 : ∀ t ∈ Set.Icc 0 h,
      |alongParam f p i (P + t) - alongParam f p i P - d1 P * t| ≤ M * t ^ (1 + 1) / ((1 : ℕ) + 1) :=
    grow_bound (g := fun t => alongParam f p i (P + t) - alongParam f p i P - d1 P * t)
      (g' := fun t => d1 (P + t) - d1 P * 1) (by simp)
      (fun t ht => (((hd1 _ (mp t ht)).comp_const_add P t).sub_const _).sub ((hasDerivAt_id t).const_mul (d1 P)))
      (fun t ht => by
        have := b2 t ht
        rw [mul_one]
        refine this.trans (le_of_eq ?_)
        push_cast; ring)
  have hb := b1 h ⟨hpos.le, le_rfl⟩
  unfold fdDeriv
  simp only
  rw [← hP, hstep]
  have e : (f (Function.update p i (P + h)) - f p) / h - d1 P =
      (alongParam f p i (P + h) - alongParam f p i P - d1 P * h) / h := by
    rw [hP, alongParam_self, ← hP]
    unfold alongParam; field_simp
  rw [e, abs_div, abs_of_pos hpos, div_le_iff₀ hpos]
  refine hb.trans (le_of_eq ?_)
  push_cast; ring

/-- **C70** (method names).  Exactly `None`, `'central'` and `'forward'` are accepted; `None` is central. -/
theorem C70_methods (s : Option String) :
    ((∃ m, parseMethod s = .ok m) ↔ s = none ∨ s = some "central" ∨ s = some "forward") ∧
    (s = none ∨ s = some "central" → parseMethod s = .ok .central) ∧ (s = some "forward" → parseMethod s = .ok .forward) := by
  refine ⟨?_, ?_, ?_⟩
  · unfold parseMethod
    split <;> simp_all
  · rintro (rfl | rfl) <;> rfl
  · rintro rfl; rfl

/-- **C70** (choice of method, part that holds).  As long as the component was not evaluated before its method was
last set, an evaluation uses the method set last. -/
theorem C70_method_partial (m : FdMethod) (ms : List FdMethod) :
    (PyComp.run m (ms.map .setMethod)).used = ms.getLast?.getD m := by
  have key : ∀ (ms : List FdMethod) (c : PyComp), c.compiled = none →
      ((ms.map PyOp.setMethod).foldl PyComp.step c) = ⟨ms.getLast?.getD c.method, none⟩ := by
    intro ms
    induction ms with
    | nil => intro c hc; cases c; simp at hc; simp [hc]
    | cons a t ih =>
      intro c hc
      rw [List.map_cons, List.foldl_cons, ih _ (by simpa [PyComp.step] using hc)]
      rcases t with _ | ⟨b, t⟩
      · simp [PyComp.step]
      · simp [PyComp.step, List.getLast?_eq_some_getLast]
  unfold PyComp.run
  rw [key ms _ rfl]
  simp [PyComp.used]

/-- **C70, violated.**  After the first evaluation the setter has no effect: whatever is set later, the method of the
first evaluation stays in use, although the attribute reports the new one. -/
theorem C70_method_refuted (m m' : FdMethod) (before after : List PyOp) :
    let c := PyComp.run m (before ++ [.eval] ++ after ++ [.setMethod m'])
    c.used = (PyComp.run m before).used ∧ c.method = m' := by
  have keep : ∀ (ops : List PyOp) (c : PyComp) (x : FdMethod), c.compiled = some x →
      (ops.foldl PyComp.step c).compiled = some x := by
    intro ops
    induction ops with
    | nil => intro c x h; exact h
    | cons o t ih =>
      intro c x h
      rw [List.foldl_cons]
      apply ih
      cases o <;> simp [PyComp.step, h]
  simp only
  unfold PyComp.run
  rw [List.foldl_append, List.foldl_append, List.foldl_append]
  generalize List.foldl PyComp.step ⟨m, none⟩ before = c0
  have h1 : (List.foldl PyComp.step c0 [.eval]).compiled = some c0.used := by
    rcases c0 with ⟨a, _ | b⟩ <;> simp [PyComp.step, PyComp.used]
  have h2 := keep after _ _ h1
  generalize List.foldl PyComp.step (List.foldl PyComp.step c0 [.eval]) after = c2 at h2
  have e : List.foldl PyComp.step c2 [.setMethod m'] = { c2 with method := m' } := rfl
  rw [e]
  refine ⟨?_, rfl⟩
  show (c2.compiled).getD m' = _
  rw [h2]; rfl

/-! ### Non-vacuity -/

/-- A component affine in its first parameter and quadratic in its second. -/
example : (fdjvp .central (1 / 8) (fun p : Fin 2 → ℝ => 3 * p 0 + p 1 ^ 2) ![2, 5] (fun _ => some 1)).2 = 13 := by
  rw [C70_exact .central (1 / 8) (by norm_num) _ _ _ ![0, 1] ![3, 10] _ (.inl rfl)]
  · simp; norm_num
  · intro i _ x
    fin_cases i <;> simp [alongParam] <;> ring

/-- A cubic component meets the hypotheses of the error bound (third derivative six). -/
example : |fdDeriv .central (1 / 8) (fun p : Fin 1 → ℝ => p 0 ^ 3) ![0] 0 - 0| ≤
    6 * ((1 / 8 : ℝ) ^ ((1 : ℝ) / 3)) ^ 2 / 6 := by
  have e : alongParam (fun p : Fin 1 → ℝ => p 0 ^ 3) ![0] 0 = fun x => x ^ 3 := by
    funext x; simp [alongParam]
  have := C70_central_error (1 / 8) (by norm_num) (fun p : Fin 1 → ℝ => p 0 ^ 3) ![0] 0
    (fun x => 3 * x ^ 2) (fun x => 6 * x) (fun _ => 6) 6 ((1 / 8 : ℝ) ^ ((1 : ℝ) / 3)) (by simp)
    (fun x _ => by rw [e]; simpa using hasDerivAt_pow 3 x)
    (fun x _ => by
      have := (hasDerivAt_pow 2 x).const_mul 3
      refine this.congr_deriv ?_; norm_num; ring)
    (fun x _ => by simpa using (hasDerivAt_id x).const_mul 6)
    (fun x _ => by norm_num)
  simpa using this

example : (PyComp.run .central [.eval, .setMethod .forward]).used = .central ∧
    (PyComp.run .central [.eval, .setMethod .forward]).method = .forward := ⟨rfl, rfl⟩

end Elisa.Util
