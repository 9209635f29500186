import Verif.Models.Density
import Verif.Models.BatchProps
import Verif.Models.ShiftProps

/-!
# C116: `N(E)`, `E N(E)`, `E² N(E)` of a model and its band fluxes
-/

namespace Elisa.Models.Density

open Elisa Elisa.Models.Spectra Elisa.Models.Info Real MeasureTheory

theorem diff_eq (g : List ℝ) : diff g = perBin (fun a b => b - a) g := rfl

/-- **C116 (refusals).**  A spectrum is given exactly for additive models; spectra of the components exactly if there are at least two. -/
theorem C116_refused (m : Folding) (egrid : List ℝ) (emin emax : ℝ) (energy : Bool) (n : ℕ) (lg : Bool) :
    (m.add = false → ∀ c, neOf m egrid c = .error .typeError ∧ eneOf m egrid c = .error .typeError ∧ eeneOf m egrid c = .error .typeError ∧
      fluxOf m emin emax energy c n lg = .error .typeError) ∧
    (m.add = true → m.subs = none → neOf m egrid true = .error .runtimeError ∧ eneOf m egrid true = .error .runtimeError ∧
      eeneOf m egrid true = .error .runtimeError ∧ fluxOf m emin emax energy true n lg = .error .runtimeError) := by
  refine ⟨fun h c => ?_, fun h hs => ?_⟩
  · simp [neOf, eneOf, eeneOf, fluxOf, checked, h]
  · simp [neOf, eneOf, eeneOf, fluxOf, checked, h, hs]

/-- The spectra of a model with the fluxes `v` per bin. -/
theorem ne_getElem (model : ModelFn) (g : List ℝ) (i : ℕ) (a b v : ℝ) (ha : g[i]? = some a) (hb : g[i + 1]? = some b) (hv : (model g)[i]? = some v) :
    (ne model g)[i]? = some (v / (b - a)) := by
  unfold ne
  rw [List.getElem?_zipWith, hv, diff_eq, perBin_getElem?, ha, hb]

/-- **C116 (values).**  In the bin from `a` to `b` that holds the photon flux `v`, the reported spectra are the mean density `v/(b-a)`, that density times the geometric mean
energy `√(ab)`, and times `ab`, the latter two in erg. -/
theorem C116_values (m : Folding) (hm : m.add = true) (g : List ℝ) (i : ℕ) (a b v : ℝ) (ha : g[i]? = some a) (hb : g[i + 1]? = some b) (hv : (m.fn g)[i]? = some v) :
    ∃ n en een, neOf m g false = .ok (.total n) ∧ eneOf m g false = .ok (.total en) ∧ eeneOf m g false = .ok (.total een) ∧
      n[i]? = some (v / (b - a)) ∧ en[i]? = some (1.602176634e-9 * sqrt (a * b) * (v / (b - a))) ∧ een[i]? = some (1.602176634e-9 * (a * b) * (v / (b - a))) := by
  have h := ne_getElem m.fn g i a b v ha hb hv
  refine ⟨_, _, _, by simp only [neOf, checked, hm]; rfl, by simp only [eneOf, checked, hm]; rfl, by simp only [eeneOf, checked, hm]; rfl, h, ?_, ?_⟩
  · simp only [ene, List.getElem?_zipWith, h, perBin_getElem?, ha, hb, keVToErg]
  · simp only [eene, List.getElem?_zipWith, h, perBin_getElem?, ha, hb, keVToErg]

example := C116_values ⟨true, fun _ => [3, 4], none⟩ rfl [1, 2, 5] 1 2 5 4 rfl rfl rfl

theorem sqrt_between {a b : ℝ} (ha : 0 < a) (hab : a < b) : a < sqrt (a * b) ∧ sqrt (a * b) < b := by
  have hb := ha.trans hab
  constructor
  · rw [Real.lt_sqrt ha.le]; nlinarith
  · rw [Real.sqrt_lt' hb]; nlinarith

/-- **C116 (meaning).**  For a model that integrates the continuum `N` over the bins, each bin shows the continuum at some energy `x` of the bin: `N(x)`, `E N(x)` with `E` inside
the bin, and `E² N(x)` with the same `E`. -/
theorem C116_meaning (m : Folding) (hm : m.add = true) (N : ℝ → ℝ) (hN : ContinuousOn N (Set.Ioi 0)) (hf : ∀ g, Positive g → m.fn g = binIntegrals N g)
    (g : List ℝ) (hg : Positive g) (i : ℕ) (a b : ℝ) (ha : g[i]? = some a) (hb : g[i + 1]? = some b) (hab : a < b) :
    ∃ n en een, neOf m g false = .ok (.total n) ∧ eneOf m g false = .ok (.total en) ∧ eeneOf m g false = .ok (.total een) ∧
      ∃ x E, (a < x ∧ x < b) ∧ (a < E ∧ E < b) ∧ n[i]? = some (N x) ∧ en[i]? = some (1.602176634e-9 * (E * N x)) ∧ een[i]? = some (1.602176634e-9 * (E ^ 2 * N x)) := by
  have ha0 : 0 < a := hg a (List.mem_of_getElem? ha)
  have hv : (m.fn g)[i]? = some (∫ E in a..b, N E) := by rw [hf g hg, binIntegrals, perBin_getElem?, ha, hb]
  obtain ⟨n, en, een, h1, h2, h3, h4, h5, h6⟩ := C116_values m hm g i a b _ ha hb hv
  have hsub : Set.Icc a b ⊆ Set.Ioi 0 := fun y hy => lt_of_lt_of_le ha0 hy.1
  have hc : ContinuousOn N (Set.Icc a b) := hN.mono hsub
  obtain ⟨x, hx, hxe⟩ : ∃ x ∈ Set.Ioo a b, N x = (∫ E in a..b, N E) / (b - a) := by
    have hd : ∀ y ∈ Set.Ioo a b, HasDerivAt (fun u => ∫ E in a..u, N E) (N y) y := fun y hy => by
      refine intervalIntegral.integral_hasDerivAt_right ?_ ?_ ?_
      · refine ContinuousOn.intervalIntegrable ?_
        rw [Set.uIcc_of_le hy.1.le]
        exact hc.mono (Set.Icc_subset_Icc_right hy.2.le)
      · exact hN.stronglyMeasurableAtFilter isOpen_Ioi y (hsub ⟨hy.1.le, hy.2.le⟩)
      · exact hN.continuousAt (isOpen_Ioi.mem_nhds (hsub ⟨hy.1.le, hy.2.le⟩))
    have hcont : ContinuousOn (fun u => ∫ E in a..u, N E) (Set.Icc a b) := by
      refine intervalIntegral.continuousOn_primitive_interval' (b₁ := a) (b₂ := b) ?_ ?_ |>.mono ?_
      · exact ContinuousOn.intervalIntegrable (by rwa [Set.uIcc_of_le hab.le])
      · exact Set.left_mem_uIcc
      · rw [Set.uIcc_of_le hab.le]
    obtain ⟨x, hx, he⟩ := exists_hasDerivAt_eq_slope _ _ hab hcont hd
    exact ⟨x, hx, by rw [he]; simp⟩
  refine ⟨n, en, een, h1, h2, h3, x, sqrt (a * b), hx, sqrt_between ha0 hab, by rw [h4, hxe], by rw [h5, ← hxe, mul_assoc], ?_⟩
  rw [h6, ← hxe, Real.sq_sqrt (mul_nonneg ha0.le (ha0.trans hab).le), mul_assoc]

/-- A power law as a compiled model. -/
noncomputable def exPL (alpha K : ℝ) : Folding where
  add := true
  fn := powerLaw alpha K
  subs := none

/-- The hypotheses of the theorem above are met by every power law. -/
example (alpha K : ℝ) : ∃ n en een, neOf (exPL alpha K) [1, 2, 5] false = .ok (.total n) ∧ eneOf (exPL alpha K) [1, 2, 5] false = .ok (.total en) ∧
    eeneOf (exPL alpha K) [1, 2, 5] false = .ok (.total een) ∧ ∃ x E, ((2 : ℝ) < x ∧ x < 5) ∧ ((2 : ℝ) < E ∧ E < 5) ∧ n[1]? = some (K * x ^ (-alpha)) ∧
      en[1]? = some (1.602176634e-9 * (E * (K * x ^ (-alpha)))) ∧ een[1]? = some (1.602176634e-9 * (E ^ 2 * (K * x ^ (-alpha)))) :=
  C116_meaning (exPL alpha K) rfl (fun E => K * E ^ (-alpha)) (continuousOn_const.mul fun x hx => (Real.continuousAt_rpow_const x _ (.inl (ne_of_gt hx))).continuousWithinAt)
    (fun g hg => C36_exact alpha K g hg) [1, 2, 5] (by intro e he; simp at he; rcases he with rfl | rfl | rfl <;> norm_num) 1 2 5 rfl rfl (by norm_num)

/-- **C116 (flat spectrum).**  `E² N(E)` of a power law of index 2 is exactly flat, in every bin of every grid. -/
theorem C116_flat (K : ℝ) (g : List ℝ) (hg : Positive g) (i : ℕ) (a b : ℝ) (ha : g[i]? = some a) (hb : g[i + 1]? = some b) (hab : a < b) :
    ∃ een, eeneOf (exPL 2 K) g false = .ok (.total een) ∧ een[i]? = some (1.602176634e-9 * K) := by
  have ha0 : 0 < a := hg a (List.mem_of_getElem? ha)
  have hb0 : 0 < b := ha0.trans hab
  have hv : ((exPL 2 K).fn g)[i]? = some (∫ E in a..b, K * E ^ (-(2 : ℝ))) := by
    show (powerLaw 2 K g)[i]? = _
    rw [C36_exact 2 K g hg, binIntegrals, perBin_getElem?, ha, hb]
  obtain ⟨n, en, een, -, -, h3, -, -, h6⟩ := C116_values (exPL 2 K) rfl g i a b _ ha hb hv
  refine ⟨een, h3, ?_⟩
  rw [h6, intervalIntegral.integral_const_mul, integral_rpow (.inr ⟨by norm_num, by rw [Set.uIcc_of_le hab.le]; exact fun h => absurd h.1 (not_le.2 ha0)⟩)]
  have e : (-2 : ℝ) + 1 = -1 := by norm_num
  rw [e, Real.rpow_neg_one, Real.rpow_neg_one]
  have : b - a ≠ 0 := by linarith
  congr 1
  field_simp
  ring

example := C116_flat 3 [1, 2, 5] (by simp [Positive]) 1 2 5 rfl rfl (by norm_num)

/-- The flux of the components adds up to the flux of the model on every grid. -/
def AddsUp (m : Folding) (subs : List (String × ModelFn)) : Prop :=
  ∀ (g : List ℝ) (i : ℕ) (v : ℝ), (m.fn g)[i]? = some v → ∃ vs : List ℝ, subs.map (fun q => (q.2 g)[i]?) = vs.map some ∧ v = vs.sum

theorem sum_div' (vs : List ℝ) (c : ℝ) : vs.sum / c = (vs.map fun v => v / c).sum := (sum_map_div vs c).symm

/-- **C116 (components).**  The spectra reported for the components of a model are those of the components on their own, one per component under its name, and add up bin by bin
to the spectrum of the model. -/
theorem C116_components (m : Folding) (hm : m.add = true) (subs : List (String × ModelFn)) (hs : m.subs = some subs) (hadd : AddsUp m subs)
    (g : List ℝ) (i : ℕ) (a b v : ℝ) (ha : g[i]? = some a) (hb : g[i + 1]? = some b) (hv : (m.fn g)[i]? = some v) :
    ∃ n ns, neOf m g false = .ok (.total n) ∧ neOf m g true = .ok (.comps ns) ∧ ns.map Prod.fst = subs.map Prod.fst ∧
      ∃ xs : List ℝ, ns.map (fun q => q.2[i]?) = xs.map some ∧ n[i]? = some xs.sum := by
  obtain ⟨vs, h1, h2⟩ := hadd g i v hv
  refine ⟨_, _, by simp only [neOf, checked, hm]; rfl, by simp only [neOf, checked, hm, hs]; rfl, by simp [Function.comp_def], vs.map fun x => x / (b - a), ?_, ?_⟩
  · rw [List.map_map, List.map_map]
    clear hv h2 hadd hs
    induction subs generalizing vs with
    | nil => cases vs with
      | nil => rfl
      | cons x xs => simp at h1
    | cons q subs ih => cases vs with
      | nil => simp at h1
      | cons x xs =>
        simp only [List.map_cons, List.cons.injEq] at h1
        simp only [List.map_cons, List.cons.injEq]
        exact ⟨ne_getElem q.2 g i a b x ha hb h1.1, ih xs h1.2⟩
  · rw [ne_getElem m.fn g i a b v ha hb hv, h2, sum_div']

/-- A sum of two power laws. -/
noncomputable def exTwo : Folding where
  add := true
  fn := fun g => List.zipWith (· + ·) (powerLaw 1 2 g) (powerLaw 2 3 g)
  subs := some [("A", powerLaw 1 2), ("B", powerLaw 2 3)]

theorem exTwo_adds : AddsUp exTwo [("A", powerLaw 1 2), ("B", powerLaw 2 3)] := by
  intro g i v hv
  simp only [exTwo, List.getElem?_zipWith] at hv
  cases h1 : (powerLaw 1 2 g)[i]? with
  | none => simp [h1] at hv
  | some x =>
    cases h2 : (powerLaw 2 3 g)[i]? with
    | none => simp [h1, h2] at hv
    | some y =>
      simp only [h1, h2, Option.some.injEq] at hv
      exact ⟨[x, y], by simp [h1, h2], by simp [← hv]⟩

example : ∃ n ns, neOf exTwo [1, 2, 4] false = .ok (.total n) ∧ neOf exTwo [1, 2, 4] true = .ok (.comps ns) ∧ ns.map Prod.fst = ["A", "B"] ∧
    ∃ xs : List ℝ, ns.map (fun q => q.2[1]?) = xs.map some ∧ n[1]? = some xs.sum := by
  have hl : (exTwo.fn [1, 2, 4]).length = 2 := by simp [exTwo, powerLaw_length]
  exact C116_components exTwo rfl _ rfl exTwo_adds [1, 2, 4] 1 2 4 ((exTwo.fn [1, 2, 4])[1]'(by rw [hl]; norm_num)) rfl rfl (List.getElem?_eq_getElem _)

theorem pair_sum_le (g : List ℝ) (c lo hi : ℝ) (hc : 0 ≤ c) (vs : List ℝ) (hv : ∀ v ∈ vs, 0 ≤ v) (hg : ∀ e ∈ g, lo ≤ e ∧ e ≤ hi) (hlo : 0 < lo)
    (hlen : vs.length = g.length - 1) :
    c * lo * vs.sum ≤ (List.zipWith (fun f v => f * v) (perBin (fun a b => c * sqrt (a * b)) g) vs).sum ∧
    (List.zipWith (fun f v => f * v) (perBin (fun a b => c * sqrt (a * b)) g) vs).sum ≤ c * hi * vs.sum := by
  induction g generalizing vs with
  | nil => cases vs with
    | nil => simp
    | cons v vs => simp at hlen
  | cons a g ih =>
    cases g with
    | nil => cases vs with
      | nil => simp
      | cons v vs => simp at hlen
    | cons b g =>
      cases vs with
      | nil => simp at hlen
      | cons v vs =>
        rw [perBin_cons]
        simp only [List.zipWith_cons_cons, List.sum_cons]
        have h := ih vs (fun x hx => hv x (by simp [hx])) (fun e he => hg e (by simp [he])) (by simpa using hlen)
        have ha := hg a (by simp)
        have hb := hg b (by simp)
        have hv0 := hv v (by simp)
        have h1 : lo ≤ sqrt (a * b) := Real.le_sqrt_of_sq_le (by nlinarith)
        have h2 : sqrt (a * b) ≤ hi := Real.sqrt_le_iff.2 ⟨by linarith, by nlinarith⟩
        have k1 : c * lo * v ≤ c * sqrt (a * b) * v := mul_le_mul_of_nonneg_right (mul_le_mul_of_nonneg_left h1 hc) hv0
        have k2 : c * sqrt (a * b) * v ≤ c * hi * v := mul_le_mul_of_nonneg_right (mul_le_mul_of_nonneg_left h2 hc) hv0
        constructor <;> nlinarith [h.1, h.2]

theorem bandGrid_within {emin emax : ℝ} (h0 : 0 < emin) (h1 : emin < emax) (n : ℕ) (hn : 2 ≤ n) (lg : Bool) : ∀ e ∈ bandGrid emin emax n lg, emin ≤ e ∧ e ≤ emax := by
  intro e he
  have hfrac : ∀ i : ℕ, i < n → 0 ≤ (i : ℝ) / ((n : ℝ) - 1) ∧ (i : ℝ) / ((n : ℝ) - 1) ≤ 1 := by
    intro i hi
    have h2 : (2 : ℝ) ≤ n := by exact_mod_cast hn
    have hp : (0 : ℝ) < (n : ℝ) - 1 := by linarith
    refine ⟨by positivity, ?_⟩
    rw [div_le_one hp]
    have : (i : ℝ) + 1 ≤ n := by exact_mod_cast hi
    linarith
  cases lg
  · simp only [bandGrid, Bool.false_eq_true, if_false, linspace, List.mem_map, List.mem_range] at he
    obtain ⟨i, hi, rfl⟩ := he
    obtain ⟨f1, f2⟩ := hfrac i hi
    constructor <;> nlinarith
  · simp only [bandGrid, if_true, geomspace, List.mem_map, List.mem_range] at he
    obtain ⟨i, hi, rfl⟩ := he
    obtain ⟨f1, f2⟩ := hfrac i hi
    have hr : 1 ≤ emax / emin := (one_le_div h0).2 h1.le
    have l1 := Real.one_le_rpow hr f1
    have l2 := Real.rpow_le_rpow_of_exponent_le hr f2
    rw [Real.rpow_one] at l2
    refine ⟨by nlinarith, ?_⟩
    calc emin * (emax / emin) ^ _ ≤ emin * (emax / emin) := mul_le_mul_of_nonneg_left l2 h0.le
      _ = emax := by field_simp

/-- **C116 (fluxes).**  The photon flux reported for a band is the sum of the bins of the model on the grid of the band, and the energy flux of a non-negative model lies between
that of as many photons of the lowest and of the highest energy of the band. -/
theorem C116_flux (m : Folding) (hm : m.add = true) (emin emax : ℝ) (h0 : 0 < emin) (h1 : emin < emax) (n : ℕ) (hn : 2 ≤ n) (lg : Bool)
    (hl : WellShaped m.fn) (hp : ∀ v ∈ m.fn (bandGrid emin emax n lg), 0 ≤ v) :
    ∃ ph en, fluxOf m emin emax false false n lg = .ok (.total ph) ∧ fluxOf m emin emax true false n lg = .ok (.total en) ∧
      ph = (m.fn (bandGrid emin emax n lg)).sum ∧ 1.602176634e-9 * emin * ph ≤ en ∧ en ≤ 1.602176634e-9 * emax * ph := by
  refine ⟨_, _, by simp only [fluxOf, checked, hm]; rfl, by simp only [fluxOf, checked, hm]; rfl, ?_⟩
  have e1 : flux m.fn emin emax false n lg = (m.fn (bandGrid emin emax n lg)).sum := by
    unfold flux
    simp only [Bool.false_eq_true, if_false]
    rw [ne_mul_diff (hl _) (bandGrid_step h0 h1 n hn lg)]
  refine ⟨e1, ?_⟩
  rw [e1]
  unfold flux
  simp only [if_true]
  rw [ene_mul_diff (hl _) (bandGrid_step h0 h1 n hn lg)]
  have := pair_sum_le (bandGrid emin emax n lg) keVToErg emin emax (by unfold keVToErg; norm_num) (m.fn (bandGrid emin emax n lg)) hp
    (bandGrid_within h0 h1 n hn lg) h0 (hl _)
  simpa only [keVToErg] using this

/-- **C40 (velocity).**  If the bins of the model are the integrals of a continuum `N`, the bins of the model shifted by the velocity `v` (in km/s) are the integrals of
`f N(f E)` with `f = 1 - v / 299792.458`: the photons of the band from `f a` to `f b` are found between `a` and `b`, none is lost. -/
theorem _root_.Elisa.Models.Spectra.C40_velocity_spectrum (v : ℝ) (hv : v < 299792.458) (model : ModelFn) (N : ℝ → ℝ)
    (hm : ∀ g, Positive g → model g = binIntegrals N g) (egrid : List ℝ) (hp : Positive egrid) :
    vShift v model egrid = binIntegrals (fun E => (1 - v / 299792.458) * N (E * (1 - v / 299792.458))) egrid := by
  have h : 0 < 1 - v / 299792.458 := by
    have : v / 299792.458 < 1 := (div_lt_one (by norm_num)).2 hv
    linarith
  have hc : cKms = 299792.458 := rfl
  unfold vShift
  rw [hc, hm]
  · unfold binIntegrals
    rw [perBin_mapGrid]
    refine perBin_congr fun a _ b _ => ?_
    rw [intervalIntegral.integral_const_mul, intervalIntegral.integral_comp_mul_right N h.ne', smul_eq_mul, ← mul_assoc, mul_inv_cancel₀ h.ne', one_mul]
  · intro e he
    obtain ⟨x, hx, rfl⟩ := List.mem_map.1 he
    exact mul_pos (hp x hx) h

example : vShift 3000 (powerLaw 2 3) [1, 2, 5] = binIntegrals (fun E => (1 - 3000 / 299792.458) * (3 * (E * (1 - 3000 / 299792.458)) ^ (-(2 : ℝ)))) [1, 2, 5] :=
  Elisa.Models.Spectra.C40_velocity_spectrum 3000 (by norm_num) _ (fun E => 3 * E ^ (-(2 : ℝ))) (fun g hg => C36_exact 2 3 g hg) _
    (by intro e he; simp at he; rcases he with rfl | rfl | rfl <;> norm_num)

theorem powerLaw_nonneg (alpha K : ℝ) (hK : 0 ≤ K) (g : List ℝ) (hg : Positive g) (hc : g.IsChain (· < ·)) : ∀ v ∈ powerLaw alpha K g, 0 ≤ v := by
  intro v hv
  rw [C36_exact alpha K g hg] at hv
  obtain ⟨i, hi, rfl⟩ := List.getElem_of_mem hv
  have hlen : i < g.length - 1 := by simpa [binIntegrals, perBin_length] using hi
  have ha : g[i]? = some g[i] := List.getElem?_eq_getElem _
  have hb : g[i + 1]? = some (g[i + 1]'(by omega)) := List.getElem?_eq_getElem _
  have key : (binIntegrals (fun E => K * E ^ (-alpha)) g)[i]? = some (∫ E in g[i]..(g[i + 1]'(by omega)), K * E ^ (-alpha)) := by
    rw [binIntegrals, perBin_getElem?, ha, hb]
  rw [List.getElem?_eq_getElem hi, Option.some.injEq] at key
  rw [key]
  have h0 := hg g[i] (List.getElem_mem _)
  have hlt : g[i] < g[i + 1]'(by omega) := (List.isChain_iff_getElem.1 hc) i (by omega)
  exact intervalIntegral.integral_nonneg hlt.le fun x hx => mul_nonneg hK (Real.rpow_nonneg (h0.le.trans hx.1) _)

example : ∃ ph en, fluxOf (exPL 2 3) 1 10 false false 100 true = .ok (.total ph) ∧ fluxOf (exPL 2 3) 1 10 true false 100 true = .ok (.total en) ∧
    ph = (powerLaw 2 3 (bandGrid 1 10 100 true)).sum ∧ 1.602176634e-9 * 1 * ph ≤ en ∧ en ≤ 1.602176634e-9 * 10 * ph :=
  C116_flux (exPL 2 3) rfl 1 10 one_pos (by norm_num) 100 (by norm_num) true (powerLaw_length 2 3)
    (powerLaw_nonneg 2 3 (by norm_num) _ (bandGrid_pos one_pos (by norm_num) 100 true) (bandGrid_step one_pos (by norm_num) 100 (by norm_num) true))

end Elisa.Models.Density
