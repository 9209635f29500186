import Verif.Models.CatalogueProps
import Verif.Models.BandProps
import Verif.Models.ShapeProps
import Verif.Models.LineProps
import Verif.Models.MulProps

/-!
# C148: every component evaluates its documented formula
-/

namespace Elisa.Models.Catalogue.Doc

open Elisa.Models.Spectra Real MeasureTheory

/-! ## Specification -/

/-- The formulas `N(E)` and `M(E)` in the documentation of the classes: add.py:56-70, 128-142, 206-209, 242-245, 293-296, 345-353, 407-411, 446-450, 485-489,
526-533, 567-571, 600-601, 635-638, 714-728, 758-772, 808-818 and mul.py:41-42, 62-69, 100-101, 124-132, 165-171, 210-217, 246-249 (the photon absorption
components, whose cross sections are tables, are in `C148_photon`). The reference energies of 100 keV and 1 keV are put in; an energy flux is in erg. -/
noncomputable def doc (o : Options) (p : String → ℝ) : Cls → ℝ → ℝ
  | .band, E =>
    if E < (p "alpha" - p "beta") * p "Ec" then p "K" * ((E / 100) ^ p "alpha" * exp (-(E / p "Ec")))
    else p "K" * ((E / 100) ^ p "beta" * exp (p "beta" - p "alpha") * ((p "alpha" - p "beta") * p "Ec" / 100) ^ (p "alpha" - p "beta"))
  | .bandEp, E =>
    if E < (p "alpha" - p "beta") * p "Ep" / (2 + p "alpha") then p "K" * ((E / 100) ^ p "alpha" * exp (-((2 + p "alpha") * E / p "Ep")))
    else p "K" * ((E / 100) ^ p "beta" * exp (p "beta" - p "alpha") *
      ((p "alpha" - p "beta") * p "Ep" / ((2 + p "alpha") * 100)) ^ (p "alpha" - p "beta"))
  | .bentPL, E => 2 * p "K" * (1 + (E / p "Eb") ^ p "alpha")⁻¹
  | .blackbody, E => 8.0525 * p "K" * E ^ 2 / (p "kT" ^ 4 * (exp (E / p "kT") - 1))
  | .blackbodyRad, E => 1.0344e-3 * p "K" * E ^ 2 / (exp (E / p "kT") - 1)
  | .brokenPL, E => p "K" * (if E ≤ p "Eb" then (E / p "Eb") ^ (-p "alpha1") else (E / p "Eb") ^ (-p "alpha2"))
  | .compt, E => p "K" * E ^ (-p "alpha") * exp (-((2 - p "alpha") * E / p "Ep"))
  | .cutoffPL, E => p "K" * E ^ (-p "alpha") * exp (-(E / p "Ec"))
  | .gauss, E => p "K" / (sqrt (2 * π) * p "sigma") * exp (-((E - p "El") ^ 2 / (2 * p "sigma" ^ 2)))
  | .lorentz, E => p "K" / (∫ x in Set.Ioi (0 : ℝ), 1 / ((x - p "El") ^ 2 + (p "sigma" / 2) ^ 2)) / ((E - p "El") ^ 2 + (p "sigma" / 2) ^ 2)
  | .ottb, E => p "K" * E⁻¹ * exp (-(E / p "kT")) * exp (1 / p "kT")
  | .otts, E => p "K" * exp (-((E / p "Ec") ^ (1 / 3 : ℝ)))
  | .powerLaw, E => p "K" * E ^ (-p "alpha")
  | .plPhFlux, E => p "F" * (∫ x in o.emin..o.emax, x ^ (-p "alpha"))⁻¹ * E ^ (-p "alpha")
  | .plEnFlux, E => p "F" / 1.602176634e-9 * (∫ x in o.emin..o.emax, x ^ (-p "alpha") * x)⁻¹ * E ^ (-p "alpha")
  | .smoothlyBrokenPL, E => p "K" * E ^ (-p "alpha1") * (2 * (1 + (E / p "Eb") ^ ((p "alpha2" - p "alpha1") / p "rho"))) ^ (-p "rho")
  | .constant, _ => p "f"
  | .edge, E => if p "Ec" ≤ E then exp (-(p "D" * (E / p "Ec") ^ 3)) else 1
  | .expAbs, E => exp (-(p "Ec" / E))
  | .expFac, E => if p "Ec" ≤ E then 1 + p "A" * exp (-(p "f" * E)) else 1
  | .gAbs, E => exp (-(p "tau" / (sqrt (2 * π) * p "sigma") * exp (-((E - p "El") ^ 2 / (2 * p "sigma" ^ 2)))))
  | .highECut, E => if p "Ec" ≤ E then exp ((p "Ec" - E) / p "Ef") else 1
  | .plAbs, E => p "K" * E ^ (-p "alpha")
  | .phAbs, _ => 0
  | .tbAbs, _ => 0
  | .wAbs, _ => 0

/-- Classes with a formula in closed form that is integrated numerically. -/
def ByRule : Cls → Prop
  | .band | .bandEp | .bentPL | .blackbody | .blackbodyRad | .compt | .cutoffPL | .gauss | .ottb | .otts
  | .edge | .expAbs | .expFac | .gAbs | .highECut => True
  | _ => False

/-- Classes whose bins are computed analytically, except `BrokenPL`. -/
def Analytic : Cls → Prop
  | .lorentz | .powerLaw | .plPhFlux | .plEnFlux | .constant | .plAbs => True
  | _ => False

/-- Where the code evaluates the formula and not a substitute: separated indices of the Band functions; black bodies between `1e-4 kT` and `50 kT`. -/
def Covered (p : String → ℝ) (lo hi : ℝ) : Cls → Prop
  | .band => 1 / p "Ec" ≤ p "alpha" - p "beta"
  | .bandEp => (2 + p "alpha") / p "Ep" ≤ p "alpha" - p "beta"
  | .blackbody => 1e-4 * p "kT" < lo ∧ hi < 50 * p "kT"
  | .blackbodyRad => 1e-4 * p "kT" < lo ∧ hi < 50 * p "kT"
  | _ => True

/-- The trapezoidal rule or Simpson's rule for the mean of `f` over a bin. -/
noncomputable def mean (simpson : Bool) (f : ℝ → ℝ) (a b : ℝ) : ℝ :=
  if simpson then (f a + 4 * f ((a + b) / 2) + f b) / 6 else (f a + f b) / 2

/-- What a bin should hold: photons in the bin for an additive component, the mean factor for a multiplicative one. -/
noncomputable def binned (c : Cls) (m a b : ℝ) : ℝ := if c.type = .add then (b - a) * m else m

/-! ## Points -/

theorem formula_doc {o : Options} {p : String → ℝ} {c : Cls} (hc : ByRule c) (hw : Within c.config p) (hr : Regular o p c) {e lo hi : ℝ} (he : 0 < e)
    (hcov : Covered p lo hi c) (hlo : lo ≤ e) (hhi : e ≤ hi) : formula o p c e = doc o p c e := by
  cases c <;> simp only [ByRule] at hc
  all_goals simp only [Within, Cls.config, List.forall_mem_cons, List.not_mem_nil, false_imp_iff, implies_true, and_true] at hw
  case band =>
    obtain ⟨-, -, ⟨hE, -⟩, hK, -⟩ := hw
    have hE' : 0 < p "Ec" := by linarith
    simp only [formula, doc]
    rw [C39_documented_partial _ _ _ _ _ hE' he hcov, bandDoc, neg_div]
  case bandEp =>
    obtain ⟨⟨ha, -⟩, -, ⟨hE, -⟩, hK, -⟩ := hw
    have hE' : 0 < p "Ep" := by linarith
    have ha' : 0 < 2 + p "alpha" := by norm_num at ha; linarith
    have hc : 0 < p "Ep" / (2 + p "alpha") := by positivity
    have hsep : 1 / (p "Ep" / (2 + p "alpha")) ≤ p "alpha" - p "beta" := by rw [one_div_div]; exact hcov
    simp only [formula, doc]
    rw [C39_bandEp_eq_band_partial _ _ _ _ _ hsep, C39_documented_partial _ _ _ _ _ hc he hsep, bandDoc]
    have e1 : (p "alpha" - p "beta") * (p "Ep" / (2 + p "alpha")) = (p "alpha" - p "beta") * p "Ep" / (2 + p "alpha") := by ring
    have e2 : -e / (p "Ep" / (2 + p "alpha")) = -((2 + p "alpha") * e / p "Ep") := by field_simp
    have e3 : (p "alpha" - p "beta") * p "Ep" / (2 + p "alpha") / 100 = (p "alpha" - p "beta") * p "Ep" / ((2 + p "alpha") * 100) := by rw [div_div]
    rw [e1, e2, e3]
  case bentPL => simp only [formula, doc, Spectra.bentPL]; ring
  case blackbody =>
    obtain ⟨⟨hT, -⟩, hK, -⟩ := hw
    have hT' : 0 < p "kT" := lt_of_lt_of_le (by norm_num) hT
    exact (C64_blackbody_exact _ _ _ hT' (hcov.1.trans_le hlo) (hhi.trans_lt hcov.2)).1
  case blackbodyRad =>
    obtain ⟨⟨hT, -⟩, hK, -⟩ := hw
    have hT' : 0 < p "kT" := lt_of_lt_of_le (by norm_num) hT
    exact (C64_blackbody_exact _ (p "K") _ hT' (hcov.1.trans_le hlo) (hhi.trans_lt hcov.2)).2
  case compt =>
    simp only [formula, doc, Spectra.compt]
    congr 2; ring
  case cutoffPL => simp only [formula, doc, Spectra.cutoffPL, neg_div]
  case gauss =>
    simp only [formula, doc]
    rw [gauss_doc, gaussDoc]
    try ring_nf
  case ottb =>
    simp only [formula, doc, Spectra.ottb]
    rw [mul_assoc, ← exp_add, show -(e / p "kT") + 1 / p "kT" = (1 - e) / p "kT" by ring]
    ring
  case otts => simp only [formula, doc, Spectra.otts]
  case edge =>
    simp only [formula, doc, Spectra.edge, ge_iff_le]
    split_ifs
    · rw [neg_mul]; congr 3; norm_cast
    · rfl
  case expAbs => simp only [formula, doc, Spectra.expAbs, neg_div]
  case expFac => simp only [formula, doc, Spectra.expFac, ge_iff_le, neg_mul]
  case gAbs =>
    simp only [formula, doc, Spectra.gAbs]
    congr 1
    rw [neg_div, neg_mul]
    congr 3
    rw [rpow_two, div_pow]
    ring
  case highECut => simp only [formula, doc, Spectra.highECut, ge_iff_le]

/-! ## Bins -/

theorem rule_eq {c : Cls} {f : ℝ → ℝ} {s : Bool} {a b v : ℝ}
    (h : (if s then Spectra.simpson (c.type = .add) f [a, b] else Spectra.trapz (c.type = .add) f [a, b]) = [v]) : v = binned c (mean s f a b) a b := by
  have hm : 0.5 * (a + b) = (a + b) / 2 := by ring
  cases s
  · simp only [Bool.false_eq_true, if_false, Spectra.trapz, perBin, List.tail_cons, List.zipWith_cons_cons, List.zipWith_nil_left, List.cons.injEq, and_true] at h
    rw [← h]
    simp only [binned, mean, Bool.false_eq_true, if_false]
    by_cases hc : c.type = .add <;> simp only [hc, decide_true, decide_false, if_true, if_false, Bool.false_eq_true] <;> ring
  · simp only [if_true, Spectra.simpson, perBin, List.tail_cons, List.zipWith_cons_cons, List.zipWith_nil_left, List.cons.injEq, and_true, hm] at h
    rw [← h]
    simp only [binned, mean, if_true]
    by_cases hc : c.type = .add <;> simp only [hc, decide_true, decide_false, if_true, if_false, Bool.false_eq_true] <;> ring

/-- **C148 (numerical integration).**  With parameters inside the declared bounds, every bin of a numerically integrated component holds the trapezoidal rule, or Simpson's,
for the documented formula.

`_partial`: not where the code puts something else in the place of the formula (`Covered`: Band functions with nearly equal indices, black bodies far from their
temperature), where the formula is no number (`Regular`), and not for `SmoothlyBrokenPL` (`C148_refuted`). -/
theorem C148_rule_partial (o : Options) (p : String → ℝ) (c : Cls) (hc : ByRule c) (hw : Within c.config p) (hr : Regular o p c) (g : List ℝ)
    (hp : Positive g) (hg : Increasing g) (i : ℕ) (a b : ℝ) (ha : g[i]? = some a) (hb : g[i + 1]? = some b) (hcov : Covered p a b c) :
    (eval o p c g)[i]? = some (some (binned c (mean o.simpson (doc o p c) a b) a b)) := by
  obtain ⟨v, hv, -, he⟩ := (C133_component_partial o p c hw hr g hp hg).2 i a b ha hb
  rw [hv]
  obtain ⟨hia, rfl⟩ := List.getElem?_eq_some_iff.1 ha
  obtain ⟨hib, rfl⟩ := List.getElem?_eq_some_iff.1 hb
  have hlt : g[i] < g[i + 1] := (List.isChain_iff_getElem.1 hg) i (by omega)
  have h0 : 0 < g[i] := hp _ (List.getElem_mem _)
  have h1 : 0 < g[i + 1] := h0.trans hlt
  have hplain : (if o.simpson then Spectra.simpson (c.type = .add) (formula o p c) [g[i], g[i + 1]] else
      Spectra.trapz (c.type = .add) (formula o p c) [g[i], g[i + 1]]) = [v] := by
    rw [← he]
    cases c <;> simp only [ByRule] at hc <;> simp only [plain] <;> split_ifs <;> rfl
  have hf : ∀ e, g[i] ≤ e → e ≤ g[i + 1] → formula o p c e = doc o p c e := fun e k1 k2 => formula_doc hc hw hr (h0.trans_le k1) hcov k1 k2
  rw [rule_eq hplain, mean, mean, hf _ le_rfl hlt.le, hf _ hlt.le le_rfl, hf ((g[i] + g[i + 1]) / 2) (by linarith) (by linarith)]

/-- **C148 (exact integration).**  With parameters inside the declared bounds, every bin of an analytically integrated component is the exact integral (the exact mean, for a
multiplicative component) of the documented formula over the bin.

`_partial`: not for the index 1 of `PLAbs` (`Regular`), and not for `BrokenPL` (`C148_refuted`). -/
theorem C148_exact_partial (o : Options) (p : String → ℝ) (c : Cls) (hc : Analytic c) (hw : Within c.config p) (hr : Regular o p c) (g : List ℝ)
    (hp : Positive g) (hg : Increasing g) (i : ℕ) (a b : ℝ) (ha : g[i]? = some a) (hb : g[i + 1]? = some b) :
    (eval o p c g)[i]? = some (some (binned c ((∫ E in a..b, doc o p c E) / (b - a)) a b)) := by
  obtain ⟨v, hv, -, he⟩ := (C133_component_partial o p c hw hr g hp hg).2 i a b ha hb
  rw [hv]
  obtain ⟨hia, rfl⟩ := List.getElem?_eq_some_iff.1 ha
  obtain ⟨hib, rfl⟩ := List.getElem?_eq_some_iff.1 hb
  have hlt : g[i] < g[i + 1] := (List.isChain_iff_getElem.1 hg) i (by omega)
  have h0 : 0 < g[i] := hp _ (List.getElem_mem _)
  have hd : g[i + 1] - g[i] ≠ 0 := (sub_pos.2 hlt).ne'
  have hpos : Positive [g[i], g[i + 1]] := by
    intro e he'
    simp only [List.mem_cons, List.not_mem_nil, or_false] at he'
    rcases he' with rfl | rfl
    exacts [h0, h0.trans hlt]
  have one : ∀ N : ℝ → ℝ, binIntegrals N [g[i], g[i + 1]] = [∫ E in g[i]..g[i + 1], N E] := fun N => by simp [binIntegrals, perBin]
  congr 2
  cases c <;> simp only [Analytic] at hc
  all_goals simp only [binned, Cls.type, if_true, mul_div_cancel₀ _ hd, reduceCtorEq, if_false]
  all_goals simp only [Within, Cls.config, List.forall_mem_cons, List.not_mem_nil, false_imp_iff, implies_true, and_true] at hw
  all_goals simp only [plain] at he
  case lorentz =>
    obtain ⟨⟨h1, -⟩, ⟨h2, -⟩, -⟩ := hw
    rw [C55_exact _ _ _ (le_trans (by norm_num) h1) (lt_of_lt_of_le (by norm_num) h2), one] at he
    exact (List.cons.inj he).1.symm
  case powerLaw =>
    rw [C36_exact _ _ _ hpos, one] at he
    exact (List.cons.inj he).1.symm
  case plPhFlux =>
    have hI := rpow_integral_pos hr.1 hr.2 (-p "alpha")
    obtain ⟨N, ⟨A, rfl⟩, hF, hN⟩ := C38_photon o.emin o.emax (p "alpha") (p "F") hr.1 hr.2
    rw [intervalIntegral.integral_const_mul] at hF
    have hA : A = p "F" * (∫ x in o.emin..o.emax, x ^ (-p "alpha"))⁻¹ := by rw [← hF]; field_simp
    rw [hN _ hpos, one] at he
    rw [← (List.cons.inj he).1, hA]; rfl
  case plEnFlux =>
    obtain ⟨N, ⟨A, rfl⟩, hF, hN⟩ := C38_energy o.emin o.emax (p "alpha") (p "F") hr.1 hr.2
    have hI : 0 < ∫ x in o.emin..o.emax, x ^ (-p "alpha") * x := by
      have e : ∫ x in o.emin..o.emax, x ^ (-p "alpha") * x = ∫ x in o.emin..o.emax, x ^ (-p "alpha" + 1) := by
        refine intervalIntegral.integral_congr fun x hx => ?_
        rw [Set.uIcc_of_le hr.2.le] at hx
        rw [rpow_add (hr.1.trans_le hx.1), rpow_one]
      rw [e]; exact rpow_integral_pos hr.1 hr.2 _
    have hA : A = p "F" / 1.602176634e-9 * (∫ x in o.emin..o.emax, x ^ (-p "alpha") * x)⁻¹ := by
      have e : ∫ E in o.emin..o.emax, 1.602176634e-9 * (E * (A * E ^ (-p "alpha"))) = 1.602176634e-9 * A * ∫ x in o.emin..o.emax, x ^ (-p "alpha") * x := by
        rw [← intervalIntegral.integral_const_mul]
        refine intervalIntegral.integral_congr fun x _ => ?_
        ring
      rw [← hF, e]
      field_simp
    rw [hN _ hpos, one] at he
    rw [← (List.cons.inj he).1, hA]; rfl
  case constant =>
    simp only [Spectra.constant, List.length_cons, List.length_nil] at he
    have : v = p "f" := by simpa using he.symm
    rw [this]
    simp only [doc, intervalIntegral.integral_const, smul_eq_mul]
    rw [mul_div_cancel_left₀ _ hd]
  case plAbs =>
    rw [C66_plabs_partial _ _ hr _ hpos] at he
    have : v = (∫ E in g[i]..g[i + 1], p "K" * E ^ (-p "alpha")) / (g[i + 1] - g[i]) := by
      simpa [binAverages, perBin] using he.symm
    rw [this]; rfl

/-! ## The photon absorption components -/

/-- `σ` follows a table of energies and cross sections: a power law of energy between two consecutive entries. -/
def Follows (table : List (ℝ × ℝ)) (σ : ℝ → ℝ) : Prop :=
  ∀ (i : ℕ) (h : i + 1 < table.length) (E : ℝ), table[i].1 ≤ E → E ≤ table[i + 1].1 →
    σ E = table[i].2 * (E / table[i].1) ^ (log (table[i + 1].2 / table[i].2) / log (table[i + 1].1 / table[i].1))

theorem locate : ∀ (l : List (ℝ × ℝ)) (x y : ℝ × ℝ) (e : ℝ), x.1 ≤ e → (∃ z, (x :: y :: l).getLast? = some z ∧ e ≤ z.1) →
    ∃ (i : ℕ) (h : i + 1 < (x :: y :: l).length), (x :: y :: l)[i].1 ≤ e ∧ e ≤ (x :: y :: l)[i + 1].1
  | [], x, y, e, hx, ⟨z, hz, he⟩ => ⟨0, by simp, hx, by simp at hz; simpa [hz] using he⟩
  | w :: l, x, y, e, hx, ⟨z, hz, he⟩ => by
    rcases le_total e y.1 with h | h
    · exact ⟨0, by simp, hx, h⟩
    · obtain ⟨i, hi, h1, h2⟩ := locate l y w e h ⟨z, by simpa using hz, he⟩
      exact ⟨i + 1, by simpa using hi, by simpa using h1, by simpa using h2⟩

theorem crossSection_follows {table : List (ℝ × ℝ)} (h : TableOk table) {σ : ℝ → ℝ} (hσ : Follows table σ) {e : ℝ}
    (h1 : ∃ t, table.head? = some t ∧ t.1 ≤ e) (h2 : ∃ t, table.getLast? = some t ∧ e ≤ t.1) (hl : 2 ≤ table.length) : crossSection table e = σ e := by
  obtain ⟨i, hi, k1, k2⟩ : ∃ (i : ℕ) (h : i + 1 < table.length), table[i].1 ≤ e ∧ e ≤ table[i + 1].1 := by
    match table, hl, h1, h2 with
    | x :: y :: l, _, ⟨t, ht, hte⟩, hz =>
      simp only [List.head?_cons, Option.some.injEq] at ht
      exact locate l x y e (ht ▸ hte) hz
  rw [hσ i hi e k1 k2]
  have hs := table_log_increasing h
  have p1 := h.pos _ (List.getElem_mem (show i < table.length by omega))
  have p2 := h.pos _ (List.getElem_mem hi)
  have he : 0 < e := p1.1.trans_le k1
  have l1 : log table[i].1 ≤ log e := log_le_log p1.1 k1
  have l2 : log e ≤ log table[i + 1].1 := log_le_log he k2
  unfold crossSection
  rw [interp_between hs (by simp) i (by simpa using hi) _ (by simpa using l1) (by simpa using l2)]
  simp only [List.getElem_map]
  rw [rpow_def_of_pos (div_pos he p1.1), log_div he.ne' p1.1.ne', log_div p2.2.ne' p1.2.ne', log_div p2.1.ne' p1.1.ne', exp_add, exp_log p1.2]
  congr 2
  ring

/-- **C148 (photon absorption).**  Inside the energy range of the table the photon absorption components integrate `exp(-nH σ(E))`, with the cross section a power law of energy
between two consecutive entries of the table. -/
theorem C148_photon (o : Options) (p : String → ℝ) (c : Cls) (hc : c = .phAbs ∨ c = .tbAbs ∨ c = .wAbs) (hw : Within c.config p) (ht : TableOk o.table)
    (hl : 2 ≤ o.table.length) (σ : ℝ → ℝ) (hσ : Follows o.table σ) (g : List ℝ) (hp : Positive g) (hg : Increasing g) (i : ℕ) (a b : ℝ)
    (ha : g[i]? = some a) (hb : g[i + 1]? = some b) (h1 : ∃ t, o.table.head? = some t ∧ t.1 ≤ a) (h2 : ∃ t, o.table.getLast? = some t ∧ b ≤ t.1) :
    (eval o p c g)[i]? = some (some (mean o.simpson (fun E => exp (-(p "nH" * σ E))) a b)) := by
  have hr : Regular o p c := by rcases hc with rfl | rfl | rfl <;> trivial
  obtain ⟨v, hv, -, he⟩ := (C133_component_partial o p c hw hr g hp hg).2 i a b ha hb
  rw [hv]
  obtain ⟨hia, rfl⟩ := List.getElem?_eq_some_iff.1 ha
  obtain ⟨hib, rfl⟩ := List.getElem?_eq_some_iff.1 hb
  have hlt : g[i] < g[i + 1] := (List.isChain_iff_getElem.1 hg) i (by omega)
  have hplain : (if o.simpson then Spectra.simpson (c.type = .add) (formula o p c) [g[i], g[i + 1]] else
      Spectra.trapz (c.type = .add) (formula o p c) [g[i], g[i + 1]]) = [v] := by
    rw [← he]
    rcases hc with rfl | rfl | rfl <;> simp only [plain] <;> split_ifs <;> rfl
  have hf : ∀ e, g[i] ≤ e → e ≤ g[i + 1] → formula o p c e = exp (-(p "nH" * σ e)) := fun e k1 k2 => by
    obtain ⟨t, t1, t2⟩ := h1
    obtain ⟨s, s1, s2⟩ := h2
    have := crossSection_follows ht hσ (e := e) ⟨t, t1, t2.trans k1⟩ ⟨s, s1, k2.trans s2⟩ hl
    rcases hc with rfl | rfl | rfl <;> simp only [formula, photonAbs, this, neg_mul]
  have hty : c.type ≠ .add := by rcases hc with rfl | rfl | rfl <;> simp [Cls.type]
  rw [rule_eq hplain, binned, if_neg hty, mean, mean, hf _ le_rfl hlt.le, hf _ hlt.le le_rfl, hf ((g[i] + g[i + 1]) / 2) (by linarith) (by linarith)]

/-! ## The two power laws with a break -/

/-- **C148 (smoothly broken power law).**  The bins of `SmoothlyBrokenPL` are those of the documented formula times the constant `4^rho Eb^alpha1`, up to a relative excess
of at most `(1 + e⁻³⁰)^rho - 1`. -/
theorem C148_smooth (o : Options) (p : String → ℝ) (hw : Within Cls.smoothlyBrokenPL.config p) (g : List ℝ)
    (hp : Positive g) (hg : Increasing g) (i : ℕ) (a b : ℝ) (ha : g[i]? = some a) (hb : g[i + 1]? = some b) :
    ∃ v, (eval o p .smoothlyBrokenPL g)[i]? = some (some v) ∧
      4 ^ p "rho" * p "Eb" ^ p "alpha1" * ((b - a) * mean o.simpson (doc o p .smoothlyBrokenPL) a b) ≤ v ∧
      v ≤ (1 + exp (-30)) ^ p "rho" * (4 ^ p "rho" * p "Eb" ^ p "alpha1" * ((b - a) * mean o.simpson (doc o p .smoothlyBrokenPL) a b)) := by
  obtain ⟨v, hv, -, he⟩ := (C133_component_partial o p .smoothlyBrokenPL hw trivial g hp hg).2 i a b ha hb
  refine ⟨v, hv, ?_⟩
  obtain ⟨hia, rfl⟩ := List.getElem?_eq_some_iff.1 ha
  obtain ⟨hib, rfl⟩ := List.getElem?_eq_some_iff.1 hb
  have hlt : g[i] < g[i + 1] := (List.isChain_iff_getElem.1 hg) i (by omega)
  have h0 : 0 < g[i] := hp _ (List.getElem_mem _)
  have hplain : (if o.simpson then Spectra.simpson (Cls.type .smoothlyBrokenPL = .add) (formula o p .smoothlyBrokenPL) [g[i], g[i + 1]] else
      Spectra.trapz (Cls.type .smoothlyBrokenPL = .add) (formula o p .smoothlyBrokenPL) [g[i], g[i + 1]]) = [v] := by
    rw [← he]
    simp only [plain]; split_ifs <;> rfl
  simp only [Within, Cls.config, List.forall_mem_cons, List.not_mem_nil, false_imp_iff, implies_true, and_true] at hw
  obtain ⟨-, ⟨hE, -⟩, -, ⟨hr, -⟩, hK, -⟩ := hw
  have hE' : 0 < p "Eb" := lt_of_lt_of_le (by norm_num) hE
  have hr' : 0 < p "rho" := lt_of_lt_of_le (by norm_num) hr
  have hK' : 0 ≤ p "K" := le_trans (by norm_num) hK
  have hf : ∀ e, 0 < e → 4 ^ p "rho" * p "Eb" ^ p "alpha1" * doc o p .smoothlyBrokenPL e ≤ formula o p .smoothlyBrokenPL e ∧
      formula o p .smoothlyBrokenPL e ≤ (1 + exp (-30)) ^ p "rho" * (4 ^ p "rho" * p "Eb" ^ p "alpha1" * doc o p .smoothlyBrokenPL e) := fun e k => by
    have := C64_sbpl (p "alpha1") (p "Eb") (p "alpha2") (p "rho") (p "K") e hE' hr' hK' k
    rw [C64_sbpl_doc_factor _ _ _ _ _ _ hE' k] at this
    exact this
  rw [rule_eq hplain]
  simp only [binned, Cls.type, if_true]
  have ka := hf _ h0
  have kb := hf _ (h0.trans hlt)
  have km := hf ((g[i] + g[i + 1]) / 2) (by linarith)
  have hd := sub_pos.2 hlt
  generalize 4 ^ p "rho" * p "Eb" ^ p "alpha1" = F at *
  generalize (1 + exp (-30)) ^ p "rho" = X at *
  constructor
  · rw [mul_left_comm]
    refine mul_le_mul_of_nonneg_left ?_ hd.le
    unfold mean
    split_ifs <;> linarith [ka.1, kb.1, km.1]
  · rw [mul_left_comm F, mul_left_comm X]
    refine mul_le_mul_of_nonneg_left ?_ hd.le
    unfold mean
    split_ifs <;> linarith [ka.2, kb.2, km.2]

/-- **C148 (broken power law).**  The bins of `BrokenPL` without the break inside are the integrals of the documented formula divided by the break energy. -/
theorem C148_broken (o : Options) (p : String → ℝ) (hw : Within Cls.brokenPL.config p) (g : List ℝ)
    (hp : Positive g) (hg : Increasing g) (i : ℕ) (a b : ℝ) (ha : g[i]? = some a) (hb : g[i + 1]? = some b) (hside : b ≤ p "Eb" ∨ p "Eb" < a) :
    (eval o p .brokenPL g)[i]? = some (some ((∫ E in a..b, doc o p .brokenPL E) / p "Eb")) := by
  obtain ⟨v, hv, -, he⟩ := (C133_component_partial o p .brokenPL hw trivial g hp hg).2 i a b ha hb
  rw [hv]
  obtain ⟨hia, rfl⟩ := List.getElem?_eq_some_iff.1 ha
  obtain ⟨hib, rfl⟩ := List.getElem?_eq_some_iff.1 hb
  have hlt : g[i] < g[i + 1] := (List.isChain_iff_getElem.1 hg) i (by omega)
  have h0 : 0 < g[i] := hp _ (List.getElem_mem _)
  simp only [Within, Cls.config, List.forall_mem_cons, List.not_mem_nil, false_imp_iff, implies_true, and_true] at hw
  have hE' : 0 < p "Eb" := lt_of_lt_of_le (by norm_num) hw.2.1.1
  have := C37_up_to_scale_partial (p "alpha1") (p "Eb") (p "alpha2") (p "K") _ _ h0 hlt hE' hside
  simp only [plain] at he
  rw [he] at this
  have hd : ∀ E, brokenPLDoc (p "alpha1") (p "Eb") (p "alpha2") (p "K") E = doc o p .brokenPL E := fun E => by
    simp only [brokenPLDoc, doc]; split_ifs <;> rfl
  simp only [binIntegrals, perBin, List.map_cons, List.map_nil, List.tail_cons, List.zipWith_cons_cons, List.zipWith_nil_left, List.cons.injEq, and_true, hd] at this
  rw [← this, mul_div_cancel_left₀ _ hE'.ne']

/-- The default value of every parameter of a class. -/
noncomputable def defaults (c : Cls) : String → ℝ := fun n => (((c.config.find? fun b => b.name = n)).map Bound.default).getD 0

/-- **C148 (refuted).**  As created, with all parameters at their defaults, `BrokenPL` holds a fifth of the documented photons in every bin below its break and
`SmoothlyBrokenPL` at least twenty times the documented ones in every bin; a Band function with equal indices, which the bounds allow, is not the documented power law. -/
theorem C148_refuted (o : Options) (a b : ℝ) (ha : 0 < a) (hab : a < b) :
    (b ≤ 5 → eval o (defaults .brokenPL) .brokenPL [a, b] = [some ((∫ E in a..b, doc o (defaults .brokenPL) .brokenPL E) / 5)]) ∧
    (∃ v, eval o (defaults .smoothlyBrokenPL) .smoothlyBrokenPL [a, b] = [some v] ∧
      20 * ((b - a) * mean o.simpson (doc o (defaults .smoothlyBrokenPL) .smoothlyBrokenPL) a b) ≤ v) ∧
    (∃ p, Within Cls.band.config p ∧ ∀ E, 1 ≤ E → ∃ v, continuum o p .band E = some v ∧ v < doc o p .band E) := by
  have hp : Positive [a, b] := by
    intro e he'
    simp only [List.mem_cons, List.not_mem_nil, or_false] at he'
    rcases he' with rfl | rfl
    exacts [ha, ha.trans hab]
  have hg : Increasing [a, b] := by simpa [Increasing] using hab
  have one : ∀ (p : String → ℝ) (c : Cls), eval o p c [a, b] = [binValue o p c a b] := fun p c => by simp [eval, perBin]
  refine ⟨fun h5 => ?_, ?_, ?_⟩
  · have := C148_broken o (defaults .brokenPL) (by simp [Within, Cls.config, defaults]; norm_num) [a, b] hp hg 0 a b rfl rfl
      (by left; simpa [defaults, Cls.config] using h5)
    rw [one] at this ⊢
    simp only [List.getElem?_cons_zero, Option.some.injEq] at this
    rw [this]
    simp [defaults, Cls.config]
  · obtain ⟨v, hv, h1, -⟩ := C148_smooth o (defaults .smoothlyBrokenPL) (by simp [Within, Cls.config, defaults]; norm_num) [a, b] hp hg 0 a b rfl rfl
    rw [one] at hv ⊢
    simp only [List.getElem?_cons_zero, Option.some.injEq] at hv
    refine ⟨v, by rw [hv], le_trans (le_of_eq ?_) h1⟩
    have e1 : defaults .smoothlyBrokenPL "rho" = 1 := by simp [defaults, Cls.config]
    have e2 : defaults .smoothlyBrokenPL "Eb" = 5 := by simp [defaults, Cls.config]
    have e3 : defaults .smoothlyBrokenPL "alpha1" = 1 := by simp [defaults, Cls.config]
    rw [e1, e2, e3]
    norm_num
  · refine ⟨fun n => if n = "alpha" then -1 else if n = "beta" then -1 else if n = "Ec" then 100 else 1, ?_, fun E hE => ?_⟩
    · simp [Within, Cls.config]; norm_num
    · have hE0 : 0 < E / 100 := by linarith
      have hl : log (1 / 100) < 0 := log_neg (by norm_num) (by norm_num)
      refine ⟨exp (1 / 100 * log (1 / 100 * 100 / 100) - 1 / 100 + -1 * log (E / 100)), ?_, ?_⟩
      · have h1 : ¬ E < 1 := not_lt.2 hE
        simp [continuum, bandTail, qdiv, qlog, hE0, h1]
        try norm_num
      · simp only [doc, String.reduceEq, if_false, if_true, sub_self, zero_mul, not_lt.2 (by linarith : (0 : ℝ) ≤ E), zero_div, rpow_zero, exp_zero, mul_one, one_mul]
        rw [rpow_def_of_pos hE0, exp_lt_exp]
        rw [show (1 : ℝ) / 100 * 100 / 100 = 1 / 100 by norm_num]
        nlinarith

/-! ## Concrete cases -/

/-- Settings used in the examples. -/
def exOpt : Options := ⟨true, 1, 10, [(1, 5), (2, 3), (4, 1)]⟩

theorem exGrid : Positive [1, 2, 4] ∧ Increasing [1, 2, 4] := by
  constructor
  · intro e he; simp at he; rcases he with rfl | rfl | rfl <;> norm_num
  · norm_num [Increasing]

example := C148_rule_partial exOpt (defaults .compt) .compt trivial (by simp [Within, Cls.config, defaults]; norm_num) trivial [1, 2, 4] exGrid.1 exGrid.2 1 2 4 rfl rfl trivial
example := C148_rule_partial exOpt (defaults .band) .band trivial (by simp [Within, Cls.config, defaults]; norm_num) trivial [1, 2, 4] exGrid.1 exGrid.2 1 2 4 rfl rfl
  (by simp [Covered, Cls.config, defaults]; norm_num)
example := C148_rule_partial exOpt (defaults .blackbody) .blackbody trivial (by simp [Within, Cls.config, defaults]; norm_num) trivial [1, 2, 4] exGrid.1 exGrid.2 1 2 4 rfl rfl
  (by simp [Covered, Cls.config, defaults]; norm_num)
example := C148_exact_partial exOpt (defaults .plEnFlux) .plEnFlux trivial (by simp [Within, Cls.config, defaults]; norm_num) (by simp [Regular, exOpt]) [1, 2, 4]
  exGrid.1 exGrid.2 1 2 4 rfl rfl
example (σ : ℝ → ℝ) (hσ : Follows exOpt.table σ) := C148_photon exOpt (defaults .tbAbs) .tbAbs (by simp) (by simp [Within, Cls.config, defaults]; norm_num)
  ⟨by simp [exOpt], by simp [exOpt]; norm_num⟩ (by simp [exOpt]) σ hσ [1, 2, 4] exGrid.1 exGrid.2 1 2 4 rfl rfl ⟨(1, 5), rfl, by norm_num⟩ ⟨(4, 1), rfl, by norm_num⟩
/-- There is a function that follows the table. -/
example : ∃ σ, Follows exOpt.table σ :=
  ⟨crossSection exOpt.table, fun i h E h1 h2 => by
    have ht : TableOk exOpt.table := ⟨by simp [exOpt], by simp [exOpt]; norm_num⟩
    have hs := table_log_increasing ht
    have p1 := ht.pos _ (List.getElem_mem (show i < exOpt.table.length by omega))
    have p2 := ht.pos _ (List.getElem_mem h)
    have he : 0 < E := p1.1.trans_le h1
    unfold crossSection
    rw [interp_between hs (by simp) i (by simpa using h) _ (by simpa using log_le_log p1.1 h1) (by simpa using log_le_log he h2)]
    simp only [List.getElem_map]
    rw [rpow_def_of_pos (div_pos he p1.1), log_div he.ne' p1.1.ne', log_div p2.2.ne' p1.2.ne', log_div p2.1.ne' p1.1.ne', exp_add, exp_log p1.2]
    congr 2
    ring⟩
example := C148_refuted exOpt 1 2 one_pos (by norm_num)

end Elisa.Models.Catalogue.Doc
