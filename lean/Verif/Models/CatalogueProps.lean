import Verif.Models.Catalogue
import Verif.Models.AlgebraProps
import Verif.Models.MulProps
import Verif.Models.LineProps
import Verif.Models.QuadProps
import Verif.Models.DensityProps
import Mathlib.Tactic

/-!
# C133: library models are numbers and not negative for all parameters within the default bounds
-/

namespace Elisa.Models.Catalogue

open Elisa.Models.Spectra Elisa.Models.Algebra Real

/-! ## Specification -/

/-- All parameters are within the bounds the class declares. -/
def Within (cfg : List Bound) (p : String → ℝ) : Prop := ∀ b ∈ cfg, b.min ≤ p b.name ∧ p b.name ≤ b.max

/-- What the declared bounds do not exclude and the formulas cannot take: a line without width, an edge at zero energy, the index
1 of `PLAbs`; the flux band of `PLPhFlux` and `PLEnFlux` must be a band of positive energies. -/
def Regular (o : Options) (p : String → ℝ) : Cls → Prop
  | .gauss => p "sigma" ≠ 0
  | .gAbs => p "sigma" ≠ 0
  | .edge => p "Ec" ≠ 0
  | .plAbs => p "alpha" ≠ 1
  | .plPhFlux => 0 < o.emin ∧ o.emin < o.emax
  | .plEnFlux => 0 < o.emin ∧ o.emin < o.emax
  | _ => True

/-! ## Checked arithmetic -/

theorem qdiv_some {a b : ℝ} (h : b ≠ 0) : qdiv a b = some (a / b) := if_neg h
theorem qlog_some {a : ℝ} (h : 0 < a) : qlog a = some (log a) := if_pos h
theorem qpow_some {a b : ℝ} (h : 0 < a) : qpow a b = some (a ^ b) := if_pos h

section
variable {o : Options} {p : String → ℝ}

theorem bandTail_some {alpha beta Ec K amb Ebreak e : ℝ} (he : 0 < e) (hE : 0 < Ec) (ha : 0 < amb) (hK : 0 ≤ K) :
    ∃ v, bandTail alpha beta Ec K amb Ebreak e = some v ∧ 0 ≤ v ∧
      v = K * exp (if e < Ebreak then alpha * log (e / 100) - e / Ec else amb * log (amb * Ec / 100) - amb + beta * log (e / 100)) := by
  unfold bandTail
  have h1 : qlog (e / 100) = some (log (e / 100)) := qlog_some (by positivity)
  have h2 : qlog (amb * Ec / 100) = some (log (amb * Ec / 100)) := qlog_some (by positivity)
  split_ifs
  · exact ⟨_, by rw [h1, qdiv_some hE.ne']; rfl, by positivity, rfl⟩
  · exact ⟨_, by rw [h1, h2]; rfl, by positivity, rfl⟩

theorem blackTail_some {x low num : ℝ} (hl : 0 ≤ low) (hn : 0 ≤ num) :
    ∃ v, blackTail x low num = some v ∧ 0 ≤ v ∧ v = if x ≤ 1e-4 then low else if x ≥ 50 then 0 else num / (exp (if x ≥ 50 then 1 else x) - 1) := by
  unfold blackTail
  split_ifs with h1 h2
  · exact ⟨_, rfl, hl, rfl⟩
  · exact ⟨_, rfl, le_rfl, rfl⟩
  · have hx : 0 < x := lt_trans (by norm_num) (not_le.1 h1)
    have : 0 < exp x - 1 := by have := Real.one_lt_exp_iff.2 hx; linarith
    exact ⟨_, qdiv_some this.ne', by positivity, rfl⟩

/-- The plain formula of a numerically integrated class (`Verif.Models.Spectra`, `Mul`, `Line`). -/
noncomputable def formula (o : Options) (p : String → ℝ) : Cls → ℝ → ℝ
  | .band => Spectra.band (p "alpha") (p "beta") (p "Ec") (p "K")
  | .bandEp => Spectra.bandEp (p "alpha") (p "beta") (p "Ep") (p "K")
  | .bentPL => Spectra.bentPL (p "alpha") (p "Eb") (p "K")
  | .blackbody => Spectra.blackbody (p "kT") (p "K")
  | .blackbodyRad => Spectra.blackbodyRad (p "kT") (p "K")
  | .compt => Spectra.compt (p "alpha") (p "Ep") (p "K")
  | .cutoffPL => Spectra.cutoffPL (p "alpha") (p "Ec") (p "K")
  | .gauss => Spectra.gauss (p "El") (p "sigma") (p "K")
  | .ottb => Spectra.ottb (p "kT") (p "K")
  | .otts => Spectra.otts (p "Ec") (p "K")
  | .smoothlyBrokenPL => Spectra.smoothlyBrokenPL (p "alpha1") (p "Eb") (p "alpha2") (p "rho") (p "K")
  | .edge => Spectra.edge (p "Ec") (p "D")
  | .expAbs => Spectra.expAbs (p "Ec")
  | .expFac => Spectra.expFac (p "A") (p "f") (p "Ec")
  | .gAbs => Spectra.gAbs (p "El") (p "sigma") (p "tau")
  | .highECut => Spectra.highECut (p "Ec") (p "Ef")
  | .phAbs => photonAbs o.table (p "nH")
  | .tbAbs => photonAbs o.table (p "nH")
  | .wAbs => photonAbs o.table (p "nH")
  | _ => 0

/-- The classes whose bins are integrated numerically. -/
def Numeric : Cls → Bool
  | .brokenPL | .lorentz | .powerLaw | .plPhFlux | .plEnFlux | .constant | .plAbs => false
  | _ => true

theorem continuum_some {c : Cls} (hn : Numeric c = true) (hw : Within c.config p) (hr : Regular o p c) {e : ℝ} (he : 0 < e) :
    continuum o p c e = some (formula o p c e) ∧ 0 ≤ formula o p c e := by
  cases c <;> simp only [Numeric, Bool.false_eq_true] at hn
  all_goals simp only [Within, Cls.config, List.forall_mem_cons, List.not_mem_nil, false_imp_iff, implies_true, and_true] at hw
  case band =>
    obtain ⟨-, -, ⟨hE, -⟩, hK, -⟩ := hw
    have hE' : 0 < p "Ec" := by linarith
    have hK' : 0 ≤ p "K" := le_trans (by norm_num) hK
    obtain ⟨v, hv, h0, rfl⟩ := bandTail_some (alpha := p "alpha") (beta := p "beta") (Ebreak := p "Ec" *
      (if p "alpha" - p "beta" < 1 / p "Ec" then 1 / p "Ec" else p "alpha" - p "beta")) he hE'
      (amb := if p "alpha" - p "beta" < 1 / p "Ec" then 1 / p "Ec" else p "alpha" - p "beta")
      (by have : 0 < 1 / p "Ec" := by positivity
          split_ifs <;> linarith) hK'
    exact ⟨by simp only [continuum, qdiv_some hE'.ne', Option.bind_eq_bind, Option.bind_some]; exact hv, h0⟩
  case bandEp =>
    obtain ⟨⟨ha, -⟩, -, ⟨hE, -⟩, hK, -⟩ := hw
    have hE' : 0 < p "Ep" := by linarith
    have ha' : 0 < 2 + p "alpha" := by norm_num at ha; linarith
    have hc : 0 < p "Ep" / (2 + p "alpha") := by positivity
    have hK' : 0 ≤ p "K" := le_trans (by norm_num) hK
    obtain ⟨v, hv, h0, rfl⟩ := bandTail_some (alpha := p "alpha") (beta := p "beta") (Ebreak := (p "alpha" - p "beta") * (p "Ep" / (2 + p "alpha"))) he hc
      (amb := if p "alpha" - p "beta" < 1 / (p "Ep" / (2 + p "alpha")) then 1 / (p "Ep" / (2 + p "alpha")) else p "alpha" - p "beta")
      (by have : 0 < 1 / (p "Ep" / (2 + p "alpha")) := by positivity
          split_ifs <;> linarith) hK'
    exact ⟨by simp only [continuum, qdiv_some ha'.ne', qdiv_some hc.ne', Option.bind_eq_bind, Option.bind_some]; exact hv, h0⟩
  case bentPL =>
    obtain ⟨-, ⟨hE, -⟩, hK, -⟩ := hw
    have hE' : 0 < p "Eb" := lt_of_lt_of_le (by norm_num) hE
    have hK' : 0 < p "K" := lt_of_lt_of_le (by norm_num) hK
    have hx : 0 < e / p "Eb" := by positivity
    have hy : 0 < (e / p "Eb") ^ p "alpha" := rpow_pos_of_pos hx _
    refine ⟨?_, by simp only [formula, Spectra.bentPL]; positivity⟩
    simp only [continuum, qdiv_some hE'.ne', qpow_some hx, Option.bind_eq_bind, Option.bind_some]
    rw [qdiv_some (by positivity)]; rfl
  case blackbody =>
    obtain ⟨⟨hT, -⟩, hK, -⟩ := hw
    have hT' : 0 < p "kT" := lt_of_lt_of_le (by norm_num) hT
    have hK' : 0 < p "K" := lt_of_lt_of_le (by norm_num) hK
    obtain ⟨v, hv, h0, hv'⟩ := blackTail_some (x := e / p "kT") (low := 8.0525 * p "K" * e / (p "kT" * p "kT" * p "kT"))
      (num := 8.0525 * p "K" * e / (p "kT" * p "kT" * p "kT") * (e / p "kT")) (by positivity) (by positivity)
    have : formula o p .blackbody e = v := by rw [hv']; rfl
    rw [this]
    refine ⟨?_, h0⟩
    simp only [continuum, qdiv_some hT'.ne', Option.bind_eq_bind, Option.bind_some]
    rw [qdiv_some (by positivity)]
    exact hv
  case blackbodyRad =>
    obtain ⟨⟨hT, -⟩, hK, -⟩ := hw
    have hT' : 0 < p "kT" := lt_of_lt_of_le (by norm_num) hT
    have hK' : 0 < p "K" := lt_of_lt_of_le (by norm_num) hK
    obtain ⟨v, hv, h0, hv'⟩ := blackTail_some (x := e / p "kT") (low := 1.0344e-3 * p "K" * e * p "kT")
      (num := 1.0344e-3 * p "K" * e * e) (by positivity) (by positivity)
    have : formula o p .blackbodyRad e = v := by rw [hv']; rfl
    rw [this]
    refine ⟨?_, h0⟩
    simp only [continuum, qdiv_some hT'.ne', Option.bind_eq_bind, Option.bind_some]
    exact hv
  case compt =>
    obtain ⟨-, ⟨hE, -⟩, hK, -⟩ := hw
    have hE' : 0 < p "Ep" := lt_of_lt_of_le (by norm_num) hE
    have hK' : 0 < p "K" := lt_of_lt_of_le (by norm_num) hK
    refine ⟨?_, by simp only [formula, Spectra.compt]; positivity⟩
    simp only [continuum, qdiv_some hE'.ne', qpow_some he, Option.bind_eq_bind, Option.bind_some]; rfl
  case cutoffPL =>
    obtain ⟨-, ⟨hE, -⟩, hK, -⟩ := hw
    have hE' : 0 < p "Ec" := lt_of_lt_of_le (by norm_num) hE
    have hK' : 0 < p "K" := lt_of_lt_of_le (by norm_num) hK
    refine ⟨?_, by simp only [formula, Spectra.cutoffPL]; positivity⟩
    simp only [continuum, qdiv_some hE'.ne', qpow_some he, Option.bind_eq_bind, Option.bind_some]; rfl
  case gauss =>
    obtain ⟨-, ⟨hs, -⟩, hK, -⟩ := hw
    have hs' : 0 < p "sigma" := lt_of_le_of_ne hs (Ne.symm hr)
    have hK' : 0 < p "K" := lt_of_lt_of_le (by norm_num) hK
    refine ⟨?_, by simp only [formula, Spectra.gauss, normPdf]; positivity⟩
    have h1 : (2 * p "sigma" ^ 2) ≠ 0 := by positivity
    have h2 : sqrt (2 * π) * p "sigma" ≠ 0 := by positivity
    simp only [continuum, qdiv_some h1, qdiv_some h2, Option.bind_eq_bind, Option.bind_some]; rfl
  case ottb =>
    obtain ⟨⟨hT, -⟩, hK, -⟩ := hw
    have hT' : 0 < p "kT" := lt_of_lt_of_le (by norm_num) hT
    have hK' : 0 < p "K" := lt_of_lt_of_le (by norm_num) hK
    refine ⟨?_, by simp only [formula, Spectra.ottb]; positivity⟩
    simp only [continuum, qdiv_some hT'.ne', qdiv_some he.ne', Option.bind_eq_bind, Option.bind_some]; rfl
  case otts =>
    obtain ⟨⟨hT, -⟩, hK, -⟩ := hw
    have hT' : 0 < p "Ec" := lt_of_lt_of_le (by norm_num) hT
    have hK' : 0 < p "K" := lt_of_lt_of_le (by norm_num) hK
    have hx : 0 < e / p "Ec" := by positivity
    refine ⟨?_, by simp only [formula, Spectra.otts]; positivity⟩
    simp only [continuum, qdiv_some hT'.ne', qpow_some hx, Option.bind_eq_bind, Option.bind_some]; rfl
  case smoothlyBrokenPL =>
    obtain ⟨-, ⟨hE, -⟩, -, ⟨hrho, -⟩, hK, -⟩ := hw
    have hE' : 0 < p "Eb" := lt_of_lt_of_le (by norm_num) hE
    have hrho' : 0 < p "rho" := lt_of_lt_of_le (by norm_num) hrho
    have hK' : 0 < p "K" := lt_of_lt_of_le (by norm_num) hK
    have hx : 0 < e / p "Eb" := by positivity
    have hq : 0 < if |(p "alpha2" - p "alpha1") / p "rho" * log (e / p "Eb")| > 30 then (0.5 : ℝ)
        else 0.5 * (1 + exp ((p "alpha2" - p "alpha1") / p "rho" * log (e / p "Eb"))) := by
      split_ifs <;> positivity
    refine ⟨?_, ?_⟩
    · simp only [continuum, qdiv_some hE'.ne', qlog_some hx, qdiv_some hrho'.ne', qpow_some hx, qpow_some hq, Option.bind_eq_bind, Option.bind_some]; rfl
    · simp only [formula, Spectra.smoothlyBrokenPL]
      exact mul_nonneg (mul_nonneg hK'.le (rpow_nonneg hx.le _)) (rpow_nonneg hq.le _)
  case edge =>
    have hE' : 0 < p "Ec" := lt_of_le_of_ne hw.1.1 (Ne.symm hr)
    have hx : 0 < e / p "Ec" := by positivity
    refine ⟨?_, ?_⟩
    · simp only [continuum, qdiv_some hE'.ne', qpow_some hx, Option.bind_eq_bind, Option.bind_some, formula, Spectra.edge]
      split_ifs <;> rfl
    · simp only [formula, Spectra.edge]
      split_ifs <;> positivity
  case expAbs =>
    refine ⟨?_, by simp only [formula, Spectra.expAbs]; positivity⟩
    simp only [continuum, qdiv_some he.ne', Option.bind_eq_bind, Option.bind_some]; rfl
  case expFac =>
    obtain ⟨⟨hA, -⟩, -⟩ := hw
    refine ⟨?_, ?_⟩
    · simp only [continuum, formula, Spectra.expFac]
      split_ifs <;> rfl
    · simp only [formula, Spectra.expFac]
      have hA' : 0 ≤ p "A" := hA
      split_ifs <;> positivity
  case gAbs =>
    have hs' : 0 < p "sigma" := lt_of_le_of_ne hw.2.1.1 (Ne.symm hr)
    refine ⟨?_, by simp only [formula, Spectra.gAbs]; positivity⟩
    have h2 : sqrt (2 * π) * p "sigma" ≠ 0 := by positivity
    simp only [continuum, qdiv_some h2, qdiv_some hs'.ne', Option.bind_eq_bind, Option.bind_some, formula, Spectra.gAbs]
    norm_num
  case highECut =>
    have hf : 0 < p "Ef" := lt_of_lt_of_le (by norm_num) hw.2.1
    refine ⟨?_, ?_⟩
    · simp only [continuum, qdiv_some hf.ne', Option.bind_eq_bind, Option.bind_some, formula, Spectra.highECut]
      split_ifs <;> rfl
    · simp only [formula, Spectra.highECut]
      split_ifs <;> positivity
  all_goals
    refine ⟨?_, by simp only [formula, photonAbs]; positivity⟩
    simp only [continuum, continuum.photon, qlog_some he, Option.bind_eq_bind, Option.bind_some, formula, photonAbs, crossSection]

theorem powBin_some {alpha a b : ℝ} (ha : 0 < a) (hab : a < b) : ∃ v, powBin alpha a b = some v ∧ 0 < v ∧ powerlawIntegral [a, b] alpha = [v] := by
  have hb := ha.trans hab
  unfold powBin powerlawIntegral
  split_ifs with h
  · have h1 : 1 - alpha ≠ 0 := fun h' => h (by linarith)
    refine ⟨b ^ (1 - alpha) / (1 - alpha) - a ^ (1 - alpha) / (1 - alpha), ?_, ?_, by simp [Spectra.diff]⟩
    · simp only [qpow_some ha, qpow_some hb, qdiv_some h1, Option.bind_eq_bind, Option.bind_some]
    · rw [← sub_div]
      rcases lt_or_gt_of_ne h1 with h2 | h2
      · exact div_pos_of_neg_of_neg (sub_neg.2 (rpow_lt_rpow_of_neg ha hab h2)) h2
      · exact div_pos (sub_pos.2 (rpow_lt_rpow ha.le hab h2)) h2
  · refine ⟨log b - log a, ?_, sub_pos.2 (log_lt_log ha hab), by simp [Spectra.diff]⟩
    simp only [qlog_some ha, qlog_some hb, Option.bind_eq_bind, Option.bind_some]

theorem quadBin_some {s add : Bool} {f : ℝ → Option ℝ} {g : ℝ → ℝ} (hf : ∀ e, 0 < e → f e = some (g e) ∧ 0 ≤ g e) {a b : ℝ}
    (ha : 0 < a) (hab : a < b) : ∃ v, quadBin s add f a b = some v ∧ 0 ≤ v ∧ (if s then Spectra.simpson add g [a, b] else Spectra.trapz add g [a, b]) = [v] := by
  have hb := ha.trans hab
  have hm : 0 < 0.5 * (a + b) := by positivity
  have h1 := hf a ha
  have h2 := hf b hb
  have h3 := hf _ hm
  have hd := sub_pos.2 hab
  unfold quadBin
  cases s
  · refine ⟨(if add then 0.5 * (b - a) else 0.5) * (g a + g b), ?_, ?_, by simp [Spectra.trapz, perBin]⟩
    · simp only [Bool.false_eq_true, if_false, h1.1, h2.1, Option.bind_eq_bind, Option.bind_some]
    · have := h1.2; have := h2.2
      cases add <;> simp only [if_true, if_false, Bool.false_eq_true] <;> positivity
  · refine ⟨(if add then (b - a) / 6 else 1 / 6) * (g a + 4 * g (0.5 * (a + b)) + g b), ?_, ?_, by simp [Spectra.simpson, perBin]⟩
    · simp only [if_true, h1.1, h2.1, h3.1, Option.bind_eq_bind, Option.bind_some]
    · have := h1.2; have := h2.2; have := h3.2
      cases add <;> simp only [if_true, if_false, Bool.false_eq_true] <;> positivity

/-- The function of a class in plain arithmetic (`Verif.Models.Spectra`, `Mul`, `Line`), which the other theorems are about. -/
noncomputable def plain (o : Options) (p : String → ℝ) : Cls → ModelFn
  | .brokenPL => Spectra.brokenPL (p "alpha1") (p "Eb") (p "alpha2") (p "K")
  | .lorentz => Spectra.lorentz (p "El") (p "sigma") (p "K")
  | .powerLaw => Spectra.powerLaw (p "alpha") (p "K")
  | .plPhFlux => Spectra.plPhFlux o.emin o.emax (p "alpha") (p "F")
  | .plEnFlux => Spectra.plEnFlux o.emin o.emax (p "alpha") (p "F")
  | .constant => Spectra.constant (p "f")
  | .plAbs => fun g => (Spectra.plAbs (p "alpha") (p "K") g).map fun v => v.getD 0
  | c => if o.simpson then Spectra.simpson (c.type = .add) (formula o p c) else Spectra.trapz (c.type = .add) (formula o p c)

/-- Every bin of a component is a number that is not negative. -/
theorem bin_some {c : Cls} (hw : Within c.config p) (hr : Regular o p c) {a b : ℝ} (ha : 0 < a) (hab : a < b) :
    ∃ v, binValue o p c a b = some v ∧ 0 ≤ v ∧ plain o p c [a, b] = [v] := by
  have hb := ha.trans hab
  by_cases hn : Numeric c = true
  · obtain ⟨v, hv, h0, hq⟩ := quadBin_some (s := o.simpson) (add := decide (c.type = .add)) (fun e he => continuum_some hn hw hr he) ha hab
    refine ⟨v, ?_, h0, ?_⟩
    · cases c <;> first | exact hv | exact absurd hn (by decide)
    · rw [← hq]
      cases c <;> first | exact absurd hn (by decide) | (simp only [plain]; split_ifs <;> rfl)
  · cases c <;> simp only [Numeric, not_true_eq_false] at hn
    all_goals simp only [Within, Cls.config, List.forall_mem_cons, List.not_mem_nil, false_imp_iff, implies_true, and_true] at hw
    case brokenPL =>
      obtain ⟨-, ⟨hE, -⟩, -, hK, -⟩ := hw
      have hE' : 0 < p "Eb" := lt_of_lt_of_le (by norm_num) hE
      have hK' : 0 < p "K" := lt_of_lt_of_le (by norm_num) hK
      obtain ⟨v, hv, h0, he⟩ := powBin_some (alpha := if a ≤ p "Eb" then p "alpha1" else p "alpha2") (div_pos ha hE') (div_lt_div_of_pos_right hab hE')
      refine ⟨p "K" * v, by simp only [binValue, qdiv_some hE'.ne', hv, Option.bind_eq_bind, Option.bind_some], by positivity, ?_⟩
      obtain ⟨v1, -, -, he1⟩ := powBin_some (alpha := p "alpha1") (div_pos ha hE') (div_lt_div_of_pos_right hab hE')
      obtain ⟨v2, -, -, he2⟩ := powBin_some (alpha := p "alpha2") (div_pos ha hE') (div_lt_div_of_pos_right hab hE')
      simp only [plain, Spectra.brokenPL, List.map_cons, List.map_nil, he1, he2]
      split_ifs at he with hle
      · rw [he1] at he
        simp only [List.cons.injEq, and_true] at he
        simp [hle, he]
      · rw [he2] at he
        simp only [List.cons.injEq, and_true] at he
        simp [hle, he]
    case lorentz =>
      obtain ⟨⟨hE, -⟩, ⟨hs, -⟩, hK, -⟩ := hw
      have hE' : 0 < p "El" := lt_of_lt_of_le (by norm_num) hE
      have hs' : 0 < p "sigma" := lt_of_lt_of_le (by norm_num) hs
      have hK' : 0 < p "K" := lt_of_lt_of_le (by norm_num) hK
      have hat : 0 ≤ arctan (2 * p "El" / p "sigma") := by rw [arctan_nonneg]; positivity
      have hn : 0 < π + 2 * arctan (2 * p "El" / p "sigma") := by have := pi_pos; linarith
      have hx : arctan (2 * (a - p "El") / p "sigma") < arctan (2 * (b - p "El") / p "sigma") := by
        apply arctan_strictMono
        apply div_lt_div_of_pos_right _ hs'
        linarith
      refine ⟨2 * p "K" / (π + 2 * arctan (2 * p "El" / p "sigma")) * (arctan (2 * (b - p "El") / p "sigma") - arctan (2 * (a - p "El") / p "sigma")), ?_, ?_, by simp [plain, Spectra.lorentz, Spectra.diff]⟩
      · simp only [binValue, qdiv_some hs'.ne', qdiv_some hn.ne', Option.bind_eq_bind, Option.bind_some]
      · have := sub_pos.2 hx
        positivity
    case plEnFlux =>
      obtain ⟨-, hF, -⟩ := hw
      have hF' : 0 < p "F" := lt_of_lt_of_le (by norm_num) hF
      obtain ⟨f, hf, hf0, hef⟩ := powBin_some (alpha := p "alpha" - 1) hr.1 hr.2
      obtain ⟨v, hv, h0, he⟩ := powBin_some (alpha := p "alpha") ha hab
      have hk : 0 < keVToErg := by unfold keVToErg; norm_num
      have hfk : 0 < f * keVToErg := by positivity
      exact ⟨p "F" / (f * keVToErg) * v, by simp only [binValue, hf, hv, qdiv_some hfk.ne', Option.bind_eq_bind, Option.bind_some], by positivity,
        by simp [plain, Spectra.plEnFlux, hef, he, item]⟩
    case plPhFlux =>
      obtain ⟨-, hF, -⟩ := hw
      have hF' : 0 < p "F" := lt_of_lt_of_le (by norm_num) hF
      obtain ⟨f, hf, hf0, hef⟩ := powBin_some (alpha := p "alpha") hr.1 hr.2
      obtain ⟨v, hv, h0, he⟩ := powBin_some (alpha := p "alpha") ha hab
      exact ⟨p "F" / f * v, by simp only [binValue, hf, hv, qdiv_some hf0.ne', Option.bind_eq_bind, Option.bind_some], by positivity,
        by simp [plain, Spectra.plPhFlux, hef, he, item]⟩
    case powerLaw =>
      obtain ⟨-, hK, -⟩ := hw
      have hK' : 0 < p "K" := lt_of_lt_of_le (by norm_num) hK
      obtain ⟨v, hv, h0, he⟩ := powBin_some (alpha := p "alpha") ha hab
      exact ⟨p "K" * v, by simp only [binValue, hv, Option.bind_eq_bind, Option.bind_some], by positivity, by simp [plain, Spectra.powerLaw, he]⟩
    case constant =>
      exact ⟨p "f", rfl, le_trans (by norm_num) hw.1, rfl⟩
    case plAbs =>
      obtain ⟨-, hK, -⟩ := hw
      have h1 : 1 - p "alpha" ≠ 0 := fun h' => hr (by linarith)
      obtain ⟨v, hv, h0, he⟩ := powBin_some (alpha := p "alpha") ha hab
      have he' : v = b ^ (1 - p "alpha") / (1 - p "alpha") - a ^ (1 - p "alpha") / (1 - p "alpha") := by
        have hr' : p "alpha" ≠ 1 := hr
        simp [powerlawIntegral, Spectra.diff, hr'] at he
        exact he.symm
      have hd := sub_pos.2 hab
      refine ⟨(p "K" / (1 - p "alpha") * b ^ (1 - p "alpha") - p "K" / (1 - p "alpha") * a ^ (1 - p "alpha")) / (b - a), ?_, ?_, by simp [plain, Spectra.plAbs, h1, Spectra.diff]⟩
      · simp only [binValue, qdiv_some h1, qpow_some ha, qpow_some hb, qdiv_some hd.ne', Option.bind_eq_bind, Option.bind_some]
      · have : p "K" / (1 - p "alpha") * b ^ (1 - p "alpha") - p "K" / (1 - p "alpha") * a ^ (1 - p "alpha") = p "K" * v := by
          rw [he']; ring
        rw [this]
        have hK' : 0 ≤ p "K" := hK
        positivity

end

/-! ## Components -/

/-- **C133 (components).**  A library component with all its parameters inside the bounds its class declares gives, in every bin of
every grid of positive increasing energies, a number that is not negative, the one of the plain formula.

`_partial`: the declared bounds include points where the formula is no number (`Regular` excludes them); see `C133_bounds_refuted`. -/
theorem C133_component_partial (o : Options) (p : String → ℝ) (c : Cls) (hw : Within c.config p) (hr : Regular o p c) (g : List ℝ)
    (hp : Positive g) (hg : Increasing g) :
    (eval o p c g).length = g.length - 1 ∧ ∀ (i : ℕ) (a b : ℝ), g[i]? = some a → g[i + 1]? = some b →
      ∃ v, (eval o p c g)[i]? = some (some v) ∧ 0 ≤ v ∧ plain o p c [a, b] = [v] := by
  refine ⟨perBin_length _ _, fun i a b ha hb => ?_⟩
  obtain ⟨hia, rfl⟩ := List.getElem?_eq_some_iff.1 ha
  obtain ⟨hib, rfl⟩ := List.getElem?_eq_some_iff.1 hb
  have hlt : g[i] < g[i + 1] := (List.isChain_iff_getElem.1 hg) i (by omega)
  obtain ⟨v, hv, h0, he⟩ := bin_some (o := o) hw hr (hp _ (List.getElem_mem _)) hlt
  exact ⟨v, by rw [eval, perBin_getElem?, ha, hb]; simp only [hv], h0, he⟩

/-- **C133 (refuted).**  Settings the declared bounds allow and the formulas do not: a Gaussian line or absorption line of zero width, an
edge at zero energy, and the index 1 of `PLAbs` give no number, at any energy. -/
theorem C133_bounds_refuted (o : Options) (a b : ℝ) (ha : 0 < a) (hab : a < b) :
    (∃ p, Within Cls.gauss.config p ∧ binValue o p .gauss a b = none) ∧
    (∃ p, Within Cls.gAbs.config p ∧ binValue o p .gAbs a b = none) ∧
    (∃ p, Within Cls.edge.config p ∧ binValue o p .edge a b = none) ∧
    (∃ p, Within Cls.plAbs.config p ∧ binValue o p .plAbs a b = none) := by
  refine ⟨⟨fun n => if n = "sigma" then 0 else 1, ?_, ?_⟩, ⟨fun n => if n = "sigma" then 0 else 1, ?_, ?_⟩,
    ⟨fun n => if n = "Ec" then 0 else 1, ?_, ?_⟩, ⟨fun _ => 1, ?_, ?_⟩⟩
  · simp [Within, Cls.config]; norm_num
  · simp [binValue, quadBin, continuum, qdiv]
  · simp [Within, Cls.config]; norm_num
  · simp [binValue, quadBin, continuum, qdiv]
  · simp [Within, Cls.config]
  · simp [binValue, quadBin, continuum, qdiv, ha.le]
  · simp [Within, Cls.config]
  · simp [binValue, qdiv]

/-- The classes that only take photons away. -/
def Absorber : Cls → Prop
  | .edge | .expAbs | .gAbs | .highECut | .phAbs | .tbAbs | .wAbs => True
  | _ => False

theorem absorber_le {o : Options} {p : String → ℝ} {c : Cls} (hc : Absorber c) (hw : Within c.config p) (hr : Regular o p c) {e : ℝ} (he : 0 < e) :
    formula o p c e ≤ 1 := by
  obtain ⟨t1, t2, t3, t4, t5⟩ := C66_transmissions
  cases c <;> simp only [Absorber] at hc
  all_goals simp only [Within, Cls.config, List.forall_mem_cons, List.not_mem_nil, false_imp_iff, implies_true, and_true] at hw
  case edge => exact (t1 _ _ (lt_of_le_of_ne hw.1.1 (Ne.symm hr)) hw.2.1 e he).2
  case expAbs => exact (t2 _ hw.1 e he).2
  case gAbs => exact (t3 _ _ _ (lt_of_le_of_ne hw.2.1.1 (Ne.symm hr)) hw.2.2.1 e he).2
  case highECut => exact (t4 _ _ (lt_of_lt_of_le (by norm_num) hw.2.1) e he).2
  all_goals exact (t5 _ _ hw.1 e he).2

theorem absorber_bin {o : Options} {p : String → ℝ} {c : Cls} (hc : Absorber c) (hw : Within c.config p) (hr : Regular o p c) {a b : ℝ} (ha : 0 < a)
    (hab : a < b) : ∃ v, binValue o p c a b = some v ∧ 0 ≤ v ∧ v ≤ 1 := by
  have hn : Numeric c = true := by cases c <;> first | rfl | exact hc.elim
  have ht : c.type = .mul := by cases c <;> first | rfl | exact hc.elim
  obtain ⟨v, hv, h0, he⟩ := bin_some (o := o) hw hr ha hab
  refine ⟨v, hv, h0, ?_⟩
  have hpl : plain o p c = if o.simpson then Spectra.simpson false (formula o p c) else Spectra.trapz false (formula o p c) := by
    cases c <;> first | exact hc.elim | rfl
  have hb := C42_bounded (formula o p c) 0 1 (fun E hE => ⟨(continuum_some hn hw hr hE).2, absorber_le hc hw hr hE⟩) [a, b]
    (by intro x hx; simp only [List.mem_cons, List.not_mem_nil, or_false] at hx; rcases hx with rfl | rfl <;> linarith) (by simp [Increasing, hab])
  rw [hpl] at he
  split_ifs at he
  · exact (hb.2 v (by simp [he])).2
  · exact (hb.1 v (by simp [he])).2

/-! ## Models -/

/-- The parameters of every component of an expression are inside the bounds of its class and regular; a flux convolution has a band
of positive energies, and the model it acts on is not zero in the whole band. -/
def WellSet (inst : Nat → Inst) (par : Nat → String → ℝ) : Expr → Prop
  | .comp id ty => ∃ c o, inst id = .comp c o ∧ c.type = ty ∧ Within c.config (par id) ∧ Regular o (par id) c
  | .bin _ l r => WellSet inst par l ∧ WellSet inst par r
  | .call id m => WellSet inst par m ∧ ∃ c o, inst id = .conv c o ∧ Within c.config (par id) ∧
      (c = .phFlux ∨ c = .enFlux → 0 < o.emin ∧ o.emin < o.emax ∧ 2 ≤ o.ngrid ∧
        ∃ i < o.ngrid - 1, meaning (library inst) par m (bandGrid o.emin o.emax o.ngrid o.elog) i ≠ 0)

theorem getD_nonneg {l : List ℝ} (h : ∀ v ∈ l, 0 ≤ v) (i : ℕ) : 0 ≤ l.getD i 0 := by
  rw [List.getD_eq_getElem?_getD]
  cases hi : l[i]? with
  | none => simp
  | some v => simpa using h v (List.mem_of_getElem? hi)

theorem fn_nonneg {inst : Nat → Inst} {par : Nat → String → ℝ} {id : Nat} {c : Cls} {o : Options} (hi : inst id = .comp c o)
    (hw : Within c.config (par id)) (hr : Regular o (par id) c) {g : List ℝ} (hp : Positive g) (hg : Increasing g) (i : ℕ) :
    0 ≤ (library inst).fn id g (par id) i := by
  simp only [library, hi]
  by_cases h : i + 1 < g.length
  · obtain ⟨v, hv, h0, -⟩ := (C133_component_partial o (par id) c hw hr g hp hg).2 i g[i] g[i + 1] (List.getElem?_eq_getElem _) (List.getElem?_eq_getElem _)
    rw [hv]
    simpa using h0
  · rw [List.getElem?_eq_none (by rw [eval, perBin_length]; omega)]
    simp

theorem grid_scale {g : List ℝ} (hp : Positive g) (hg : Increasing g) {k : ℝ} (hk : 0 < k) :
    Positive (g.map fun e => e * k) ∧ Increasing (g.map fun e => e * k) := by
  constructor
  · intro e he
    obtain ⟨x, hx, rfl⟩ := List.mem_map.1 he
    exact mul_pos (hp x hx) hk
  · unfold Increasing at *
    rw [List.isChain_map]
    exact hg.imp fun a b h => mul_lt_mul_of_pos_right h hk

theorem convolve_nonneg {o : ConvOptions} {p : String → ℝ} {c : ConvCls} (hw : Within c.config p)
    (hb : c = .phFlux ∨ c = .enFlux → 0 < o.emin ∧ o.emin < o.emax ∧ 2 ≤ o.ngrid) {f : ModelFn}
    (hf : ∀ g, Positive g → Increasing g → ∀ v ∈ f g, 0 ≤ v) {g : List ℝ} (hp : Positive g) (hg : Increasing g) :
    ∀ v ∈ convolve o p c f g, 0 ≤ v := by
  have hk : 0 < keVToErg := by unfold keVToErg; norm_num
  cases c <;> simp only [Within, ConvCls.config, List.forall_mem_cons, List.not_mem_nil, false_imp_iff, implies_true, and_true] at hw
  case phFlux =>
    obtain ⟨h1, h2, h3⟩ := hb (.inl rfl)
    have hs := List.sum_nonneg (hf _ (bandGrid_pos h1 h2 o.ngrid o.elog) (bandGrid_step h1 h2 o.ngrid h3 o.elog))
    have hF : 0 ≤ p "F" := le_trans (by norm_num) hw.1
    intro v hv
    simp only [convolve, Spectra.phFlux, List.mem_map] at hv
    obtain ⟨w, hw', rfl⟩ := hv
    exact mul_nonneg (div_nonneg hF hs) (hf g hp hg w hw')
  case enFlux =>
    obtain ⟨h1, h2, h3⟩ := hb (.inr rfl)
    have hm := hf _ (bandGrid_pos h1 h2 o.ngrid o.elog) (bandGrid_step h1 h2 o.ngrid h3 o.elog)
    have hF : 0 ≤ p "F" := le_trans (by norm_num) hw.1
    intro v hv
    simp only [convolve, Spectra.enFlux, List.mem_map] at hv
    obtain ⟨w, hw', rfl⟩ := hv
    refine mul_nonneg (div_nonneg hF (List.sum_nonneg ?_)) (hf g hp hg w hw')
    intro x hx
    obtain ⟨i, hi, rfl⟩ := List.getElem_of_mem hx
    simp only [List.getElem_zipWith]
    refine mul_nonneg ?_ (hm _ (List.getElem_mem _))
    have hall : ∀ y ∈ perBin (fun a b => keVToErg * sqrt (a * b)) (bandGrid o.emin o.emax o.ngrid o.elog), 0 ≤ y :=
      perBin_forall (bandGrid_step h1 h2 o.ngrid h3 o.elog) fun a _ b _ _ => by positivity
    exact hall _ (List.getElem_mem _)
  case zaShift =>
    have hz : 0 < 1 + p "z" := by have := hw.1; norm_num at this; linarith
    intro v hv
    simp only [convolve, Spectra.zaShift, List.mem_map] at hv
    obtain ⟨w, hw', rfl⟩ := hv
    obtain ⟨h1, h2⟩ := grid_scale hp hg hz
    exact div_nonneg (hf _ h1 h2 w hw') hz.le
  case zmShift =>
    have hz : 0 < 1 + p "z" := by have := hw.1; norm_num at this; linarith
    obtain ⟨h1, h2⟩ := grid_scale hp hg hz
    exact hf _ h1 h2
  all_goals
    have hz : 0 < 1 - p "v" / cKms := by
      unfold cKms
      have := hw.2
      norm_num at this ⊢
      rw [div_lt_one (by norm_num)]
      linarith
    obtain ⟨h1, h2⟩ := grid_scale hp hg hz
    exact hf _ h1 h2

theorem meaning_nonneg {inst : Nat → Inst} {par : Nat → String → ℝ} (e : Expr) (hw : WellSet inst par e) :
    ∀ (g : List ℝ), Positive g → Increasing g → ∀ i, 0 ≤ meaning (library inst) par e g i := by
  induction e with
  | comp id ty =>
    intro g hp hg i
    obtain ⟨c, o, hi, -, hc, hr⟩ := hw
    exact fn_nonneg hi hc hr hp hg i
  | bin op l r hl hr =>
    intro g hp hg i
    cases op with
    | plus => exact add_nonneg (hl hw.1 g hp hg i) (hr hw.2 g hp hg i)
    | times => exact mul_nonneg (hl hw.1 g hp hg i) (hr hw.2 g hp hg i)
  | call id m hm =>
    intro g hp hg i
    obtain ⟨hmw, c, o, hi, hc, hb⟩ := hw
    simp only [meaning, library, hi]
    refine getD_nonneg (convolve_nonneg hc (fun h => ⟨(hb h).1, (hb h).2.1, (hb h).2.2.1⟩) (fun h h1 h2 v hv => ?_) hp hg) i
    obtain ⟨j, -, rfl⟩ := List.mem_map.1 hv
    exact hm hmw h h1 h2 j

/-- **C133 (models).**  A model built from library components by `+`, `*` and convolutions, with parameters inside the declared bounds, is
not negative in any bin of any grid of positive increasing energies. -/
theorem C133_model_partial {sup : Nat → MType → Bool} (inst : Nat → Inst) (par : Nat → String → ℝ) {e : Expr} {m : Mod} (hb : build sup e = .ok m)
    (hw : WellSet inst par e) (g : List ℝ) (hp : Positive g) (hg : Increasing g) :
    ∃ v, m.compiled (library inst) par g = .ok v ∧ ∀ i, 0 ≤ v i :=
  ⟨_, C31_value (library inst) par hb g, meaning_nonneg e hw g hp hg⟩

/-- **C133 (adding and absorbing).**  Adding a component to a model never lowers it in any bin; putting an absorber in front of it never raises it. -/
theorem C133_add_absorb_partial {sup : Nat → MType → Bool} (inst : Nat → Inst) (par : Nat → String → ℝ) {e x a : Expr} {m : Mod}
    (hb : build sup e = .ok m) (hw : WellSet inst par e) (g : List ℝ) (hp : Positive g) (hg : Increasing g) :
    ∃ v, m.compiled (library inst) par g = .ok v ∧
    (∀ ma, build sup (.bin .plus e x) = .ok ma → WellSet inst par x →
      ∃ va, ma.compiled (library inst) par g = .ok va ∧ ∀ i, v i ≤ va i) ∧
    (∀ mt id ty, a = .comp id ty → build sup (.bin .times a e) = .ok mt → WellSet inst par a →
      (∃ c o, inst id = .comp c o ∧ Absorber c) → ∃ vt, mt.compiled (library inst) par g = .ok vt ∧ ∀ i, vt i ≤ v i) := by
  refine ⟨_, C31_value (library inst) par hb g, fun ma hma hx => ⟨_, C31_value (library inst) par hma g, fun i => ?_⟩, ?_⟩
  · exact le_add_of_nonneg_right (meaning_nonneg x hx g hp hg i)
  · rintro mt id ty rfl hmt ⟨c, o, hi, -, hc, hr⟩ ⟨c', o', hi', ha⟩
    obtain ⟨rfl, rfl⟩ : c = c' ∧ o = o' := by
      rw [hi] at hi'
      cases hi'
      exact ⟨rfl, rfl⟩
    refine ⟨_, C31_value (library inst) par hmt g, fun i => ?_⟩
    have hm := meaning_nonneg e hw g hp hg i
    have hle : (library inst).fn id g (par id) i ≤ 1 := by
      simp only [library, hi]
      by_cases h : i + 1 < g.length
      · have hlt : g[i] < g[i + 1] := (List.isChain_iff_getElem.1 hg) i (by omega)
        obtain ⟨v, hv, -, h1⟩ := absorber_bin (o := o) ha hc hr (hp _ (List.getElem_mem _)) hlt
        rw [eval, perBin_getElem?, List.getElem?_eq_getElem (by omega), List.getElem?_eq_getElem h]
        simp only [hv]
        simpa using h1
      · rw [List.getElem?_eq_none (by rw [eval, perBin_length]; omega)]
        simp
    exact mul_le_of_le_one_left hm hle

/-- **C133 (counts).**  Folded through any response without negative entries, a well set model gives no negative counts; more photons give
more counts in every channel. -/
theorem C133_counts (resp : ℕ → ℕ → ℝ) (hresp : ∀ i j, 0 ≤ resp i j) (n : ℕ) (v w : ℕ → ℝ) (hv : ∀ i, 0 ≤ v i) (hvw : ∀ i, v i ≤ w i) (j : ℕ) :
    0 ≤ ∑ i ∈ Finset.range n, v i * resp i j ∧ ∑ i ∈ Finset.range n, v i * resp i j ≤ ∑ i ∈ Finset.range n, w i * resp i j :=
  ⟨Finset.sum_nonneg fun i _ => mul_nonneg (hv i) (hresp i j),
    Finset.sum_le_sum fun i _ => mul_le_mul_of_nonneg_right (hvw i) (hresp i j)⟩

/-- **C133 (as created).**  Every class of the library declares each parameter once, with its default value strictly between its bounds; a component or shift left at these
defaults is therefore accepted, and gives a number that is not negative in every bin of every grid of positive increasing energies. -/
theorem C133_defaults (o : Options) (hband : 0 < o.emin ∧ o.emin < o.emax) (c : Cls) :
    (c.config.map Bound.name).Nodup ∧ (∀ b ∈ c.config, b.min < b.default ∧ b.default < b.max) ∧
    ∀ p : String → ℝ, (∀ b ∈ c.config, p b.name = b.default) → ∀ g, Positive g → Increasing g →
      (eval o p c g).length = g.length - 1 ∧ ∀ (i : ℕ), i + 1 < g.length → ∃ v, (eval o p c g)[i]? = some (some v) ∧ 0 ≤ v := by
  have h1 : (c.config.map Bound.name).Nodup := by cases c <;> simp [Cls.config]
  have h2 : ∀ b ∈ c.config, b.min < b.default ∧ b.default < b.max := by
    cases c <;> simp only [Cls.config, List.mem_cons, List.not_mem_nil, or_false] <;> intro b hb <;>
      rcases hb with rfl | rfl | rfl | rfl | rfl <;> norm_num
  refine ⟨h1, h2, ?_⟩
  intro p hp g hpos hinc
  have hw : Within c.config p := fun b hb => by
    rw [hp b hb]
    exact ⟨(h2 b hb).1.le, (h2 b hb).2.le⟩
  have hr : Regular o p c := by
    cases c <;> simp only [Regular] <;> first
      | trivial
      | exact hband
      | (simp only [Cls.config, List.mem_cons, List.not_mem_nil, or_false, forall_eq_or_imp, forall_eq] at hp
         norm_num [hp])
  obtain ⟨k1, k2⟩ := C133_component_partial o p c hw hr g hpos hinc
  refine ⟨k1, fun i hi => ?_⟩
  obtain ⟨v, hv, h0, -⟩ := k2 i g[i] g[i + 1] (List.getElem?_eq_getElem (by omega)) (List.getElem?_eq_getElem hi)
  exact ⟨v, hv, h0⟩

/-- The same for the shifts. -/
theorem C133_defaults_conv (c : ConvCls) :
    (c.config.map Bound.name).Nodup ∧ ∀ b ∈ c.config, b.min < b.default ∧ b.default < b.max := by
  constructor
  · cases c <;> simp [ConvCls.config]
  · cases c <;> simp only [ConvCls.config, List.mem_cons, List.not_mem_nil, or_false] <;> intro b hb <;> subst hb <;> norm_num

/-! ## The hypotheses are met -/

/-- Redshifted absorbed power law with a Gaussian line: `TBAbs * ZAShift(PowerLaw + Gauss)`. -/
def demo : Expr := .bin .times (.comp 0 .mul) (.call 1 (.bin .plus (.comp 2 .add) (.comp 3 .add)))

/-- A table of cross sections, and the classes of `demo`. -/
noncomputable def demoOpts : Options := ⟨false, 1, 2, [(1, 0.3), (10, 0.001)]⟩

noncomputable def demoInst : Nat → Inst
  | 0 => .comp .tbAbs demoOpts
  | 1 => .conv .zaShift ⟨1, 2, 100, true⟩
  | 2 => .comp .powerLaw demoOpts
  | _ => .comp .gauss demoOpts

/-- All parameters 1. -/
def demoPar : Nat → String → ℝ := fun _ _ => 1

theorem demo_wellSet : WellSet demoInst demoPar demo := by
  refine ⟨⟨.tbAbs, demoOpts, rfl, rfl, ?_, trivial⟩, ⟨⟨.powerLaw, demoOpts, rfl, rfl, ?_, trivial⟩, ⟨.gauss, demoOpts, rfl, rfl, ?_, ?_⟩⟩,
    .zaShift, _, rfl, ?_, ?_⟩
  · simp [Within, Cls.config, demoPar]; norm_num
  · simp [Within, Cls.config, demoPar]; norm_num
  · simp [Within, Cls.config, demoPar]; norm_num
  · simp [Regular, demoPar]
  · simp [Within, ConvCls.config, demoPar]; norm_num
  · simp

example : ∃ m v, build (fun _ _ => true) demo = .ok m ∧ m.compiled (library demoInst) demoPar [1, 2, 4] = .ok v ∧ ∀ i, 0 ≤ v i := by
  obtain ⟨v, hv, h0⟩ := C133_model_partial (sup := fun _ _ => true) (e := demo) demoInst demoPar rfl demo_wellSet [1, 2, 4]
    (by intro e he; simp at he; rcases he with rfl | rfl | rfl <;> norm_num) (by simp [Increasing]; norm_num)
  exact ⟨_, v, rfl, hv, h0⟩

example : ∃ v va, (Mod.comp 2 MType.add).compiled (library demoInst) demoPar [1, 2, 4] = .ok v ∧
    (Mod.bin .plus (.comp 2 .add) (.comp 3 .add)).compiled (library demoInst) demoPar [1, 2, 4] = .ok va ∧ ∀ i, v i ≤ va i := by
  obtain ⟨v, hv, h1, -⟩ := C133_add_absorb_partial (sup := fun _ _ => true) (e := .comp 2 .add) (x := .comp 3 .add) (a := .comp 0 .mul) demoInst demoPar rfl
    demo_wellSet.2.1.1 [1, 2, 4]
    (by intro e he; simp at he; rcases he with rfl | rfl | rfl <;> norm_num) (by simp [Increasing]; norm_num)
  obtain ⟨va, hva, h⟩ := h1 _ rfl demo_wellSet.2.1.2
  exact ⟨v, va, hv, hva, h⟩

example := C133_component_partial demoOpts (demoPar 2) .powerLaw (by obtain ⟨-, ⟨⟨c, o, h1, h2, h3, h4⟩, -⟩, -⟩ := demo_wellSet; cases h1; exact h3) trivial [1, 2, 4]
  (by intro e he; simp at he; rcases he with rfl | rfl | rfl <;> norm_num) (by simp [Increasing]; norm_num)

example := C133_bounds_refuted demoOpts 1 2 one_pos (by norm_num)

example := C133_defaults demoOpts ⟨by norm_num [demoOpts], by norm_num [demoOpts]⟩ .smoothlyBrokenPL
example := C133_defaults_conv .vaShift

end Elisa.Models.Catalogue
