import Verif.Models.CatalogueProps
import Verif.Infer.PosteriorProps
import Mathlib.Topology.Algebra.Ring.Real

/-!
# C136: amplitudes are linear, and which components can be switched off
-/

namespace Elisa.Models.Catalogue.Off

open Elisa.Models.Spectra Elisa.Models.Algebra Elisa.Infer Real Topology

/-! ## Specification -/

/-- The name of the amplitude of an additive component. -/
def amplitude : Cls → String
  | .plEnFlux => "F"
  | .plPhFlux => "F"
  | _ => "K"

/-- The same parameters with the amplitude multiplied by `t`. -/
noncomputable def brighter (c : Cls) (t : ℝ) (p : String → ℝ) : String → ℝ := fun n => if n = amplitude c then t * p n else p n

/-- The component or convolution `id` occurs in an expression. -/
def Occurs (id : Nat) : Expr → Prop
  | .comp i _ => i = id
  | .bin _ l r => Occurs id l ∨ Occurs id r
  | .call i m => i = id ∨ Occurs id m

/-- The parameters of component `id` are replaced. -/
def setPar (par : Nat → String → ℝ) (id : Nat) (p : String → ℝ) : Nat → String → ℝ := fun i => if i = id then p else par i

/-! ## Lemmas: amplitudes -/

theorem qdiv_scale (t a b : ℝ) : qdiv (t * a) b = (qdiv a b).map (t * ·) := by
  unfold qdiv; split_ifs
  · rfl
  · simp [mul_div_assoc]

theorem bandTail_scale (t alpha beta Ec K amb Eb e : ℝ) : bandTail alpha beta Ec (t * K) amb Eb e = (bandTail alpha beta Ec K amb Eb e).map (t * ·) := by
  unfold bandTail
  split_ifs
  · cases qlog (e / 100) <;> cases qdiv e Ec <;> simp [mul_assoc]
  · cases qlog (e / 100) <;> cases qlog (amb * Ec / 100) <;> simp [mul_assoc]

theorem blackTail_scale (t x low num : ℝ) : blackTail x (t * low) (t * num) = (blackTail x low num).map (t * ·) := by
  unfold blackTail
  split_ifs
  · rfl
  · simp
  · exact qdiv_scale _ _ _

theorem continuum_scale (o : Options) (p : String → ℝ) (c : Cls) (hc : c.type = .add) (t e : ℝ) :
    continuum o (brighter c t p) c e = (continuum o p c e).map (t * ·) := by
  cases c <;> simp only [Cls.type, reduceCtorEq] at hc
  all_goals simp only [continuum, brighter, amplitude, String.reduceEq, if_false, if_true, Option.map_none]
  case band =>
    cases qdiv 1 (p "Ec") with
    | none => rfl
    | some x => simp only [Option.bind_eq_bind, Option.bind_some]; exact bandTail_scale _ _ _ _ _ _ _ _
  case bandEp =>
    cases qdiv (p "Ep") (2 + p "alpha") with
    | none => rfl
    | some x =>
      simp only [Option.bind_eq_bind, Option.bind_some]
      cases qdiv 1 x with
      | none => rfl
      | some y => simp only [Option.bind_some]; exact bandTail_scale _ _ _ _ _ _ _ _
  case bentPL =>
    cases qdiv e (p "Eb") with
    | none => rfl
    | some x =>
      simp only [Option.bind_eq_bind, Option.bind_some]
      cases qpow x (p "alpha") with
      | none => rfl
      | some y => simp only [Option.bind_some, mul_assoc]; exact qdiv_scale _ _ _
  case blackbody =>
    cases qdiv e (p "kT") with
    | none => rfl
    | some x =>
      simp only [Option.bind_eq_bind, Option.bind_some]
      rw [show 8.0525 * (t * p "K") * e = t * (8.0525 * p "K" * e) by ring, qdiv_scale]
      cases qdiv (8.0525 * p "K" * e) (p "kT" * p "kT" * p "kT") with
      | none => rfl
      | some y => simp only [Option.map_some, Option.bind_some, mul_assoc]; exact blackTail_scale _ _ _ _
  case blackbodyRad =>
    cases qdiv e (p "kT") with
    | none => rfl
    | some x =>
      simp only [Option.bind_eq_bind, Option.bind_some]
      rw [show 1.0344e-3 * (t * p "K") * e * p "kT" = t * (1.0344e-3 * p "K" * e * p "kT") by ring,
        show 1.0344e-3 * (t * p "K") * e * e = t * (1.0344e-3 * p "K" * e * e) by ring]
      exact blackTail_scale _ _ _ _
  case compt => cases qdiv (p "alpha" - 2) (p "Ep") <;> cases qpow e (-p "alpha") <;> simp [mul_assoc]
  case cutoffPL => cases qdiv (-e) (p "Ec") <;> cases qpow e (-p "alpha") <;> simp [mul_assoc]
  case gauss =>
    cases qdiv ((e - p "El") ^ 2) (2 * p "sigma" ^ 2) with
    | none => rfl
    | some x =>
      simp only [Option.bind_eq_bind, Option.bind_some]
      cases qdiv (exp (-x)) (sqrt (2 * π) * p "sigma") <;> simp [mul_assoc]
  case ottb =>
    cases qdiv (1 - e) (p "kT") with
    | none => rfl
    | some x => simp only [Option.bind_eq_bind, Option.bind_some, mul_assoc]; exact qdiv_scale _ _ _
  case otts =>
    cases qdiv e (p "Ec") with
    | none => rfl
    | some x =>
      simp only [Option.bind_eq_bind, Option.bind_some]
      cases qpow x (1 / 3) <;> simp [mul_assoc]
  case smoothlyBrokenPL =>
    cases qdiv e (p "Eb") with
    | none => rfl
    | some s =>
      simp only [Option.bind_eq_bind, Option.bind_some]
      cases qlog s with
      | none => rfl
      | some l =>
        simp only [Option.bind_some]
        cases qdiv (p "alpha2" - p "alpha1") (p "rho") with
        | none => rfl
        | some x =>
          simp only [Option.bind_some]
          generalize (if x * l > 30 then p "alpha2" else p "alpha1") = al
          generalize (if |x * l| > 30 then (0.5 : ℝ) else 0.5 * (1 + exp (x * l))) = r
          cases qpow s (-al) <;> cases qpow r (-p "rho") <;> simp [mul_assoc]

theorem quadBin_scale (s a : Bool) (f : ℝ → Option ℝ) (t x y : ℝ) :
    quadBin s a (fun e => (f e).map (t * ·)) x y = (quadBin s a f x y).map (t * ·) := by
  unfold quadBin
  cases s
  · simp only [Bool.false_eq_true, if_false]
    cases f x <;> cases f y <;> simp
    ring
  · simp only [if_true]
    cases f x <;> cases f (0.5 * (x + y)) <;> cases f y <;> simp
    ring

theorem bin_scale (o : Options) (p : String → ℝ) (c : Cls) (hc : c.type = .add) (t a b : ℝ) :
    binValue o (brighter c t p) c a b = (binValue o p c a b).map (t * ·) := by
  by_cases hn : Numeric c = true
  · have key : ∀ q, binValue o q c a b = quadBin o.simpson (c.type = .add) (continuum o q c) a b := by
      intro q; cases c <;> first | rfl | (simp [Numeric] at hn)
    rw [key, key, ← quadBin_scale]
    congr 1
    funext e
    exact continuum_scale o p c hc t e
  · cases c <;> simp only [Numeric, Cls.type, reduceCtorEq, Bool.false_eq_true, not_true_eq_false, not_false_eq_true] at hn hc
    all_goals simp only [binValue, brighter, amplitude, String.reduceEq, if_false, if_true]
    case brokenPL =>
      cases qdiv a (p "Eb") with
      | none => rfl
      | some x =>
        simp only [Option.bind_eq_bind, Option.bind_some]
        cases qdiv b (p "Eb") with
        | none => rfl
        | some y =>
          simp only [Option.bind_some]
          cases powBin (if a ≤ p "Eb" then p "alpha1" else p "alpha2") x y <;> simp [mul_assoc]
    case lorentz =>
      cases qdiv (2 * (a - p "El")) (p "sigma") with
      | none => rfl
      | some x =>
        simp only [Option.bind_eq_bind, Option.bind_some]
        cases qdiv (2 * (b - p "El")) (p "sigma") with
        | none => rfl
        | some y =>
          simp only [Option.bind_some]
          cases qdiv (2 * p "El") (p "sigma") with
          | none => rfl
          | some d =>
            simp only [Option.bind_some]
            rw [show 2 * (t * p "K") = t * (2 * p "K") by ring, qdiv_scale]
            cases qdiv (2 * p "K") (π + 2 * arctan d) <;> simp [mul_assoc]
    case powerLaw => cases powBin (p "alpha") a b <;> simp [mul_assoc]
    case plPhFlux =>
      cases powBin (p "alpha") o.emin o.emax with
      | none => rfl
      | some f =>
        simp only [Option.bind_eq_bind, Option.bind_some, qdiv_scale]
        cases qdiv (p "F") f with
        | none => rfl
        | some x => cases powBin (p "alpha") a b <;> simp [mul_assoc]
    case plEnFlux =>
      cases powBin (p "alpha" - 1) o.emin o.emax with
      | none => rfl
      | some f =>
        simp only [Option.bind_eq_bind, Option.bind_some, qdiv_scale]
        cases qdiv (p "F") (f * keVToErg) with
        | none => rfl
        | some x => cases powBin (p "alpha") a b <;> simp [mul_assoc]

/-! ## Lemmas: replacing parameters -/

theorem meaning_setPar (lib : Lib (List ℝ) ℕ ℝ (String → ℝ)) (par : Nat → String → ℝ) (id : Nat) (p : String → ℝ) (e : Expr)
    (h : ¬ Occurs id e) : meaning lib (setPar par id p) e = meaning lib par e := by
  induction e with
  | comp i ty =>
    funext g k
    have : i ≠ id := h
    simp only [meaning, setPar, if_neg this]
  | bin op l r hl hr =>
    have h1 : ¬ Occurs id l := fun x => h (Or.inl x)
    have h2 : ¬ Occurs id r := fun x => h (Or.inr x)
    funext g k
    cases op <;> simp only [meaning, hl h1, hr h2]
  | call i m hm =>
    have h1 : i ≠ id := fun x => h (Or.inl x)
    have h2 : ¬ Occurs id m := fun x => h (Or.inr x)
    funext g k
    simp only [meaning, setPar, if_neg h1, hm h2]

theorem wellSet_setPar (inst : Nat → Inst) (par : Nat → String → ℝ) (id : Nat) (p : String → ℝ) (e : Expr)
    (h : ¬ Occurs id e) (hw : WellSet inst par e) : WellSet inst (setPar par id p) e := by
  induction e with
  | comp i ty =>
    have : i ≠ id := h
    simpa only [WellSet, setPar, if_neg this] using hw
  | bin op l r hl hr => exact ⟨hl (fun x => h (Or.inl x)) hw.1, hr (fun x => h (Or.inr x)) hw.2⟩
  | call i m hm =>
    have h1 : i ≠ id := fun x => h (Or.inl x)
    have h2 : ¬ Occurs id m := fun x => h (Or.inr x)
    have e := meaning_setPar (library inst) par id p m h2
    have e3 : setPar par id p i = par i := if_neg h1
    simp only [WellSet] at hw ⊢
    rw [e, e3]
    exact ⟨hm h2 hw.1, hw.2⟩

/-! ## C136 -/

/-- **C136** (amplitude).  Every additive component of the library is proportional to its amplitude, `K` or `F`, in every bin of every
grid and for all values of its other parameters. -/
theorem C136_amplitude (o : Options) (p : String → ℝ) (c : Cls) (hc : c.type = .add) (t : ℝ) (g : List ℝ) (i : ℕ) :
    (eval o (brighter c t p) c g)[i]? = ((eval o p c g)[i]?).map fun v => v.map (t * ·) := by
  unfold eval
  rw [perBin_getElem?, perBin_getElem?]
  cases g[i]? <;> cases g[i + 1]? <;> simp [bin_scale o p c hc]

example (o : Options) (p : String → ℝ) := C136_amplitude o p .brokenPL rfl 3 [1, 2, 5] 1

/-- The setting that switches a multiplicative component off. -/
noncomputable def off : Cls → String → ℝ
  | .constant, _ => 1
  | .edge, n => if n = "Ec" then 7 else 0
  | .expAbs, _ => 0
  | .expFac, _ => 0
  | .gAbs, n => if n = "sigma" then 0.01 else 0
  | .highECut, n => if n = "Ec" then 1e6 else 15
  | .plAbs, n => if n = "K" then 1 else 0
  | _, _ => 0

theorem off_continuum (o : Options) (c : Cls) (hc : c.type = .mul) (hn : Numeric c = true) (e : ℝ) (he : 0 < e) (h6 : e ≤ 1e6) :
    continuum o (off c) c e = some 1 := by
  cases c <;> simp only [Cls.type, reduceCtorEq] at hc <;> simp only [Numeric, Bool.false_eq_true] at hn
  case edge =>
    simp only [continuum, off, String.reduceEq, if_false, if_true]
    split_ifs with h
    · rw [qdiv_some (by norm_num)]
      simp only [Option.bind_eq_bind, Option.bind_some]
      rw [show qpow (e / 7) 3 = some ((e / 7) ^ (3 : ℝ)) from if_pos (by positivity)]
      simp
    · rfl
  case expAbs => simp [continuum, off, qdiv, he.ne']
  case expFac => simp [continuum, off]
  case gAbs =>
    simp only [continuum, off, String.reduceEq, if_false, if_true]
    have h1 : sqrt (2 * π) * 0.01 ≠ 0 := by positivity
    rw [qdiv_some h1, qdiv_some (by norm_num)]
    simp
  case highECut =>
    simp only [continuum, off, String.reduceEq, if_false, if_true]
    split_ifs with h
    · have : e = 1e6 := le_antisymm h6 h
      rw [qdiv_some (by norm_num), this]
      simp
    · rfl
  all_goals simp [continuum, continuum.photon, off, qlog, he]

/-- **C136** (switched off).  Every multiplicative component of the library has a setting inside its declared bounds for which it is exactly 1 in
every bin of energies up to 1 GeV. -/
theorem C136_off (o : Options) (c : Cls) (hc : c.type = .mul) :
    ∃ p, Within c.config p ∧ Regular o p c ∧ ∀ a b, 0 < a → a < b → b ≤ 1e6 → binValue o p c a b = some 1 := by
  refine ⟨off c, ?_, ?_, ?_⟩
  · cases c <;> simp only [Cls.type, reduceCtorEq] at hc <;> simp [Within, Cls.config, off] <;> norm_num
  · cases c <;> simp only [Cls.type, reduceCtorEq] at hc <;> simp [Regular, off]
    norm_num
  · intro a b ha hab hb
    by_cases hn : Numeric c = true
    · have key : binValue o (off c) c a b = quadBin o.simpson (c.type = .add) (continuum o (off c) c) a b := by
        cases c <;> first | rfl | (simp [Numeric] at hn)
      have hm : (decide (c.type = MType.add)) = false := by simp [hc]
      have h1 := off_continuum o c hc hn a ha (by linarith)
      have h2 := off_continuum o c hc hn b (by linarith) hb
      have h3 := off_continuum o c hc hn (0.5 * (a + b)) (by linarith) (by linarith)
      rw [key, hm]
      unfold quadBin
      rw [h1, h2, h3]
      cases o.simpson <;> simp <;> norm_num
    · cases c <;> simp only [Cls.type, reduceCtorEq] at hc <;> simp only [Numeric, not_true_eq_false] at hn
      · rfl
      · simp only [binValue, off, String.reduceEq, if_false, if_true]
        have hb0 : 0 < b := by linarith
        have hne : b - a ≠ 0 := by linarith
        simp [qdiv, qpow, ha, hb0, hne]

example (o : Options) := C136_off o .tbAbs rfl

/-- **C136** (absorbed models nest).  Putting a multiplicative component of the library in front of a model never makes the best fit worse:
for all parameters of the model there are parameters of the product, inside the declared bounds and the same for the model, with
the same value in every bin of every grid up to 1 GeV - so the same statistic for every data. -/
theorem C136_absorbed {sup : Nat → MType → Bool} (inst : Nat → Inst) (par : Nat → String → ℝ) (id : Nat) (c : Cls) (o : Options)
    (hi : inst id = .comp c o) (hc : c.type = .mul) {e : Expr} (hid : ¬ Occurs id e) {m m' : Mod} (hb : build sup e = .ok m)
    (hb' : build sup (.bin .times (.comp id .mul) e) = .ok m') (hw : WellSet inst par e) :
    ∃ par', WellSet inst par' (.bin .times (.comp id .mul) e) ∧ (∀ k, k ≠ id → par' k = par k) ∧
      ∀ g, Positive g → Increasing g → (∀ x ∈ g, x ≤ 1e6) → ∃ v v', m.compiled (library inst) par g = .ok v ∧
        m'.compiled (library inst) par' g = .ok v' ∧ ∀ i, i + 1 < g.length → v' i = v i := by
  obtain ⟨p, h1, h2, h3⟩ := C136_off o c hc
  refine ⟨setPar par id p, ⟨⟨c, o, hi, hc, ?_, ?_⟩, wellSet_setPar inst par id p e hid hw⟩, fun k hk => by simp [setPar, hk], ?_⟩
  · simpa [setPar] using h1
  · simpa [setPar] using h2
  intro g hp hg h6
  refine ⟨_, _, C31_value (library inst) par hb g, C31_value (library inst) (setPar par id p) hb' g, fun i hlt => ?_⟩
  show meaning (library inst) (setPar par id p) (.comp id .mul) g i * meaning (library inst) (setPar par id p) e g i = _
  rw [meaning_setPar _ _ _ _ _ hid]
  have : meaning (library inst) (setPar par id p) (.comp id .mul) g i = 1 := by
    have hlt' : g[i] < g[i + 1] := (List.isChain_iff_getElem.1 hg) i hlt
    simp only [meaning, library, hi, setPar, if_true, eval, perBin_getElem?, List.getElem?_eq_getElem hlt,
      List.getElem?_eq_getElem (Nat.lt_of_succ_lt hlt)]
    rw [h3 _ _ (hp _ (List.getElem_mem _)) hlt' (h6 _ (List.getElem_mem _))]
    rfl
  rw [this, one_mul]

/-- **C136** (shifted models nest).  The same for the shifts: with shift 0 a shifted model is the model. -/
theorem C136_shifted {sup : Nat → MType → Bool} (inst : Nat → Inst) (par : Nat → String → ℝ) (id : Nat) (c : ConvCls) (o : ConvOptions)
    (hi : inst id = .conv c o) (hc : c = .zaShift ∨ c = .zmShift ∨ c = .vaShift ∨ c = .vmShift) {e : Expr} (hid : ¬ Occurs id e) {m m' : Mod}
    (hb : build sup e = .ok m) (hb' : build sup (.call id e) = .ok m') (hw : WellSet inst par e) :
    ∃ par', WellSet inst par' (.call id e) ∧ (∀ k, k ≠ id → par' k = par k) ∧
      ∀ g, ∃ v v', m.compiled (library inst) par g = .ok v ∧ m'.compiled (library inst) par' g = .ok v' ∧ ∀ i, i + 1 < g.length → v' i = v i := by
  refine ⟨setPar par id fun _ => 0, ⟨wellSet_setPar inst par id _ e hid hw, c, o, hi, ?_, ?_⟩, fun k hk => by simp [setPar, hk], ?_⟩
  · rcases hc with rfl | rfl | rfl | rfl <;> simp [Within, ConvCls.config, setPar] <;> norm_num
  · rcases hc with rfl | rfl | rfl | rfl <;> simp
  intro g
  refine ⟨_, _, C31_value (library inst) par hb g, C31_value (library inst) _ hb' g, fun i hlt => ?_⟩
  have hconv : ∀ f : ModelFn, convolve o (fun _ => 0) c f g = f g := by
    intro f
    rcases hc with rfl | rfl | rfl | rfl <;> simp [convolve, Spectra.zaShift, Spectra.zmShift, Spectra.vShift]
  simp only [meaning, library, hi, setPar, if_true, hconv]
  have e1 := meaning_setPar (library inst) par id (fun _ => 0) e hid
  simp only [setPar, library] at e1
  rw [e1]
  have : i < g.length - 1 := by omega
  simp [List.getD_eq_getElem?_getD, this]

/-- **C136** (adding a component).  A model with a further additive component of the library, whose amplitude is multiplied by `t`, is the
model plus `t` times the component, in every bin; so as the amplitude goes to zero, every continuous statistic goes to that of
the model alone.

`_partial`: the amplitude zero is not within the declared bounds, so the smaller model is a limit of the larger one and not a case of
it; see `C136_added_refuted`. -/
theorem C136_added_partial {sup : Nat → MType → Bool} (inst : Nat → Inst) (par : Nat → String → ℝ) (id : Nat) (c : Cls) (o : Options)
    (hi : inst id = .comp c o) (hc : c.type = .add) {e : Expr} (hid : ¬ Occurs id e) {m m' : Mod} (hb : build sup e = .ok m)
    (hb' : build sup (.bin .plus e (.comp id .add)) = .ok m') (g : List ℝ) :
    ∃ v w : ℕ → ℝ, m.compiled (library inst) par g = .ok v ∧
      (∀ t, m'.compiled (library inst) (setPar par id (brighter c t (par id))) g = .ok fun i => v i + t * w i) ∧
      ∀ F : (ℕ → ℝ) → ℝ, Continuous F → Filter.Tendsto (fun t : ℝ => F fun i => v i + t * w i) (𝓝[>] 0) (𝓝 (F v)) := by
  refine ⟨_, fun i => meaning (library inst) par (.comp id .add) g i, C31_value (library inst) par hb g, fun t => ?_, fun F hF => ?_⟩
  · rw [C31_value (library inst) _ hb' g]
    congr 1
    funext i
    show meaning (library inst) _ e g i + meaning (library inst) _ (.comp id .add) g i = _
    rw [meaning_setPar _ _ _ _ _ hid]
    congr 1
    simp only [meaning, library, hi, setPar, if_true]
    rw [C136_amplitude o (par id) c hc t g i]
    cases (eval o (par id) c g)[i]? with
    | none => simp
    | some x => cases x <;> simp
  · have : Continuous fun t : ℝ => F fun i => meaning (library inst) par e g i + t * meaning (library inst) par (.comp id .add) g i :=
      hF.comp (continuous_pi fun i => continuous_const.add (continuous_id.mul continuous_const))
    have h0 := (this.tendsto 0).mono_left (nhdsWithin_le_nhds (s := Set.Ioi (0 : ℝ)))
    simpa using h0

/-! ## A component that cannot be switched off -/

/-- No counts at all. -/
noncomputable def zeroFit : FitData := { exFit with specCounts := [0] }

/-- Two thermal spectra. -/
noncomputable def twoInst : Nat → Inst := fun _ => .comp .ottb ⟨false, 1, 2, []⟩

set_option exponentiation.threshold 400 in
theorem zero_stat (u : ℝ) (h1 : 1e-30 ≤ u) (h2 : u ≤ 1e15) :
    ∃ s, fitSites [(.cstat, zeroFit, [u])] = .ok s ∧ (deviance (getLoglike s)).total = 2 * u := by
  refine ⟨_, rfl, ?_⟩
  have e1 : clip (1e-300) (1e300) u = u := by
    unfold clip
    rw [max_eq_left (le_trans (by norm_num) h1), min_eq_left (le_trans h2 (by norm_num))]
  have e2 : clip (1e-30) (1e15) u = u := by
    unfold clip
    rw [max_eq_left h1, min_eq_left h2]
  have h0 : 0 ≤ u := le_trans (by norm_num) h1
  simp [deviance, getLoglike, zeroFit, exFit, FitData.size, FitData.sourceCounts, FitData.sourceRate, nth, poissonLogProb, Grouping.xlogy, e1, e2, h0]

theorem ottb_bin (p : String → ℝ) (hk : 0 < p "kT") :
    binValue ⟨false, 1, 2, []⟩ p .ottb 1 2 = some (0.5 * (p "K" + p "K" * exp (-1 / p "kT") / 2)) := by
  simp only [binValue, quadBin, continuum, Bool.false_eq_true, if_false, Cls.type]
  rw [qdiv_some hk.ne', qdiv_some hk.ne']
  simp only [Option.bind_eq_bind, Option.bind_some]
  rw [qdiv_some (by norm_num), qdiv_some (by norm_num)]
  simp only [Option.bind_some]
  norm_num

/-- **C136** (refuted: added components).  With the declared bounds, adding a component can make the best fit worse: with no counts in the
data, one thermal spectrum fits strictly better than two thermal spectra with any parameters, because no amplitude is below 1e-10. -/
theorem C136_added_refuted : ∃ (m m' : Mod) (best : Nat → String → ℝ) (D₀ : ℝ) (v₀ : ℕ → ℝ) (s₀ : List Sites),
    build (fun _ _ => true) (.comp 0 .add) = .ok m ∧ build (fun _ _ => true) (.bin .plus (.comp 0 .add) (.comp 1 .add)) = .ok m' ∧
    WellSet twoInst best (.comp 0 .add) ∧ m.compiled (library twoInst) best [1, 2] = .ok v₀ ∧
    fitSites [(.cstat, zeroFit, [v₀ 0])] = .ok s₀ ∧ (deviance (getLoglike s₀)).total = D₀ ∧
    ∀ par, WellSet twoInst par (.bin .plus (.comp 0 .add) (.comp 1 .add)) →
      ∃ v s, m'.compiled (library twoInst) par [1, 2] = .ok v ∧ fitSites [(.cstat, zeroFit, [v 0])] = .ok s ∧
        D₀ < (deviance (getLoglike s)).total := by
  have val : ∀ (par : Nat → String → ℝ) (k : Nat), 0 < par k "kT" →
      meaning (library twoInst) par (.comp k .add) [1, 2] 0 = 0.5 * (par k "K" + par k "K" * exp (-1 / par k "kT") / 2) := by
    intro par k hk
    simp only [meaning, library, twoInst, eval, perBin_getElem?]
    simp [ottb_bin (par k) hk]
  have bnd : ∀ (par : Nat → String → ℝ) (k : Nat), WellSet twoInst par (.comp k .add) →
      0.1 ≤ par k "kT" ∧ 1e-10 ≤ par k "K" ∧ par k "K" ≤ 1e10 := by
    rintro par k ⟨c, o, h1, -, h2, -⟩
    have : c = .ottb := by
      simp only [twoInst, Inst.comp.injEq] at h1
      exact h1.1.symm
    subst this
    simp only [Within, Cls.config, List.forall_mem_cons, List.not_mem_nil, false_imp_iff, implies_true, and_true] at h2
    exact ⟨h2.1.1, h2.2.1, h2.2.2⟩
  have up : ∀ x : ℝ, 0 < x → exp (-1 / x) ≤ 1 := by
    intro x hx
    exact exp_le_one_iff.2 (by rw [neg_div]; have := one_div_pos.2 hx; linarith)
  set best : Nat → String → ℝ := fun _ n => if n = "kT" then 0.1 else 1e-10 with hbest
  have hv0 : meaning (library twoInst) best (.comp 0 .add) [1, 2] 0 = 0.5 * (1e-10 + 1e-10 * exp (-1 / 0.1) / 2) := by
    rw [val best 0 (by simp [hbest]; norm_num)]
    simp [hbest]
  have hE0 := exp_pos (-1 / 0.1 : ℝ)
  have hE1 := up 0.1 (by norm_num)
  obtain ⟨s₀, hs₀, hD₀⟩ := zero_stat (meaning (library twoInst) best (.comp 0 .add) [1, 2] 0) (by rw [hv0]; norm_num at hE0 ⊢; linarith)
    (by rw [hv0]; generalize exp (-1 / 0.1 : ℝ) = E at hE1; norm_num; linarith)
  refine ⟨_, _, best, _, _, s₀, rfl, rfl, ⟨.ottb, _, rfl, rfl, ?_, trivial⟩, C31_value (library twoInst) best (e := .comp 0 .add) (sup := fun _ _ => true) rfl [1, 2],
    hs₀, hD₀, ?_⟩
  · simp [Within, Cls.config, hbest]; norm_num
  intro par hw
  obtain ⟨a1, a2, a3⟩ := bnd par 0 hw.1
  obtain ⟨b1, b2, b3⟩ := bnd par 1 hw.2
  have hk0 : 0 < par 0 "kT" := by linarith
  have hk1 : 0 < par 1 "kT" := by linarith
  have e0 := val par 0 hk0
  have e1 := val par 1 hk1
  have u0 := up _ hk0
  have u1 := up _ hk1
  have p0 := exp_pos (-1 / par 0 "kT")
  have p1 := exp_pos (-1 / par 1 "kT")
  have hsum : meaning (library twoInst) par (.bin .plus (.comp 0 .add) (.comp 1 .add)) [1, 2] 0
      = 0.5 * (par 0 "K" + par 0 "K" * exp (-1 / par 0 "kT") / 2) + 0.5 * (par 1 "K" + par 1 "K" * exp (-1 / par 1 "kT") / 2) := by
    show meaning (library twoInst) par (.comp 0 .add) [1, 2] 0 + meaning (library twoInst) par (.comp 1 .add) [1, 2] 0 = _
    rw [e0, e1]
  have k0 : 0 < par 0 "K" := lt_of_lt_of_le (by norm_num) a2
  have k1 : 0 < par 1 "K" := lt_of_lt_of_le (by norm_num) b2
  have mono : exp (-1 / 0.1) ≤ exp (-1 / par 0 "kT") := by
    apply exp_le_exp.2
    rw [neg_div, neg_div]
    exact neg_le_neg (one_div_le_one_div_of_le (by norm_num) a1)
  have q0 : par 0 "K" * exp (-1 / par 0 "kT") ≤ 1e10 := le_trans (mul_le_mul a3 u0 p0.le (by norm_num)) (by norm_num)
  have q1 : par 1 "K" * exp (-1 / par 1 "kT") ≤ 1e10 := le_trans (mul_le_mul b3 u1 p1.le (by norm_num)) (by norm_num)
  have r0 : 1e-10 * exp (-1 / 0.1) ≤ par 0 "K" * exp (-1 / par 0 "kT") := mul_le_mul a2 mono hE0.le k0.le
  have r1 := mul_pos k1 p1
  have r2 := mul_pos k0 p0
  obtain ⟨s, hs, hD⟩ := zero_stat (meaning (library twoInst) par (.bin .plus (.comp 0 .add) (.comp 1 .add)) [1, 2] 0)
    (by rw [hsum]; norm_num at a2 ⊢; linarith) (by rw [hsum]; norm_num at q0 q1 a3 b3 ⊢; linarith)
  refine ⟨_, s, C31_value (library twoInst) par (e := .bin .plus (.comp 0 .add) (.comp 1 .add)) (sup := fun _ _ => true) rfl [1, 2], hs, ?_⟩
  rw [hD, hsum, hv0]
  nlinarith

/-! ## Cases -/

example : ∃ (m m' : Mod) (par' : Nat → String → ℝ), build (fun _ _ => true) (.comp 2 .add) = .ok m ∧
    build (fun _ _ => true) (.bin .times (.comp 0 .mul) (.comp 2 .add)) = .ok m' ∧ par' 2 = demoPar 2 ∧
    ∃ v v', m.compiled (library demoInst) demoPar [1, 2, 4] = .ok v ∧ m'.compiled (library demoInst) par' [1, 2, 4] = .ok v' ∧ v' 1 = v 1 := by
  obtain ⟨par', -, h2, h3⟩ := C136_absorbed (sup := fun _ _ => true) (e := .comp 2 .add) demoInst demoPar 0 .tbAbs demoOpts rfl rfl
    (by simp [Occurs]) rfl rfl demo_wellSet.2.1.1
  obtain ⟨v, v', k1, k2, k3⟩ := h3 [1, 2, 4] (by intro e he; simp at he; rcases he with rfl | rfl | rfl <;> norm_num)
    (by simp [Increasing]; norm_num) (by intro e he; simp at he; rcases he with rfl | rfl | rfl <;> norm_num)
  exact ⟨_, _, par', rfl, rfl, h2 2 (by norm_num), v, v', k1, k2, k3 1 (by simp)⟩

example : ∃ (m' : Mod) (par' : Nat → String → ℝ), build (fun _ _ => true) (.call 1 (.comp 2 .add)) = .ok m' ∧
    WellSet demoInst par' (.call 1 (.comp 2 .add)) := by
  obtain ⟨par', h1, -⟩ := C136_shifted (sup := fun _ _ => true) (e := .comp 2 .add) demoInst demoPar 1 .zaShift _ rfl (Or.inl rfl)
    (by simp [Occurs]) rfl rfl demo_wellSet.2.1.1
  exact ⟨_, par', rfl, h1⟩

example (F : (ℕ → ℝ) → ℝ) (hF : Continuous F) : ∃ v w : ℕ → ℝ, Filter.Tendsto (fun t : ℝ => F fun i => v i + t * w i) (𝓝[>] 0) (𝓝 (F v)) := by
  obtain ⟨v, w, -, -, h⟩ := C136_added_partial (sup := fun _ _ => true) (e := .comp 2 .add) demoInst demoPar 3 .gauss demoOpts rfl rfl
    (by simp [Occurs]) rfl rfl [1, 2, 4]
  exact ⟨v, w, h F hF⟩

end Elisa.Models.Catalogue.Off
