import Verif.Models.Mul
import Verif.Models.Line
import Verif.Models.Algebra

/-!
# The components of the library, with the bounds of their parameters

Model of the classes of `/repo/src/elisa/models/add.py`, `mul.py` and `conv.py`: their type, the
parameters they declare with default bounds (`_config`), and their evaluation.  Here the arithmetic
is *checked*: a division by zero and a logarithm or a power of a number that is not positive give no
number (`none`), where the code would go on with an infinity or NaN.

Simplifications: rounding and overflow are left out; the cross-section tables of the photon
absorption components are an arbitrary table; the components `DoubleBrokenPL`,
`DoubleSmoothlyBrokenPL` and `LogParabola`, which are declared without a body, are left out.
-/

namespace Elisa.Models.Catalogue

open Elisa.Models.Spectra Elisa.Models.Algebra Real

/-- The exported classes of add.py:19-37 and mul.py:24-35. -/
inductive Cls where
  | band | bandEp | bentPL | blackbody | blackbodyRad | brokenPL | compt | cutoffPL | gauss | lorentz | ottb | otts
  | plEnFlux | plPhFlux | powerLaw | smoothlyBrokenPL
  | constant | edge | expAbs | expFac | gAbs | highECut | plAbs | phAbs | tbAbs | wAbs
deriving DecidableEq, Repr

/-- The base class: `AnaIntAdditive`, `NumIntAdditive` or `AnaIntMultiplicative`, `NumIntMultiplicative` (add.py:53-861, mul.py:38-588, model.py:1785-1875). -/
def Cls.type : Cls → MType
  | .constant | .edge | .expAbs | .expFac | .gAbs | .highECut | .plAbs | .phAbs | .tbAbs | .wAbs => .mul
  | _ => .add

/-- `ParamConfig` (model.py:1543-1556): name, default, bounds (LaTeX label, unit, `log`, `fixed` left out). -/
structure Bound where
  name : String
  default : ℝ
  min : ℝ
  max : ℝ

/-- `_config` of every class: add.py:93-98, 170-175, 225-229, 261-264, 312-315, 371-376, 467-471, 428-432, 505-509, 547-551,
585-588, 620-623, 791-802, 747-752, 650-653, 838-844; mul.py:52, 83-86, 114, 148-152, 189-193, 231-234, 261-264, 489-491, 564-566,
625-627. -/
noncomputable def Cls.config : Cls → List Bound
  | .band => [⟨"alpha", -1, -10, 5⟩, ⟨"beta", -2, -10, 10⟩, ⟨"Ec", 300, 10, 1e4⟩, ⟨"K", 1, 1e-10, 1e10⟩]
  | .bandEp => [⟨"alpha", -1, -1.99, 10⟩, ⟨"beta", -2, -10, 10⟩, ⟨"Ep", 300, 10, 1e4⟩, ⟨"K", 1, 1e-10, 1e10⟩]
  | .bentPL => [⟨"alpha", 1.5, -3, 10⟩, ⟨"Eb", 5, 1e-2, 1e6⟩, ⟨"K", 1, 1e-10, 1e10⟩]
  | .blackbody => [⟨"kT", 3, 1e-4, 200⟩, ⟨"K", 1, 1e-10, 1e10⟩]
  | .blackbodyRad => [⟨"kT", 3, 1e-4, 200⟩, ⟨"K", 1, 1e-10, 1e10⟩]
  | .brokenPL => [⟨"alpha1", 1, -3, 10⟩, ⟨"Eb", 5, 1e-2, 1e6⟩, ⟨"alpha2", 2, -3, 10⟩, ⟨"K", 1, 1e-10, 1e10⟩]
  | .compt => [⟨"alpha", 1, -3, 10⟩, ⟨"Ep", 15, 0.01, 1e4⟩, ⟨"K", 1, 1e-10, 1e10⟩]
  | .cutoffPL => [⟨"alpha", 1, -3, 10⟩, ⟨"Ec", 15, 0.01, 1e4⟩, ⟨"K", 1, 1e-10, 1e10⟩]
  | .gauss => [⟨"El", 6.5, 0, 1e6⟩, ⟨"sigma", 0.1, 0, 20⟩, ⟨"K", 1, 1e-10, 1e10⟩]
  | .lorentz => [⟨"El", 6.5, 1e-6, 1e6⟩, ⟨"sigma", 0.1, 1e-3, 20⟩, ⟨"K", 1, 1e-10, 1e10⟩]
  | .ottb => [⟨"kT", 30, 0.1, 1e3⟩, ⟨"K", 1, 1e-10, 1e10⟩]
  | .otts => [⟨"Ec", 100, 1e-3, 1e3⟩, ⟨"K", 1, 1e-10, 1e10⟩]
  | .plEnFlux => [⟨"alpha", 1.01, -3, 10⟩, ⟨"F", 1e-12, 1e-30, 1e30⟩]
  | .plPhFlux => [⟨"alpha", 1.01, -3, 10⟩, ⟨"F", 1, 0.01, 1e10⟩]
  | .powerLaw => [⟨"alpha", 1.01, -3, 10⟩, ⟨"K", 1, 1e-10, 1e10⟩]
  | .smoothlyBrokenPL =>
    [⟨"alpha1", 1, -3, 10⟩, ⟨"Eb", 5, 1e-2, 1e6⟩, ⟨"alpha2", 2, -3, 10⟩, ⟨"rho", 1, 1e-2, 1e2⟩, ⟨"K", 1, 1e-10, 1e10⟩]
  | .constant => [⟨"f", 1, 1e-5, 1e5⟩]
  | .edge => [⟨"Ec", 7, 0, 100⟩, ⟨"D", 1, 0, 10⟩]
  | .expAbs => [⟨"Ec", 2, 0, 200⟩]
  | .expFac => [⟨"A", 1, 0, 1e6⟩, ⟨"f", 1, 0, 1e6⟩, ⟨"Ec", 0.5, 0, 1e6⟩]
  | .gAbs => [⟨"El", 1, 0, 1e6⟩, ⟨"sigma", 0.01, 0, 20⟩, ⟨"tau", 1, 0, 1e6⟩]
  | .highECut => [⟨"Ec", 10, 1e-4, 1e6⟩, ⟨"Ef", 15, 1e-4, 1e6⟩]
  | .plAbs => [⟨"alpha", 2, 0, 5⟩, ⟨"K", 1, 0, 100⟩]
  | .phAbs => [⟨"nH", 1, 0, 1e6⟩]
  | .tbAbs => [⟨"nH", 1, 0, 1e6⟩]
  | .wAbs => [⟨"nH", 1, 0, 1e6⟩]

/-- Settings of an instance: integration method (model.py:1714-1721), flux band (add.py:664-679), cross-section table (mul.py:286-298). -/
structure Options where
  simpson : Bool
  emin : ℝ
  emax : ℝ
  table : List (ℝ × ℝ)

/-! ## Checked arithmetic -/

/-- `a / b` (the divisions in add.py and mul.py, cited at `continuum` and `binValue`, add.py:100-861). -/
noncomputable def qdiv (a b : ℝ) : Option ℝ := if b = 0 then none else some (a / b)

/-- `jnp.log(a)` (the logarithms in add.py:100-861 and mul.py:274-283). -/
noncomputable def qlog (a : ℝ) : Option ℝ := if 0 < a then some (log a) else none

/-- `jnp.power(a, b)` (the powers in add.py:40-861 and mul.py:88-271). -/
noncomputable def qpow (a b : ℝ) : Option ℝ := if 0 < a then some (a ^ b) else none

/-! ## Continua -/

/-- The second half of `Band.continuum` and `BandEp.continuum`, add.py:109-121 and 188-200. -/
noncomputable def bandTail (alpha beta Ec K amb Ebreak e : ℝ) : Option ℝ :=
  if e < Ebreak then do
    let l ← qlog (e / 100)
    let x ← qdiv e Ec
    some (K * exp (alpha * l - x))
  else do
    let l ← qlog (amb * Ec / 100)
    let l' ← qlog (e / 100)
    some (K * exp (amb * l - amb + beta * l'))

/-- The value of `x` in the two black bodies, add.py:266-287 and 317-339. -/
noncomputable def blackTail (x low num : ℝ) : Option ℝ :=
  if x ≤ 1e-4 then some low else if x ≥ 50 then some 0 else qdiv num (exp x - 1)

/-- `continuum` of the numerically integrated classes (add.py:100-121, 177-200, 231-236, 266-287, 317-339, 473-479, 434-439,
511-516, 590-594, 625-629, 846-861; mul.py:88-94, 116-118, 154-159, 195-204, 236-240, 359-388); `none` for the others. -/
noncomputable def continuum (o : Options) (p : String → ℝ) : Cls → ℝ → Option ℝ
  | .band, e => do
    let amb' := p "alpha" - p "beta"
    let invEc ← qdiv 1 (p "Ec")
    let amb := if amb' < invEc then invEc else amb'
    bandTail (p "alpha") (p "beta") (p "Ec") (p "K") amb (p "Ec" * amb) e
  | .bandEp, e => do
    let Ec ← qdiv (p "Ep") (2 + p "alpha")
    let amb' := p "alpha" - p "beta"
    let invEc ← qdiv 1 Ec
    let amb := if amb' < invEc then invEc else amb'
    bandTail (p "alpha") (p "beta") Ec (p "K") amb ((p "alpha" - p "beta") * Ec) e
  | .bentPL, e => do
    let x ← qdiv e (p "Eb")
    let y ← qpow x (p "alpha")
    qdiv (p "K" * 2) (1 + y)
  | .blackbody, e => do
    let x ← qdiv e (p "kT")
    let tmp ← qdiv (8.0525 * p "K" * e) (p "kT" * p "kT" * p "kT")
    blackTail x tmp (tmp * x)
  | .blackbodyRad, e => do
    let x ← qdiv e (p "kT")
    let tmp := 1.0344e-3 * p "K" * e
    blackTail x (tmp * p "kT") (tmp * e)
  | .compt, e => do
    let c ← qdiv (p "alpha" - 2) (p "Ep")
    let y ← qpow e (-p "alpha")
    some (p "K" * y * exp (e * c))
  | .cutoffPL, e => do
    let x ← qdiv (-e) (p "Ec")
    let y ← qpow e (-p "alpha")
    some (p "K" * y * exp x)
  | .gauss, e => do
    let x ← qdiv ((e - p "El") ^ 2) (2 * p "sigma" ^ 2)
    let y ← qdiv (exp (-x)) (sqrt (2 * π) * p "sigma")
    some (p "K" * y)
  | .ottb, e => do
    let x ← qdiv (1 - e) (p "kT")
    qdiv (p "K" * exp x) e
  | .otts, e => do
    let x ← qdiv e (p "Ec")
    let y ← qpow x (1 / 3)
    some (p "K" * exp (-y))
  | .smoothlyBrokenPL, e => do
    let s ← qdiv e (p "Eb")
    let l ← qlog s
    let c ← qdiv (p "alpha2" - p "alpha1") (p "rho")
    let x := c * l
    let alpha := if x > 30 then p "alpha2" else p "alpha1"
    let r := if |x| > 30 then 0.5 else 0.5 * (1 + exp x)
    let y ← qpow s (-alpha)
    let z ← qpow r (-p "rho")
    some (p "K" * y * z)
  | .edge, e =>
    if e ≥ p "Ec" then do
      let x ← qdiv e (p "Ec")
      let y ← qpow x 3
      some (exp (-p "D" * y))
    else some 1
  | .expAbs, e => do
    let x ← qdiv (-p "Ec") e
    some (exp x)
  | .expFac, e => if e ≥ p "Ec" then some (1 + p "A" * exp (-p "f" * e)) else some 1
  | .gAbs, e => do
    let d ← qdiv (-p "tau") (sqrt (2 * π) * p "sigma")
    let x ← qdiv (e - p "El") (p "sigma")
    some (exp (d * exp (-0.5 * x ^ 2)))
  | .highECut, e =>
    if e ≥ p "Ec" then do
      let x ← qdiv (p "Ec" - e) (p "Ef")
      some (exp x)
    else some 1
  | .phAbs, e => photon e
  | .tbAbs, e => photon e
  | .wAbs, e => photon e
  | _, _ => none
where
  /-- `PhotonAbsorption.continuum` with `_make_interp`, mul.py:274-283 and 359-388. -/
  photon (e : ℝ) : Option ℝ := do
    let l ← qlog e
    some (exp (-p "nH" * exp (interp l (o.table.map fun t => log t.1) (o.table.map fun t => log t.2))))

/-! ## Bins -/

/-- `_make_integral`, model.py:1731-1761, on one bin. -/
noncomputable def quadBin (simpson add : Bool) (f : ℝ → Option ℝ) (a b : ℝ) : Option ℝ :=
  if simpson then do
    let x ← f a
    let m ← f (0.5 * (a + b))
    let y ← f b
    some ((if add then (b - a) / 6 else 1 / 6) * (x + 4 * m + y))
  else do
    let x ← f a
    let y ← f b
    some ((if add then 0.5 * (b - a) else 0.5) * (x + y))

/-- `_powerlaw_integral`, add.py:40-50, on one bin. -/
noncomputable def powBin (alpha a b : ℝ) : Option ℝ :=
  if alpha ≠ 1 then do
    let x ← qpow a (1 - alpha)
    let y ← qpow b (1 - alpha)
    let u ← qdiv y (1 - alpha)
    let v ← qdiv x (1 - alpha)
    some (u - v)
  else do
    let x ← qlog a
    let y ← qlog b
    some (y - x)

/-- The value of a component in a bin: `integral` of the analytically integrated classes (add.py:378-393, 553-561, 655-657,
681-709; mul.py:54-56, 265-271), numerical integration of the continuum for the others. -/
noncomputable def binValue (o : Options) (p : String → ℝ) : Cls → ℝ → ℝ → Option ℝ
  | .brokenPL, a, b => do
    let x ← qdiv a (p "Eb")
    let y ← qdiv b (p "Eb")
    let v ← powBin (if a ≤ p "Eb" then p "alpha1" else p "alpha2") x y
    some (p "K" * v)
  | .lorentz, a, b => do
    let x ← qdiv (2 * (a - p "El")) (p "sigma")
    let y ← qdiv (2 * (b - p "El")) (p "sigma")
    let d ← qdiv (2 * p "El") (p "sigma")
    let n ← qdiv (2 * p "K") (π + 2 * arctan d)
    some (n * (arctan y - arctan x))
  | .powerLaw, a, b => do
    let v ← powBin (p "alpha") a b
    some (p "K" * v)
  | .plPhFlux, a, b => do
    let f ← powBin (p "alpha") o.emin o.emax
    let c ← qdiv (p "F") f
    let v ← powBin (p "alpha") a b
    some (c * v)
  | .plEnFlux, a, b => do
    let f ← powBin (p "alpha" - 1) o.emin o.emax
    let c ← qdiv (p "F") (f * keVToErg)
    let v ← powBin (p "alpha") a b
    some (c * v)
  | .constant, _, _ => some (p "f")
  | .plAbs, a, b => do
    let c ← qdiv (p "K") (1 - p "alpha")
    let x ← qpow a (1 - p "alpha")
    let y ← qpow b (1 - p "alpha")
    qdiv (c * y - c * x) (b - a)
  | c, a, b => quadBin o.simpson (c.type = .add) (continuum o p c) a b

/-- `Component.eval` on an energy grid, bin by bin (model.py:1694-1699, 1724-1729). -/
noncomputable def eval (o : Options) (p : String → ℝ) (c : Cls) (egrid : List ℝ) : List (Option ℝ) :=
  perBin (binValue o p c) egrid

/-! ## Convolution components -/

/-- The classes of conv.py (conv.py:18). -/
inductive ConvCls where
  | phFlux | enFlux | zaShift | zmShift | vaShift | vmShift
deriving DecidableEq, Repr

/-- `_config`: conv.py:178-182, 231-241, 291, 327, 365, 404. -/
noncomputable def ConvCls.config : ConvCls → List Bound
  | .phFlux => [⟨"F", 1, 0.01, 1e10⟩]
  | .enFlux => [⟨"F", 1e-12, 1e-30, 1e30⟩]
  | .zaShift => [⟨"z", 0, -0.999, 15⟩]
  | .zmShift => [⟨"z", 0, -0.999, 15⟩]
  | .vaShift => [⟨"v", 0, -1e4, 1e4⟩]
  | .vmShift => [⟨"v", 0, -1e4, 1e4⟩]

/-- Settings of the flux convolutions: conv.py:21-43. -/
structure ConvOptions where
  emin : ℝ
  emax : ℝ
  ngrid : ℕ
  elog : Bool

/-- `ConvolutionComponent.eval` applied to a model function: `Verif.Models.Spectra` (conv.py:47-96, 185-195, 244-256, 294-300, 330-336, 368-376, 407-415). -/
noncomputable def convolve (o : ConvOptions) (p : String → ℝ) : ConvCls → ModelFn → ModelFn
  | .phFlux => Spectra.phFlux o.emin o.emax (p "F") o.ngrid o.elog
  | .enFlux => Spectra.enFlux o.emin o.emax (p "F") o.ngrid o.elog
  | .zaShift => Spectra.zaShift (p "z")
  | .zmShift => Spectra.zmShift (p "z")
  | .vaShift => Spectra.vShift (p "v")
  | .vmShift => Spectra.vShift (p "v")

/-- What an id in a model expression stands for (model.py:1179-1186, 1877-1882). -/
inductive Inst where
  | comp (c : Cls) (o : Options)
  | conv (c : ConvCls) (o : ConvOptions)

/-- The component functions of `Verif.Models.Algebra`, for instances of the library classes; the parameters of a component are
given by slot name (model.py:1189-1198, 1946-1956). -/
noncomputable def library (inst : Nat → Inst) : Lib (List ℝ) ℕ ℝ (String → ℝ) where
  fn id g p i := match inst id with
    | .comp c o => (((eval o p c g)[i]?).bind fun v => v).getD 0
    | .conv _ _ => 0
  conv id f g p i := match inst id with
    | .comp _ _ => 0
    | .conv c o => (convolve o p c (fun h => (List.range (h.length - 1)).map (f h)) g).getD i 0

end Elisa.Models.Catalogue
