import Verif.Models.Param
import Verif.Models.Mul
import Mathlib.Tactic

/-!
# Settings of components

Components have settings besides their parameters: the band, number of grid points and spacing of the
flux-normalising convolutions (`/repo/src/elisa/models/conv.py:21-141`), the integration method of
the numerically integrated components (`/repo/src/elisa/models/model.py:1707-1782`), and the
abundance and cross section tables of the absorption components
(`/repo/src/elisa/models/mul.py:302-426`).  They are Python properties that can be set at any time;
`eval` returns a compiled function and, for the convolutions, reuses the previous one when it
believes that the settings did not change.

A compiled function is represented by the settings baked into it.
-/

namespace Elisa.Models.Settings

/-- What the setters raise (conv.py:102-142). -/
inductive SErr where
  | valueError
  | overflowError
  | keyError
deriving DecidableEq, Repr

/-- `int(x)` for a Python number: truncation; NaN is a `ValueError`, an infinity an `OverflowError` (conv.py:131-133). -/
def pyInt : Val → Except SErr Int
  | .fin r => .ok (if 0 ≤ r then ⌊r⌋ else ⌈r⌉)
  | .nan => .error .valueError
  | .ninf => .error .overflowError
  | .pinf => .error .overflowError

/-! ## Flux normalisation -/

/-- The settings of a `NormConvolution` (conv.py:26-45). -/
structure Band where
  emin : Val
  emax : Val
  ngrid : Int
  elog : Bool
deriving DecidableEq, Repr

/-- A `NormConvolution` object: the settings, `_prev_config` and `_convolve_jit` (the latter as the
settings of the energy grid captured by the closure). `obtained` is ghost: all functions handed out
so far, oldest first (conv.py:26-45, 76-100). -/
structure Norm where
  cur : Band
  prev : Option Band
  jit : Option Band
  obtained : List Band
deriving DecidableEq, Repr

/-- The `emax` setter, conv.py:118-123. -/
def setEmax (c : Band) (v : Val) : Except SErr Band :=
  if Val.le v c.emin then .error .valueError else .ok { c with emax := v }

/-- The `emin` setter, conv.py:106-111. -/
def setEmin (c : Band) (v : Val) : Except SErr Band :=
  if Val.le c.emax v then .error .valueError else .ok { c with emin := v }

/-- The `ngrid` setter, conv.py:130-132. -/
def setNgrid (c : Band) (v : Val) : Except SErr Band :=
  match pyInt v with
  | .error e => .error e
  | .ok n => .ok { c with ngrid := n }

/-- The `elog` setter, conv.py:140-141. -/
def setElog (c : Band) (b : Bool) : Except SErr Band := .ok { c with elog := b }

/-- `__init__`, conv.py:26-43: `_emin` is stored unchecked, then `emax` goes through its setter; 1000
points and a logarithmic grid by default. -/
def Norm.init (emin emax : Val) (ngrid : Option Val) (elog : Option Bool) : Except SErr Norm :=
  match setEmax ⟨emin, .nan, 0, true⟩ emax with
  | .error e => .error e
  | .ok c =>
    match setNgrid c (ngrid.getD (.fin 1000)) with
    | .error e => .error e
    | .ok c => .ok ⟨{ c with elog := elog.getD true }, none, none, []⟩

/-- `eval`, conv.py:75-99. Building the grid with a negative number of points is a `ValueError`. The
comparison of tuples compares elements by identity and then by `==`; the elements are the stored
objects, so a NaN equals itself unless it was assigned anew, in which case the same function is built
once more. -/
def Norm.eval (s : Norm) : Except SErr (Norm × Band) :=
  match s.jit with
  | some f =>
    if s.prev = some s.cur then .ok ({ s with obtained := s.obtained ++ [f] }, f)
    else if s.cur.ngrid < 0 then .error .valueError
    else .ok ({ s with prev := some s.cur, jit := some s.cur, obtained := s.obtained ++ [s.cur] }, s.cur)
  | none =>
    if s.cur.ngrid < 0 then .error .valueError
    else .ok ({ s with prev := some s.cur, jit := some s.cur, obtained := s.obtained ++ [s.cur] }, s.cur)

/-- What a user can do with the object (conv.py:76-142). -/
inductive NormOp where
  | emin (v : Val)
  | emax (v : Val)
  | ngrid (v : Val)
  | elog (b : Bool)
  | eval
deriving DecidableEq, Repr

/-- Store the outcome of a setter (conv.py:107-142). -/
def Norm.store (s : Norm) : Except SErr Band → Except SErr Norm
  | .ok c => .ok { s with cur := c }
  | .error e => .error e

/-- One operation (conv.py:76-142). -/
def Norm.step (s : Norm) : NormOp → Except SErr Norm
  | .emin v => s.store (setEmin s.cur v)
  | .emax v => s.store (setEmax s.cur v)
  | .ngrid v => s.store (setNgrid s.cur v)
  | .elog b => s.store (setElog s.cur b)
  | .eval => match s.eval with
    | .ok (s', _) => .ok s'
    | .error e => .error e

/-- A history in which exceptions are caught: the object is left as it was (a sequence of operations, conv.py:76-142). -/
def Norm.run (s : Norm) : List NormOp → Norm
  | [] => s
  | op :: ops => match s.step op with
    | .ok s' => s'.run ops
    | .error _ => s.run ops

/-! ## Integration method -/

/-- `method` (model.py:1774-1782). -/
inductive Method where
  | trapz
  | simpson
deriving DecidableEq, Repr

/-- The `method` setter, model.py:1774-1782. -/
def parseMethod (s : String) : Except SErr Method :=
  if s = "trapz" then .ok .trapz else if s = "simpson" then .ok .simpson else .error .valueError

/-! ## Absorption components -/

/-- The three absorption classes, mul.py:428-635. -/
inductive AbsKind where
  | phAbs
  | tbAbs
  | wAbs
deriving DecidableEq, Repr

/-- mul.py:496-506 and 571-581. -/
def abundances : List String := ["angr", "aspl", "feld", "aneb", "grsa", "wilm", "lodd", "lpgp", "lpgs"]

/-- `abund_list`, mul.py:493-506, 568-581, 629-631. -/
def abundList : AbsKind → List String
  | .phAbs => abundances
  | .tbAbs => abundances
  | .wAbs => ["aneb"]

/-- `xsect_list`, mul.py:508-511, 583-585, 633-635. -/
def xsectList : AbsKind → List String
  | .phAbs => ["bcmc", "obcm", "vern"]
  | .tbAbs => ["vern"]
  | .wAbs => ["wabs"]

/-- `_default_abund`, mul.py:487, 562, 623. -/
def defaultAbund : AbsKind → String
  | .phAbs => "angr"
  | .tbAbs => "wilm"
  | .wAbs => "aneb"

/-- `_default_xsect`, mul.py:488, 563, 624. -/
def defaultXsect : AbsKind → String
  | .phAbs => "vern"
  | .tbAbs => "vern"
  | .wAbs => "wabs"

/-- `self.__class__.__name__.lower()`, mul.py:345. -/
def tableName : AbsKind → String
  | .phAbs => "phabs"
  | .tbAbs => "tbabs"
  | .wAbs => "wabs"

/-- The datasets of `xsect.hdf5`: (model, cross section, abundance), as written by
tables/generate_xsect_table.py:108-139. The numbers themselves are data. -/
def tableKeys : List (String × String × String) :=
  (["bcmc", "obcm", "vern"].flatMap fun x => abundances.map fun a => ("phabs", x, a)) ++
  (abundances.map fun a => ("tbabs", "vern", a)) ++ [("wabs", "wabs", "aneb")]

/-- `_XSECT_INTERP[abs_model][xsect][abund]`, mul.py:385 (the dictionary of 281-292). -/
def tableLookup {T : Type} (tab : String × String × String → T) (m x a : String) : Except SErr T :=
  if (m, x, a) ∈ tableKeys then .ok (tab (m, x, a)) else .error .keyError

/-- Settings of an absorption component (mul.py:315-340). -/
structure Abs where
  kind : AbsKind
  abund : String
  xsect : String
  method : Method
deriving DecidableEq, Repr

/-- The `abund` setter, mul.py:395-401. -/
def setAbund (s : Abs) (a : String) : Except SErr Abs :=
  if a ∈ abundList s.kind then .ok { s with abund := a } else .error .valueError

/-- The `xsect` setter, mul.py:414-420. -/
def setXsect (s : Abs) (x : String) : Except SErr Abs :=
  if x ∈ xsectList s.kind then .ok { s with xsect := x } else .error .valueError

/-- The `method` setter on the object (model.py:1775-1782). -/
def setMethod (s : Abs) (m : String) : Except SErr Abs :=
  match parseMethod m with
  | .ok v => .ok { s with method := v }
  | .error e => .error e

/-- `__init__`, mul.py:316-340: table, cross section, then the method (default 'trapz', model.py:1720). -/
def Abs.init (k : AbsKind) (abund xsect method : Option String) : Except SErr Abs :=
  match setAbund ⟨k, "", "", .trapz⟩ (abund.getD (defaultAbund k)) with
  | .error e => .error e
  | .ok s =>
    match setXsect s (xsect.getD (defaultXsect k)) with
    | .error e => .error e
    | .ok s => setMethod s (method.getD "trapz")

/-- Operations on an absorption component (mul.py:391-422, model.py:1775-1782). -/
inductive AbsOp where
  | abund (a : String)
  | xsect (x : String)
  | method (m : String)
deriving DecidableEq, Repr

/-- One assignment (mul.py:391-422, model.py:1775-1782). -/
def Abs.step (s : Abs) : AbsOp → Except SErr Abs
  | .abund a => setAbund s a
  | .xsect x => setXsect s x
  | .method m => setMethod s m

/-- A history of assignments, exceptions caught (a sequence of assignments, mul.py:391-422). -/
def Abs.run (s : Abs) : List AbsOp → Abs
  | [] => s
  | op :: ops => match s.step op with
    | .ok s' => s'.run ops
    | .error _ => s.run ops

open Spectra in
/-- The function returned by `eval`, mul.py:342-357 and 386-388 with `_make_integral`
(model.py:1732-1765): settings are read when `eval` is requested. `tab` holds the tables. -/
noncomputable def Abs.eval (tab : String × String × String → List (ℝ × ℝ)) (s : Abs) (nH : ℝ) (egrid : List ℝ) :
    Except SErr (List ℝ) :=
  match tableLookup tab (tableName s.kind) s.xsect s.abund with
  | .error e => .error e
  | .ok t => .ok (match s.method with
    | .trapz => trapz false (photonAbs t nH) egrid
    | .simpson => simpson false (photonAbs t nH) egrid)

end Elisa.Models.Settings
