import Verif.Infer.Params
import Mathlib.Data.List.MinMax
import Mathlib.Algebra.Order.Group.Int

/-!
# Model of the maximum-likelihood entry point `MaxLikeFit.mle` (`src/elisa/infer/fit.py`)

The optimisation engines (optimistix, jaxns, iminuit) are parameters of the model: deterministic functions
of the settings they are given and of the start vector, which may fail.  What is modelled is what the
code around them does: how the start vector is assembled, which settings reach which engine, what is
cached on the fit object, and what survives a failure.  `K` is the type of log-likelihood values and `V`
that of parameter values; rounding and NaN are not modelled.
-/

namespace Elisa.Infer

open Elisa

/-- Settings burnt into the cached Levenberg-Marquardt solver (fit.py:181-198). -/
structure LmSettings where
  maxSteps : Int
  throw : Bool
  verbose : Bool
deriving DecidableEq, Repr

/-- Settings burnt into the cached nested sampler (fit.py:205-212). -/
structure NsSettings where
  maxSamples : Int
  verbose : Bool
deriving DecidableEq, Repr

/-- Settings of a Minuit run (fit.py:492-498). -/
structure MinuitSettings where
  ncall : Int
  throw : Bool
  verbose : Bool
deriving DecidableEq, Repr

/-- One sample of the nested-sampling search (fit.py:219-226): the parameters, and for each data set the
log-likelihood of each channel. -/
structure NsSample (V K : Type) where
  values : List (String × V)
  loglike : List (List K)

/-- The engines: `constr_arr_to_unconstr_arr` (helper.py:428-434), `optx.least_squares` (fit.py:188-194),
`JAXNSSampler.run` (fit.py:215) and `Minuit.migrad` (fit.py:477-500). -/
structure Engines (V K R : Type) where
  unconstr : List V → Except PyErr (List V)
  lm : LmSettings → List V → Except PyErr (List V)
  ns : NsSettings → List (NsSample V K)
  minuit : MinuitSettings → List V → Except PyErr R

/-- What a fit knows about its free parameters (helper.py:376, 445-456). -/
structure FreeTable (V : Type) where
  names : List String
  default : List (String × V)

/-- The two cached engines of a fit object: `_lm` and `_ns` (fit.py:81-82, 181, 204); the results of the
nested sampler are `None` until its `run` has ended (jaxns.py:92, 213). -/
structure Session (V K : Type) where
  lm : Option LmSettings
  ns : Option (Option (List (NsSample V K)))

/-- A new fit object (fit.py:96-171). -/
def Session.fresh {V K : Type} : Session V K := ⟨none, none⟩

/-- The arguments of `mle` (fit.py:502-509).  `crash` is an exception (out of memory, keyboard interrupt)
that would hit the nested-sampling search if this call runs one. -/
structure MleCall (V : Type) where
  init : Option (List (String × V)) := none
  method : String := "minuit"
  maxSteps : Option Int := none
  throw : Bool := true
  verbose : Bool := false
  crash : Option PyErr := none

/-- `free_default | dict(init)` (fit.py:543-546); a repeated key keeps its last value. -/
def mergeInit {V : Type} (default : List (String × V)) : Option (List (String × V)) → List (String × V)
  | none => default
  | some init => (dictOf init).foldl (fun d x => dictSet d x.1 x.2) default

/-- `constr_dic_to_unconstr_arr` (helper.py:436-442): the values of the free parameters, in their order;
other keys of the mapping are not looked at. -/
def dicToUnconstr {V K R : Type} (e : Engines V K R) (names : List String) (dic : List (String × V)) :
    Except PyErr (List V) :=
  dicToArr names dic >>= e.unconstr

/-- `_optimize_lm` (fit.py:173-200): the solver is built on the first call, with the settings of that
call. -/
def optimizeLm {V K R : Type} (e : Engines V K R) (s : Session V K) (init : List V) (cfg : LmSettings) :
    Session V K × Except PyErr (List V) :=
  match s.lm with
  | some old => (s, e.lm old init)
  | none => ({ s with lm := some cfg }, e.lm cfg init)

/-- The total log-likelihood of a sample (fit.py:220-223). -/
def NsSample.total {V K : Type} [AddCommMonoid K] (x : NsSample V K) : K := (x.loglike.map List.sum).sum

/-- `xs[argmax(f)]` (fit.py:223-224): the first sample with the largest value; `argmax` of an empty array
raises `ValueError`. -/
def argmaxBy {A K : Type} [LinearOrder K] (f : A → K) (xs : List A) : Except PyErr A :=
  match xs.argmax f with
  | some a => .ok a
  | none => .error .valueError

/-- `_optimize_ns` after the search (fit.py:217-226); `ns._results` is `None` if the search never ended, so
reading its samples raises `AttributeError`. -/
def nsBest {V K R : Type} [AddCommMonoid K] [LinearOrder K] (e : Engines V K R) (names : List String)
    (results : Option (List (NsSample V K))) : Except PyErr (List V) :=
  match results with
  | none => .error .attributeError
  | some xs => do
    let best ← argmaxBy NsSample.total xs
    let mle ← names.mapM fun i => (dictGet best.values i).map fun v => (i, v)
    dicToUnconstr e names mle

/-- `_optimize_ns` (fit.py:202-226): the sampler is stored on the fit before it is run. -/
def optimizeNs {V K R : Type} [AddCommMonoid K] [LinearOrder K] (e : Engines V K R) (names : List String)
    (s : Session V K) (cfg : NsSettings) (crash : Option PyErr) : Session V K × Except PyErr (List V) :=
  match s.ns with
  | some results => (s, nsBest e names results)
  | none =>
    match crash with
    | some err => ({ s with ns := some none }, .error err)
    | none => ({ s with ns := some (some (e.ns cfg)) }, nsBest e names (some (e.ns cfg)))

/-- The vector Minuit starts from, and the caches afterwards (fit.py:550-560). -/
def mleStart {V K R : Type} [AddCommMonoid K] [LinearOrder K] (e : Engines V K R) (t : FreeTable V)
    (s : Session V K) (c : MleCall V) (maxSteps : Int) (init : List V) :
    Session V K × Except PyErr (List V) :=
  if c.method = "lm" then optimizeLm e s init ⟨maxSteps, c.throw, c.verbose⟩
  else if c.method = "ns" then optimizeNs e t.names s ⟨maxSteps, c.verbose⟩ c.crash
  else if c.method = "minuit" then (s, .ok init)
  else (s, .error .valueError)

/-- `MaxLikeFit.mle` (fit.py:502-564). -/
def mle {V K R : Type} [AddCommMonoid K] [LinearOrder K] (e : Engines V K R) (t : FreeTable V)
    (s : Session V K) (c : MleCall V) : Session V K × Except PyErr R :=
  match dicToUnconstr e t.names (mergeInit t.default c.init) with
  | .error err => (s, .error err)
  | .ok init =>
    let maxSteps := c.maxSteps.getD 131072
    let r := mleStart e t s c maxSteps init
    (r.1, r.2 >>= e.minuit ⟨maxSteps, c.throw, c.verbose⟩)

/-- The fit object after a history of calls, exceptions being caught by the user (a sequence of calls of fit.py:502-565). -/
def mleHistory {V K R : Type} [AddCommMonoid K] [LinearOrder K] (e : Engines V K R) (t : FreeTable V)
    (cs : List (MleCall V)) : Session V K :=
  cs.foldl (fun s c => (mle e t s c).1) Session.fresh

end Elisa.Infer
