import Mathlib.Data.List.Count
import Mathlib.Tactic

/-!
# Name generation

Model of `build_namespace` (`/repo/src/elisa/util/misc.py:189-234`) and of the component names used by a
fit (`/repo/src/elisa/infer/fit.py:109-135` with `add_suffix`, `misc.py:98-186`, default templates).
-/

namespace Elisa.Util.Names

/-- The loop of misc.py:215-222: `namespace` is the list of names seen, `counter` the dictionary of
occurrence counts; the result is `suffixes_n`. -/
def suffixLoop (namespace_ : List String) (counter : String → Nat) : List String → List Nat
  | [] => []
  | name :: rest =>
    if name ∈ namespace_ then
      (counter name + 1) :: suffixLoop namespace_ (Function.update counter name (counter name + 1)) rest
    else
      1 :: suffixLoop (namespace_ ++ [name]) (Function.update counter name 1) rest

/-- `suffixes_n`, misc.py:211-222. -/
def suffixNums (names : List String) : List Nat := suffixLoop [] (fun _ => 0) names

/-- The three suffix styles (util/misc.py:189-234). -/
inductive Style where
  | number      -- `'_%d'`
  | latex       -- `'_{%d}'`
  | prime       -- primes
deriving DecidableEq, Repr

/-- The suffix of the `n`-th occurrence, misc.py:224-229. -/
def suffix : Style → Nat → String
  | .number, n => if n > 1 then "_" ++ n.repr else ""
  | .latex, n => if n > 1 then "_{" ++ n.repr ++ "}" else ""
  | .prime, n => String.ofList (List.replicate (n - 1) '\'')

/-- `build_namespace(names, latex, prime)['namespace']`, misc.py:232. (`prime` wins over `latex`.) -/
def buildNamespace (s : Style) (names : List String) : List String :=
  List.zipWith (fun n k => n ++ suffix s k) names (suffixNums names)

/-- `build_namespace(names)['suffix_num']`, misc.py:233. -/
def suffixNum (names : List String) : List String :=
  (suffixNums names).map fun n => if n > 1 then n.repr else ""

/-- `add_suffix` with the default plain templates `'_%s'` / `'[%s]'` (misc.py:166-178). -/
def addSuffix (subscript : Bool) (s suf : String) : String :=
  if suf = "" then s else if subscript then s ++ ("_" ++ suf) else s ++ ("[" ++ suf ++ "]")

/-- Names given to the components of a fit, fit.py:128-134: `cname` are the class names and
`dsuf` the data suffixes (empty for a component fitted to all data sets). -/
def fitNames (cname dsuf : List String) : List String :=
  let num := suffixNum (List.zipWith (· ++ ·) cname dsuf)
  List.zipWith (addSuffix false) (List.zipWith (addSuffix true) cname num) dsuf

end Elisa.Util.Names
