import Verif.Util.Namespace
import Verif.Np

/-!
# Suffix templates, unicode suffixes and the names of the components of a fit

Model of `set_suffix_config` and `add_suffix` (`/repo/src/elisa/util/misc.py:33-186`) and of the names a fit
gives to its components (`/repo/src/elisa/infer/fit.py:107-134`).
-/

namespace Elisa.Util.Suffix

open Elisa Elisa.Util.Names

/-- A piece of a Python `%`-template.  How Python splits the text of a template into pieces is not modelled,
nor are `%r`, `%a` and field widths; `%.3s` is `str (some 3)` (util/misc.py:45-49). -/
inductive Piece where
  /-- literal text, with `%%` already read as `%` -/
  | text (s : String)
  /-- `%s` or `%.ns` -/
  | str (prec : Option Nat)
  /-- `%d`, `%f`, `%x`, …: needs a number -/
  | number
  /-- `%(key)s`: needs a mapping -/
  | mapping
  /-- an unknown or incomplete conversion -/
  | bad
deriving DecidableEq, Repr

/-- One `%s` applied to a string (util/misc.py:98-186). -/
def convert : Option Nat → String → String
  | none, s => s
  | some n, s => String.ofList (s.toList.take n)

/-- `template % s` for a string `s`; `used` tells whether `s` has been consumed.  A conversion without
argument, an argument without conversion and a conversion of the wrong kind raise `TypeError`, an
incomplete conversion raises `ValueError` (util/misc.py:98-186). -/
def formatAux : Bool → List Piece → String → Except PyErr String
  | used, [], _ => if used then .ok "" else .error .typeError
  | used, .text t :: ps, s => (formatAux used ps s).map (t ++ ·)
  | used, .str p :: ps, s => if used then .error .typeError else (formatAux true ps s).map (convert p s ++ ·)
  | _, .number :: _, _ => .error .typeError
  | _, .mapping :: _, _ => .error .typeError
  | _, .bad :: _, _ => .error .valueError

/-- `template % s` (util/misc.py:98-186). -/
def format (t : List Piece) (s : String) : Except PyErr String := formatAux false t s

/-- The module variables of misc.py:45-49. -/
structure Cfg where
  unicode : Bool
  sub : List Piece
  sup : List Piece
  latexSub : List Piece
  latexSup : List Piece
deriving DecidableEq, Repr

/-- The initial values, misc.py:45-49. -/
def Cfg.init : Cfg where
  unicode := false
  sub := [.text "_", .str none]
  sup := [.text "[", .str none, .text "]"]
  latexSub := [.text "_{", .str none, .text "}"]
  latexSup := [.text "^{", .str none, .text "}"]

/-- Does `template % 'test'` work? (util/misc.py:52-95). -/
def works (t : List Piece) : Bool := match format t "test" with | .ok _ => true | .error _ => false

/-- `set_suffix_config` (misc.py:52-95): the templates are tried before any variable is assigned; a
`TypeError` is turned into a `ValueError` and a `ValueError` passes, so the kind is always `ValueError`.
The result is the outcome and the module variables afterwards. -/
def setConfig (old new : Cfg) : Except PyErr Unit × Cfg :=
  if works new.sub && works new.sup && works new.latexSub && works new.latexSup then (.ok (), new)
  else (.error .valueError, old)

/-- misc.py:31-44: the characters that have a subscript or superscript form. -/
def plainChars : List Char := "ABCDEFGHIJKLMNOPQRSTUVWXYZabcdefghijklmnopqrstuvwxyz0123456789+-/=()".toList

/-- misc.py:34. -/
def subChars : List Char := "ᴀʙᴄᴅᴇғɢʜɪᴊᴋʟᴍɴᴏᴘǫʀsᴛᴜᴠᴡxʏᴢₐᵦ𝒸𝒹ₑ𝒻𝓰ₕᵢⱼₖₗₘₙₒₚᵩᵣₛₜᵤᵥ𝓌ₓᵧ𝓏₀₁₂₃₄₅₆₇₈₉₊₋⸝₌₍₎".toList

/-- misc.py:41. -/
def supChars : List Char := "ᴬᴮᶜᴰᴱᶠᴳᴴᴵᴶᴷᴸᴹᴺᴼᴾᵠᴿˢᵀᵁⱽᵂᕽʸᶻᵃᵇᶜᵈᵉᶠᵍʰⁱʲᵏˡᵐⁿᵒᵖᵠʳˢᵗᵘᵛʷˣʸᶻ⁰¹²³⁴⁵⁶⁷⁸⁹⁺⁻ᐟ⁼⁽⁾".toList

/-- `UNICODE_SUBSCRIPT.get(i, i)` / `UNICODE_SUPERSCRIPT.get(i, i)`, misc.py:152-157. -/
def uniChar (subscript : Bool) (c : Char) : Char :=
  ((plainChars.zip (if subscript then subChars else supChars)).lookup c).getD c

/-- `to_unicode`, misc.py:152-157. -/
def toUnicode (subscript : Bool) (s : String) : String := String.ofList (s.toList.map (uniChar subscript))

/-- `add_suffix(string, suffix, subscript)` for one plain string, misc.py:159-183, with the module
variables `cfg` in force. -/
def addSuffix (cfg : Cfg) (subscript : Bool) (s suf : String) : Except PyErr String :=
  if cfg.unicode then
    (if toUnicode subscript suf = "" then .ok s else .ok (s ++ toUnicode subscript suf))
  else if suf = "" then .ok s
  else (format (if subscript then cfg.sub else cfg.sup) suf).map (s ++ ·)

/-- `cid_to_data_suffix[i]`, fit.py:113-122: `uses n` tells whether the component is part of the model of
the data set called `n`. -/
def dataSuffix (dataNames : List String) (uses : String → Bool) : String :=
  let names := dataNames.filter fun n => !uses n
  if names.isEmpty then "" else "+".intercalate (dataNames.filter fun n => !names.contains n)

/-- The names of the components, fit.py:123-131: each component is given by its class name and the data
sets it is used for. -/
def names (cfg : Cfg) (dataNames : List String) (comps : List (String × (String → Bool))) :
    Except PyErr (List String) :=
  let dsuf := comps.map fun c => dataSuffix dataNames c.2
  let num := suffixNum (List.zipWith (· ++ ·) (comps.map Prod.fst) dsuf)
  ((comps.map Prod.fst).zip (num.zip dsuf)).mapM fun x =>
    (addSuffix cfg true x.1 x.2.1).bind fun s => addSuffix cfg false s x.2.2

end Elisa.Util.Suffix
