import Verif.Np
import Mathlib.Tactic.Linarith
import Mathlib.Data.List.Infix
import Mathlib.Data.Nat.Digits.Defs

/-!
# Model of `src/elisa/util/config.py`

`jax.local_device_count()` and `multiprocessing.cpu_count()` are parameters (both are positive in a
running program).  Strings are lists of characters.
-/

namespace Elisa.Util

open Elisa

/-- `get_parallel_number` (config.py:133-163). -/
def getParallelNumber (nMax : Nat) (n : Option Int) : Except PyErr Nat :=
  match n with
  | none => .ok nMax
  | some n =>
    if n ≤ 0 then .error .valueError
    else if (nMax : Int) < n then .ok nMax
    else .ok n.toNat

/-- The number of cores `set_cpu_cores` asks for (config.py:75-82). -/
def coresUsed (total : Nat) (n : Int) : Int :=
  if (total : Int) < n then (total : Int) - 1 else n

/-- `--xla_force_host_platform_device_count=` (config.py:86, 89) -/
def flagName : List Char := "--xla_force_host_platform_device_count=".toList

/-- White space for `\S` and `str.split` (ASCII subset of what Python calls white space) (config.py:62-90). -/
def isSpace (c : Char) : Bool := c = ' ' || c = '\t' || c = '\n' || c = '\r' || c = '\x0b' || c = '\x0c'

/-- `re.sub(r'--xla_force_host_platform_device_count=\S+', '', s)` (config.py:85-87): scan from the left; at
each position try the literal followed by one or more non-blank characters (as many as possible),
delete the match, otherwise keep one character and go on.  `fuel` bounds the number of steps and is
started at the length of the text. -/
def stripFlagAux (fuel : Nat) (s : List Char) : List Char :=
  match fuel, s with
  | 0, s => s
  | _ + 1, [] => []
  | fuel + 1, c :: cs =>
    match (c :: cs).dropPrefix? flagName with
    | some rest =>
      if (rest.head?.map isSpace).getD true then c :: stripFlagAux fuel cs
      else stripFlagAux fuel (rest.dropWhile fun x => !isSpace x)
    | none => c :: stripFlagAux fuel cs

/-- config.py:85-87 -/
def stripFlag (s : List Char) : List Char := stripFlagAux s.length s

/-- `str.split()` with no argument (config.py:87): the maximal runs of non-blank characters. -/
def words : List Char → List (List Char)
  | [] => []
  | c :: cs =>
    if isSpace c then words cs
    else match cs with
      | [] => [[c]]
      | d :: _ =>
        if isSpace d then [c] :: words cs
        else match words cs with
          | w :: ws => (c :: w) :: ws
          | [] => [[c]]

/-- `' '.join(ws)` (config.py:88) -/
def unwords : List (List Char) → List Char
  | [] => []
  | [w] => w
  | w :: v :: ws => w ++ ' ' :: unwords (v :: ws)

/-- `f'{n}'` of an integer (config.py:62-90). -/
def showInt (n : Int) : List Char := (toString n).toList

/-- `set_cpu_cores` (config.py:64-91): the new value of `XLA_FLAGS`, from its previous value. -/
def setCpuCores (total : Nat) (n : Int) (xlaFlags : List Char) : List Char :=
  unwords ((flagName ++ showInt (coresUsed total n)) :: words (stripFlag xlaFlags))

/-- `jax_enable_x64` (config.py:19-29): the new setting, where `env` is the value of the environment
variable `JAX_ENABLE_X64`.  A non-empty Python string is true, whatever it says. -/
def jaxEnableX64 (useX64 : Bool) (env : Option String) : Bool :=
  if useX64 then true else match env with
    | none => false
    | some s => s ≠ ""

end Elisa.Util
