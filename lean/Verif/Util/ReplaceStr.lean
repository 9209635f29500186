import Verif.Models.ModelLabel

/-!
# `replace_string` (util/misc.py:398-439)

Values are strings, other objects (numbers, `None`, ...), lists or tuples, and dictionaries.  A dictionary is the list of its entries in order.
-/

namespace Elisa.Util.Replace

open Elisa.Models.Algebra (replaceAll)

/-- The values `replace_string` distinguishes (misc.py:429-437); an object of another type is a number here. -/
inductive Val where
  | str (s : List Char)
  | other (n : Nat)
  | seq (tuple : Bool) (items : List Val)
  | dict (entries : List (Val × Val))

mutual
/-- Equality of keys and values of dictionaries (misc.py:421). -/
def Val.same : Val → Val → Bool
  | .str s, .str t => s == t
  | .other a, .other b => a == b
  | .seq p xs, .seq q ys => p == q && sameList xs ys
  | .dict xs, .dict ys => sameEntries xs ys
  | _, _ => false
/-- Equality of lists (misc.py:421). -/
def sameList : List Val → List Val → Bool
  | [], [] => true
  | x :: xs, y :: ys => x.same y && sameList xs ys
  | _, _ => false
/-- Equality of the entries of dictionaries (misc.py:421).  In Python their order does not matter, but a dictionary is never a key. -/
def sameEntries : List (Val × Val) → List (Val × Val) → Bool
  | [], [] => true
  | (k, v) :: xs, (l, w) :: ys => k.same l && (v.same w && sameEntries xs ys)
  | _, _ => false
end

/-- `d[k] = v` (misc.py:421): the entry with this key is overwritten in its place, otherwise a new one is appended. -/
def setEntry (k v : Val) : List (Val × Val) → List (Val × Val)
  | [] => [(k, v)]
  | (l, w) :: es => if l.same k then (l, v) :: es else (l, w) :: setEntry k v es

/-- `str.replace(k, v)` (misc.py:417); an empty `k` is found before every character and at the end. -/
def strReplace (k v s : List Char) : List Char :=
  if k = [] then v ++ s.flatMap (fun c => c :: v) else replaceAll k v 0 s

/-- `replace_with_mapping` (misc.py:415-417): one replacement after the other. -/
def replaceText (mapping : List (List Char × List Char)) (s : List Char) : List Char := mapping.foldl (fun x kv => strReplace kv.1 kv.2 x) s

mutual
/-- `replace` (misc.py:427-437). -/
def Val.replace (mapping : List (List Char × List Char)) : Val → Val
  | .str s => .str (replaceText mapping s)
  | .other n => .other n
  | .seq t xs => .seq t (replaceItems mapping xs)
  | .dict es => .dict (replaceEntries mapping [] es)
/-- `replace_sequence` (misc.py:423-425). -/
def replaceItems (mapping : List (List Char × List Char)) : List Val → List Val
  | [] => []
  | x :: xs => x.replace mapping :: replaceItems mapping xs
/-- `replace_dict` (misc.py:419-421), the entries made so far first. -/
def replaceEntries (mapping : List (List Char × List Char)) (done : List (Val × Val)) : List (Val × Val) → List (Val × Val)
  | [] => done
  | (k, v) :: es => replaceEntries mapping (setEntry (k.replace mapping) (v.replace mapping) done) es
end

end Elisa.Util.Replace
