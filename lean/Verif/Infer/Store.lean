import Verif.Np
import Mathlib.Data.List.Infix

/-!
# Model of saving and loading results (`src/elisa/infer/results.py:166-227`)

A file is a list of bytes.  `dill` and the three compressed formats are a parameter: how the text of a file goes on after the first bytes, by which each format is recognised.
-/

namespace Elisa.Infer.Store

open Elisa

/-- The compression algorithms offered (results.py:169). -/
inductive Alg where
  | gzip
  | bz2
  | lzma
deriving DecidableEq, Repr

/-- The argument `compress` or `decompress` is compared with these words (results.py:183-190, 215-224). -/
def algOf (s : String) : Except PyErr Alg :=
  if s = "gzip" then .ok .gzip else if s = "bz2" then .ok .bz2 else if s = "lzma" then .ok .lzma else .error .valueError

/-- The bytes at the start of a file of each format (RFC 1952, bzip2, xz): the readers refuse a file that starts otherwise (results.py:183-190). -/
def magic : Alg → List UInt8
  | .gzip => [0x1f, 0x8b]
  | .bz2 => [0x42, 0x5a, 0x68]
  | .lzma => [0xfd, 0x37, 0x7a, 0x58, 0x5a, 0x00]

/-- What `dill` and the compressors write after the start of the file, and what they read back from a file that may be cut off.  A reader works from the left and stops at the mark
for the end of the object, so what it returns is decided by a part of the file that is itself a complete text (results.py:183-194, 215-227). -/
structure Codec (R : Type) where
  body : Alg → R → List UInt8
  parse : Alg → List UInt8 → Option R
  reads : ∀ a x rest, parse a (body a x ++ rest) = some x
  sequential : ∀ a bytes x, parse a bytes = some x → body a x <+: bytes

/-- A whole file (results.py:193-194). -/
def Codec.file {R : Type} (c : Codec R) (a : Alg) (x : R) : List UInt8 := magic a ++ c.body a x

/-- The files on the disk (results.py:193-194, 215-227). -/
abbrev Disk := String → Option (List UInt8)

/-- The bytes that have been written when the writing ends (results.py:193-194). -/
def Codec.written {R : Type} (c : Codec R) (a : Alg) (x : R) : Option Nat → List UInt8
  | none => c.file a x
  | some k => (c.file a x).take k

/-- `save` (results.py:166-194): the algorithm is checked, opening the file empties it, then the bytes are written.  `cut = some k`: the process ends, the disk is full or
pickling raises after `k` bytes. -/
def save {R : Type} (c : Codec R) (d : Disk) (path : String) (compress : String) (x : R) (cut : Option Nat) : Except PyErr Disk :=
  match algOf compress with
  | .error e => .error e
  | .ok a => .ok (Function.update d path (some (c.written a x cut)))

/-- `load` (results.py:196-227).  All exceptions of the readers are one. -/
def load {R : Type} (c : Codec R) (d : Disk) (path : String) (decompress : String) : Except PyErr R :=
  match algOf decompress with
  | .error e => .error e
  | .ok a =>
    match d path with
    | none => .error .runtimeError
    | some bytes =>
      if (magic a).isPrefixOf bytes then
        match c.parse a (bytes.drop (magic a).length) with
        | some x => .ok x
        | none => .error .runtimeError
      else .error .runtimeError

/-- A call of `save` (results.py:166-194). -/
structure Event (R : Type) where
  path : String
  compress : String
  result : R
  cut : Option Nat

/-- The disk after a history of saves; a refused call changes nothing (a sequence of calls of results.py:166-194). -/
def after {R : Type} (c : Codec R) (d : Disk) : List (Event R) → Disk
  | [] => d
  | e :: es => match save c d e.path e.compress e.result e.cut with
    | .ok d' => after c d' es
    | .error _ => after c d es

end Elisa.Infer.Store
