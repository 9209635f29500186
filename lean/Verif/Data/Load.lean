import Verif.Data.Ogip
import Verif.Data.Group

/-!
# Model of `Data(...)`: which files are read, and which row of them

`/repo/src/elisa/data/ogip.py:146-246` (`Data.__init__`), 267-292 (`Spectrum.__init__`: row of a type II file), 556-592 and 605-629
(`Response.__init__`: extension of a response file), 741-745 (`_read_arf`).

A file system gives for every path what is in the file, if there is one.  Paths are lists of characters without line breaks.  `int` is Python's
conversion of a text to an integer.  Warnings and units are not modelled.
-/

namespace Elisa.Data

open Elisa Elisa.Grouping

/-- ogip.py:147-246. -/
abbrev Path := List Char

/-- Exceptions: a file that cannot be opened, or another one (ogip.py:147-246, 267-500). -/
inductive LoadErr where
  | noFile
  | py (e : PyErr)

/-- The second group of `(.+){(.+)}` (ogip.py:269, 566), on the text after the opening brace: as many characters as possible, at least one, and
then a closing brace. -/
def closing (r : Path) : Option Path :=
  ((List.range r.length).reverse.find? fun j => decide (1 ≤ j ∧ r[j]? = some '}')).map fun j => r.take j

/-- `re.compile(r'(.+){(.+)}').match(path)` (ogip.py:269, 566): the two groups; the first takes as many characters as possible.  What follows
the closing brace does not matter. -/
def specifier (s : Path) : Option (Path × Path) :=
  (List.range s.length).reverse.findSome? fun k =>
    if 1 ≤ k ∧ s[k]? = some '{' then (closing (s.drop (k + 1))).map fun g => (s.take k, g) else none

/-- File and number (ogip.py:269-277, 566-572): `none` without braces; a text that is no integer raises `ValueError`. -/
def parsePath (int : Path → Option Int) (s : Path) : Except LoadErr (Path × Option Int) :=
  match specifier s with
  | none => .ok (s, none)
  | some (f, g) =>
    match int g with
    | none => .error (.py .valueError)
    | some n => .ok (f, some n)

/-- A spectrum with the entries of its header or row that name files and the instrument (ogip.py:503-530). -/
structure PhaRow where
  pha : Pha
  back : Option Path
  resp : Option Path
  ancr : Option Path
  names : NameKeys

/-- The `SPECTRUM` extension: `DETCHANS`, whether `HDUCLAS4` is `TYPE:II`, and a spectrum (type I: one row for every channel) or one spectrum
per row (type II) (ogip.py:267-500). -/
structure SpecFile where
  detchans : Option Int
  hduclas4 : Bool
  content : PhaRow ⊕ List PhaRow

/-- `len(data)` (ogip.py:289) -/
noncomputable def SpecFile.len (f : SpecFile) : Nat :=
  match f.content with
  | .inl p => p.pha.countsArr.length
  | .inr rows => rows.length

/-- A bound of a Python slice of `n` entries (ogip.py:147-246). -/
def bound (n : Nat) (j : Int) : Nat := if j < 0 then (j + n).toNat else min j.toNat n

/-- `data[i : i + 1]` (ogip.py:297) -/
def sliceOne {A : Type} (rows : List A) (i : Int) : List A := (rows.take (bound rows.length (i + 1))).drop (bound rows.length i)

/-- The spectrum read (ogip.py:283-297, 321-327), where `id` is the number in the path.  Without a number a file with `DETCHANS` other than the
number of rows or marked as type II is refused; a type II file that is neither has two-dimensional counts and is refused later (base.py:1152).
With a number the first entry of the slice is taken (`IndexError` if there is none); a spectrum of type I then has no channels
(`len` of a number). -/
noncomputable def SpecFile.row (f : SpecFile) (id : Option Int) : Except PyErr PhaRow :=
  match id with
  | none =>
    if f.detchans.getD f.len ≠ f.len then .error .valueError
    else if f.hduclas4 then .error .valueError
    else
      match f.content with
      | .inl p => .ok p
      | .inr _ => .error .valueError
  | some n =>
    match f.content with
    | .inl _ => .error .typeError
    | .inr rows =>
      match sliceOne rows (n - 1) with
      | p :: _ => .ok p
      | [] => .error .indexError

/-- A response matrix in a file.  `fwhm` is the value `channel_fwhm` will have (ogip.py:592-739). -/
structure Rmf where
  detchans : Option Nat
  tlmin : Option Int
  rows : List RmfRow
  elo : List ℝ
  ehi : List ℝ
  emin : List ℝ
  emax : List ℝ
  fwhm : List ℝ

/-- What can be read: spectra, response files (matrices by their number `EXTVER`) and ancillary responses (ogip.py:267-500, 592-746). -/
structure Files where
  spec : Path → Option SpecFile
  resp : Path → Option (Int → Option Rmf)
  arf : Path → Option (List ℝ)

/-- `Spectrum(path, poisson)` (ogip.py:267-500). -/
noncomputable def loadSpectrum (int : Path → Option Int) (fs : Files) (path : Path) (poisson : Option Bool) : Except LoadErr (Spectrum × PhaRow) :=
  match parsePath int path with
  | .error e => .error e
  | .ok (f, id) =>
    match fs.spec f with
    | none => .error .noFile
    | some t =>
      match t.row id with
      | .error e => .error (.py e)
      | .ok r =>
        match r.pha.read poisson with
        | .error e => .error (.py e)
        | .ok s => .ok (s, r)

/-- `get_field('BACKFILE', '', excluded_file)` and the like (ogip.py:465-475). -/
def fileField (v : Option Path) : Path :=
  match v with
  | none => []
  | some f => if f ∈ ["none".toList, "None".toList, "NONE".toList] then [] else f

/-- An argument that is given and not empty, else the entry of the header (ogip.py:188-200, 211-217). -/
def fileOr (arg : Option Path) (header : Path) : Path := if arg.getD [] ≠ [] then arg.getD [] else header

/-- `_read_arf` (ogip.py:741-745). -/
def loadArf (fs : Files) (ancr : Path) : Except LoadErr (Option (List ℝ)) :=
  if ancr = [] then .ok none
  else
    match fs.arf ancr with
    | none => .error .noFile
    | some a => .ok (some a)

/-- The response built from a matrix and an ancillary response (ogip.py:576-592, 647-739). -/
noncomputable def Rmf.build (m : Rmf) (arf : Option (List ℝ)) : Except PyErr Response := do
  let grid ← photonGrid m.elo m.ehi
  let mat ← readMatrix m.detchans m.tlmin m.rows
  let mat ← applyArf mat arf
  Response.init grid m.emin m.emax (m.detchans.getD 0) (m.detchans.getD 0) mat m.fwhm

/-- `Response(path, ancr)` (ogip.py:556-592, 605-629): `response_hdul[('MATRIX', n)]`, `KeyError` if there is none.  Simplification: the
ancillary response is read before the matrix is expanded. -/
noncomputable def loadResponse (int : Path → Option Int) (fs : Files) (path ancr : Path) : Except LoadErr Response :=
  match parsePath int path with
  | .error e => .error e
  | .ok (f, id) =>
    match fs.resp f with
    | none => .error .noFile
    | some exts =>
      match exts (id.getD 1) with
      | none => .error (.py .keyError)
      | some m =>
        match loadArf fs ancr with
        | .error e => .error e
        | .ok arf =>
          match m.build arf with
          | .error e => .error (.py e)
          | .ok r => .ok r

/-- The arguments of `Data(...)` (ogip.py:146-164). -/
structure LoadArgs where
  erange : List (ℝ × ℝ)
  spec : Path
  back : Option Path
  resp : Option Path
  ancr : Option Path
  name : Option String
  specPoisson : Option Bool
  backPoisson : Option Bool
  ignoreBad : Bool
  group : Option (Method × Option ℝ × Bool)

/-- The object made (ogip.py:147-246). -/
structure Loaded where
  name : String
  obs : Obs
  obj : ObsObj

/-- The background (ogip.py:211-231). -/
noncomputable def loadBack (int : Path → Option Int) (fs : Files) (a : LoadArgs) (row : PhaRow) : Except LoadErr (Option Spectrum) :=
  if fileOr a.back (fileField row.back) = [] then .ok none
  else
    match loadSpectrum int fs (fileOr a.back (fileField row.back)) a.backPoisson with
    | .error e => .error e
    | .ok b => .ok (some b.1)

/-- The response (ogip.py:188-202). -/
noncomputable def loadResp (int : Path → Option Int) (fs : Files) (a : LoadArgs) (row : PhaRow) : Except LoadErr Response :=
  if fileOr a.resp (fileField row.resp) = [] then .error (.py .valueError)
  else loadResponse int fs (fileOr a.resp (fileField row.resp)) (fileOr a.ancr (fileField row.ancr))

/-- `super().__init__(...)` (ogip.py:236-244) and `self.group(...)` (ogip.py:246-247). -/
noncomputable def finish (a : LoadArgs) (name : String) (spec : Spectrum) (back : Option Spectrum) (resp : Response) : Except PyErr Loaded := do
  let o ← Obs.make spec back resp a.ignoreBad
  let x ← ObsObj.new o a.erange
  match a.group with
  | none => return ⟨name, o, x⟩
  | some (m, scale, preserve) =>
    let r ← o.group x.erange m scale preserve
    return ⟨name, o, { x with st := r.st }⟩

/-- `Data(...)` (ogip.py:146-247). -/
noncomputable def loadData (int : Path → Option Int) (fs : Files) (a : LoadArgs) : Except LoadErr Loaded :=
  match loadSpectrum int fs a.spec a.specPoisson with
  | .error e => .error e
  | .ok (spec, row) =>
    match dataName a.name row.names with
    | .error e => .error (.py e)
    | .ok name =>
      match loadResp int fs a row with
      | .error e => .error e
      | .ok resp =>
        if spec.counts.length ≠ resp.channelNumber then .error (.py .valueError)
        else
          match loadBack int fs a row with
          | .error e => .error e
          | .ok back =>
            match finish a name spec back resp with
            | .error e => .error (.py e)
            | .ok d => .ok d

end Elisa.Data
