import Verif.Data.Construct

/-!
# Model of `src/elisa/data/ogip.py`: reading spectra and responses

FITS input is modelled after parsing: a record of header keywords and table columns.  Not modelled: astropy, units,
byte order, file-name parsing (`file{row}`), warnings.
-/

namespace Elisa.Data

open Elisa Elisa.Grouping

/-! ## Spectrum -/

/-- The `SPECTRUM` extension, or the chosen row of a type II file (ogip.py:267-334).  A field that can be a column
or a header keyword is `none`, `inl keyword` or `inr column` (`get_field`, ogip.py:321-333). -/
structure Pha where
  poisserr : Option Bool
  counts : Option (List ℝ)
  rate : Option (List ℝ)
  rates : Option (List ℝ)
  statErr : Option (List ℝ)
  sysErr : Option (ℝ ⊕ List ℝ)
  quality : Option (Int ⊕ List Int)
  grouping : Option (Int ⊕ List Int)
  exposure : ℝ
  areaScal : Option (ℝ ⊕ List ℝ)
  backScal : Option (ℝ ⊕ List ℝ)
  hduclas2 : String

/-- `get_field(key, 0)` followed by the test `np.shape(value) == ()` (ogip.py:366-385): a missing field or a header
keyword gives the default array, whatever the value of the keyword. -/
def columnOr {α β : Type} (dflt : List α) : Option (β ⊕ List α) → List α
  | some (.inr xs) => xs
  | _ => dflt

/-- The Poisson flag (ogip.py:309-315): the keyword `POISSERR`, else the argument `poisson`; the exception class
`PoissonFlagNotFoundError` is a `RuntimeError`. -/
def Pha.poissonFlag (p : Pha) (arg : Option Bool) : Except PyErr Bool :=
  match p.poisserr, arg with
  | some b, _ => .ok b
  | none, some b => .ok b
  | none, none => .error .runtimeError

/-- The counts (ogip.py:338-348). -/
noncomputable def Pha.countsArr (p : Pha) : List ℝ :=
  match p.counts, p.rate with
  | some c, _ => c
  | none, some r => r.map (· * p.exposure)
  | none, none => (p.rates.getD []).map (· * p.exposure)

/-- The statistical errors of the counts (ogip.py:350-364). -/
noncomputable def Pha.statArr (p : Pha) (poisson : Bool) : List ℝ :=
  if poisson then p.countsArr.map Real.sqrt
  else if p.rate.isSome || p.rates.isSome then (p.statErr.getD []).map (· * p.exposure)
  else p.statErr.getD []

/-- The fractional systematic errors (ogip.py:366-371). -/
noncomputable def Pha.sysArr (p : Pha) : List ℝ := columnOr (List.replicate p.countsArr.length 0) p.sysErr

/-- The total errors (ogip.py:419-433). -/
noncomputable def Pha.errArr (p : Pha) (poisson : Bool) : List ℝ :=
  if poisson then p.statArr true
  else List.zipWith (fun (e : ℝ) (sc : ℝ × ℝ) => Real.sqrt (e ^ 2 + (sc.1 * sc.2) ^ 2)) (p.statArr false)
    (List.zip p.sysArr p.countsArr)

/-- The checks of `Spectrum.__init__` (ogip.py:299-319, 400-417).  Arrays of unequal length are refused (NumPy
broadcasting of arrays of length 1 is not modelled). -/
noncomputable def Pha.refused (p : Pha) (poisson : Bool) : Bool :=
  !poisson && (p.statErr.isNone || (p.statArr false).any (fun e => decide (e < 0)) ||
    p.sysArr.any (fun e => decide (e < 0)) || p.sysArr.length != p.countsArr.length ||
    (p.statArr false).length != p.countsArr.length)

/-- The arguments given to the base class (ogip.py:445-500). -/
noncomputable def Pha.input (p : Pha) (poisson : Bool) : SpecInput where
  counts := p.countsArr
  errors := p.errArr poisson
  poisson := poisson
  exposure := p.exposure
  quality := some (columnOr (List.replicate p.countsArr.length 0) p.quality)
  grouping := some (columnOr (List.replicate p.countsArr.length 1) p.grouping)
  areaScale := p.areaScal.getD (.inl 1)
  backScale := p.backScal.getD (.inl 1)
  net := if p.hduclas2 = "NET" then some true
    else if p.hduclas2 = "TOTAL" ∨ p.hduclas2 = "BKG" then some false else none
  sysErrors := .inr p.sysArr

/-- `Spectrum.__init__` (ogip.py:296-500) up to the call of the base class. -/
noncomputable def Pha.toInput (p : Pha) (arg : Option Bool) : Except PyErr SpecInput :=
  if p.counts.isNone && p.rate.isNone && p.rates.isNone then .error .valueError
  else match p.poissonFlag arg with
    | .error e => .error e
    | .ok b => if p.refused b then .error .valueError else .ok (p.input b)

/-- `Spectrum(...)` (ogip.py:267-500). -/
noncomputable def Pha.read (p : Pha) (arg : Option Bool) : Except PyErr Spectrum := do
  Spectrum.init (← p.toInput arg)

/-! ## Name of a dataset -/

/-- The keywords `DETNAM`, `INSTRUME`, `TELESCOP` of a header (ogip.py:267-500). -/
structure NameKeys where
  detnam : Option String
  instrume : Option String
  telescop : Option String

/-- `name.lower() in excluded_name` (ogip.py:436-439) -/
def placeholderName (s : String) : Bool := s.toLower ∈ ["", "none", "unknown"]

/-- The loop over the keywords (ogip.py:436-443). -/
def nameLoop : List (Option String) → String
  | [] => ""
  | k :: ks =>
    let name := k.getD ""
    if placeholderName name then nameLoop ks else name

/-- `Spectrum.name` (ogip.py:436-443). -/
def NameKeys.name (k : NameKeys) : String := nameLoop [k.detnam, k.instrume, k.telescop]

/-- The name of a `Data` object (ogip.py:176-186): the argument if it is given and non-empty, else the name in the
header, else an error. -/
def dataName (arg : Option String) (k : NameKeys) : Except PyErr String :=
  if arg.getD "" ≠ "" then .ok (arg.getD "")
  else if k.name ≠ "" then .ok k.name
  else .error .valueError

/-! ## Response -/

/-- One row of a `MATRIX` extension (ogip.py:592-739). -/
structure RmfRow where
  nGrp : Int
  fChan : List Int
  nChan : List Int
  matrix : List ℝ

/-- Coordinates and values for `coo_array` (ogip.py:680-729). -/
structure Coo where
  rows : List Nat
  cols : List Int
  vals : List ℝ

/-- `np.arange(start, start + width)` (ogip.py:592-739). -/
def arange (start width : Int) : List Int := (List.range width.toNat).map fun k => start + ((k : Nat) : Int)

/-- The body of the loop over the rows (ogip.py:683-713); `first` is `first_chan`. -/
def rmfRow (first : Int) (i : Nat) (r : RmfRow) : Except PyErr Coo :=
  if r.nGrp ≤ 0 then .ok ⟨[], [], []⟩
  else
    let n := r.nGrp.toNat
    let f := (r.fChan.map (· - first)).take n
    let widths := r.nChan.take n
    if f.length ≠ n ∨ widths.length ≠ n then .error .valueError
    else
      let nElem := widths.sum
      if nElem ≤ 0 then .ok ⟨[], [], []⟩
      else if (r.matrix.length : Int) < nElem then .error .valueError
      else
        .ok ⟨List.replicate nElem.toNat i, ((List.zip f widths).map fun p => arange p.1 p.2).flatten,
          r.matrix.take nElem.toNat⟩

/-- The loop over the rows and the concatenations (ogip.py:680-721), from row `i` on. -/
def rmfRows (first : Int) : Nat → List RmfRow → Except PyErr Coo
  | _, [] => .ok ⟨[], [], []⟩
  | i, r :: rs => do
    let a ← rmfRow first i r
    let b ← rmfRows first (i + 1) rs
    return ⟨a.rows ++ b.rows, a.cols ++ b.cols, a.vals ++ b.vals⟩

/-- Value of a COO matrix at `(i, c)`: duplicate entries are summed (scipy) (ogip.py:592-739). -/
def Coo.at (m : Coo) (i : Nat) (c : Int) : ℝ :=
  (((List.zip m.rows (List.zip m.cols m.vals)).filter fun e => e.1 == i && e.2.1 == c).map fun e => e.2.2).sum

/-- `coo_array((vals, (rows, cols)), shape=(nrow, ncol))` (ogip.py:726-730) as a dense matrix: scipy refuses arrays
of unequal length and coordinates outside the shape. -/
def cooArray (m : Coo) (nrow ncol : Nat) : Except PyErr (List (List ℝ)) :=
  if m.rows.length ≠ m.vals.length ∨ m.cols.length ≠ m.vals.length then .error .valueError
  else if m.rows.any (fun i => decide (nrow ≤ i)) then .error .valueError
  else if m.cols.any (fun c => decide (c < 0) || decide ((ncol : Int) ≤ c)) then .error .valueError
  else .ok ((List.range nrow).map fun i => (List.range ncol).map fun c => m.at i ((c : Nat) : Int))

/-- `_read_response` (ogip.py:592-739), the matrix: `detchans` is the keyword `DETCHANS`, `tlmin` the keyword
`TLMINn` of `F_CHAN` (default 1). -/
def readMatrix (detchans : Option Nat) (tlmin : Option Int) (rows : List RmfRow) : Except PyErr (List (List ℝ)) := do
  match detchans with
  | none => .error .valueError
  | some nc => cooArray (← rmfRows (tlmin.getD 1) 0 rows) rows.length nc

/-- The product with the ancillary response (ogip.py:575-581). -/
def applyArf (matrix : List (List ℝ)) : Option (List ℝ) → Except PyErr (List (List ℝ))
  | none => .ok matrix
  | some arf =>
    if arf.length ≠ matrix.length then .error .valueError
    else .ok (List.zipWith (fun (row : List ℝ) (a : ℝ) => row.map (· * a)) matrix arf)

/-- The photon energy grid (ogip.py:647-656): lower edges and the last upper edge; a non-positive first edge is
replaced. -/
noncomputable def photonGrid (elo ehi : List ℝ) : Except PyErr (List ℝ) :=
  match ehi.getLast? with
  | none => .error .indexError
  | some last =>
    match elo ++ [last] with
    | e0 :: e1 :: es => .ok ((if e0 ≤ 0 then max 1e-30 (0.001 * e1) else e0) :: e1 :: es)
    | e0 :: [] => if e0 ≤ 0 then .error .indexError else .ok [e0]
    | [] => .error .indexError

end Elisa.Data
