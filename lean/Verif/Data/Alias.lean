import Verif.Np

/-!
# Which arrays are shared: a heap model of spectra, responses, data sets and fits

Arrays of numpy are mutable.  The constructors and setters either copy the arrays they are given or keep them, and the attributes hand out
the arrays themselves.  Here every array is a cell of a heap, objects hold addresses, and the user can write to every array he
has made or has been handed.

Simplifications: the elements of all arrays are integers (only the identity of arrays matters); the computations on the
contents are parameters (`Calc`), so that the theorems hold whatever they are; numbers and strings are immutable and left out; an array of the code
that is computed but not stored is left out, one that is an alias without a background still takes a cell (never used).
-/

namespace Elisa.Data.Alias

open Elisa


/-- Numpy arrays held by the attributes of base.py:1346-1384, 1772-1815, 997-1079. -/
abbrev Heap := List (List ℤ)

/-- The content of an array (reading an array, as in base.py:290-369). -/
def content (h : Heap) (a : ℕ) : List ℤ := h.getD a []

/-- Array attributes of `SpectrumData` (base.py:1346-1384). -/
inductive SField | counts | errors | quality | grouping | area | back
  deriving DecidableEq, Repr

/-- Array attributes of `ResponseData` (base.py:1772-1815). -/
inductive RField | photons | channels | names | matrix
  deriving DecidableEq, Repr

/-- Grouped array attributes of `ObservationData` (base.py:997-1079). -/
inductive DField
  | channel | emin | emax | emid | width | emean | chanErrors | matrix | specCounts | specErrors | area
  | backCounts | backErrors | backRatio | netCounts | netErrors | ce | ceErrors
  deriving DecidableEq, Repr

/-- base.py:1346-1384. -/
def SField.all : List SField := [.counts, .errors, .quality, .grouping, .area, .back]
/-- base.py:1772-1815. -/
def RField.all : List RField := [.photons, .channels, .names, .matrix]
/-- base.py:997-1079. -/
def DField.all : List DField :=
  [.channel, .emin, .emax, .emid, .width, .emean, .chanErrors, .matrix, .specCounts, .specErrors, .area,
   .backCounts, .backErrors, .backRatio, .netCounts, .netErrors, .ce, .ceErrors]

/-- The computations on the contents: what `SpectrumData` stores (base.py:1190-1303; the first flag is reset there), what `ResponseData` stores
(base.py:1429-1488), the sorted energy ranges or an error (base.py:242-253), the good channels (base.py:112-133), the grouped arrays
(base.py:290-369) and the flags found by a grouping method or an error (base.py:372-660). -/
structure Calc where
  spectrum : (SField → List ℤ) → Option (SField → List ℤ)
  response : (RField → List ℤ) → Option (RField → List ℤ)
  erange : List ℤ → Option (List ℤ)
  good : (SField → List ℤ) → Option (SField → List ℤ) → List ℤ
  derive : (SField → List ℤ) → (RField → List ℤ) → Option (SField → List ℤ) → (good grouping erange : List ℤ) → DField → List ℤ
  group : ℕ → (SField → List ℤ) → (RField → List ℤ) → Option (SField → List ℤ) → (good erange : List ℤ) → Option (List ℤ)

/-- `ObservationData`: the objects it refers to and the addresses of its arrays (base.py:90-139). -/
structure Obs where
  spec : ℕ
  resp : ℕ
  back : Option ℕ
  good : ℕ
  grouping : ℕ
  erange : ℕ
  refs : DField → ℕ

/-- `FixedData` (base.py:1893-1975) of a fit. -/
structure Fixed where
  data : DField → ℕ
  photons : ℕ

/-- All objects made by base.py:90-139, 1190-1303, 1429-1488, 881-915. -/
structure World where
  heap : Heap
  /-- arrays the user has made or has been handed -/
  known : List ℕ
  specs : List (SField → ℕ)
  resps : List (RField → ℕ)
  obs : List Obs
  fits : List Fixed

/-- Before any constructor (base.py:58, 1133, 1419) is called. -/
def World.empty : World := ⟨[], [], [], [], [], []⟩

/-- Store new arrays, one for each field; the addresses (`np.array(...)` of base.py:1190-1204, 1429-1437, 881-915). -/
def place {F : Type} [DecidableEq F] (h : Heap) (all : List F) (v : F → List ℤ) : Heap × (F → ℕ) :=
  (h ++ all.map v, fun f => h.length + all.idxOf f)

/-- Reads of the contents of the objects a data set refers to (the attributes of base.py:1346-1384). -/
def World.specVals (w : World) (s : ℕ) : SField → List ℤ := fun f => content w.heap ((w.specs.getD s fun _ => 0) f)
/-- The attributes of base.py:1772-1815. -/
def World.respVals (w : World) (r : ℕ) : RField → List ℤ := fun f => content w.heap ((w.resps.getD r fun _ => 0) f)

/-- What a history is made of (calls of base.py:58, 233, 258, 371, 881, 1133, 1419 and attribute reads). -/
inductive Op
  /-- the user makes an array -/
  | make (v : List ℤ)
  /-- the user writes one element of an array in place -/
  | write (a : ℕ) (i : ℕ) (x : ℤ)
  /-- `SpectrumData(...)` from arrays -/
  | spectrum (args : SField → ℕ)
  /-- `ResponseData(...)`; `sparse`: the matrix is given as a sparse array of scipy -/
  | response (args : RField → ℕ) (sparse : Bool)
  /-- `ObservationData(...)` -/
  | observe (s r : ℕ) (b : Option ℕ) (erange : ℕ)
  /-- `data.set_grouping(...)` -/
  | setGrouping (d : ℕ) (g : Option ℕ)
  /-- `data.set_erange(...)` -/
  | setErange (d : ℕ) (e : ℕ)
  /-- `data.group(...)` -/
  | group (d : ℕ) (method : ℕ)
  /-- reading an attribute -/
  | readSpec (s : ℕ) (f : SField)
  | readResp (r : ℕ) (f : RField)
  | readObs (d : ℕ) (f : DField)
  | readGrouping (d : ℕ)
  | readErange (d : ℕ)
  | readGood (d : ℕ)
  /-- `Fit` of one data set (fit.py:394-397, 160-162) -/
  | fit (d : ℕ)

/-- The heap after a first flag of -1 has been overwritten by 1, in place (base.py:281-286). -/
def reset (h : Heap) (g : ℕ) : Heap :=
  if (content h g).head? = some (-1) then h.set g (1 :: (content h g).tail) else h

/-- `set_grouping` (base.py:273-369) with the array at `g`: refused if the length is wrong; a first flag of -1 is overwritten in place (line 286);
the array itself is kept (line 288); all grouped arrays are new, but without background the net counts and errors are the
counts and errors themselves (lines 366-367). -/
def regroup (C : Calc) (w : World) (d : ℕ) (o : Obs) (g : ℕ) : World :=
  if (content w.heap g).length ≠ (w.respVals o.resp .names).length then w
  else
    let h := reset w.heap g
    let w1 := { w with heap := h }
    let p := place h DField.all
      (C.derive (w1.specVals o.spec) (w1.respVals o.resp) (o.back.map w1.specVals) (content h o.good) (content h g) (content h o.erange))
    let refs : DField → ℕ := fun f =>
      if o.back = none ∧ f = .netCounts then p.2 .specCounts else if o.back = none ∧ f = .netErrors then p.2 .specErrors else p.2 f
    { w with heap := p.1, obs := w.obs.set d { o with grouping := g, refs := refs } }

/-- `set_erange` (base.py:233-256): the ranges are copied; then the grouping in force is set again. -/
def rerange (C : Calc) (w : World) (d : ℕ) (o : Obs) (e : ℕ) : World :=
  match C.erange (content w.heap e) with
  | none => w
  | some v =>
    let w1 := { w with heap := w.heap ++ [v], obs := w.obs.set d { o with erange := w.heap.length } }
    regroup C w1 d { o with erange := w.heap.length } o.grouping

/-- The addresses of `data` given out by the user must be known to him (no code). -/
def World.knows (w : World) (a : ℕ) : Prop := a ∈ w.known

instance (w : World) (a : ℕ) : Decidable (w.knows a) := inferInstanceAs (Decidable (a ∈ w.known))

/-- One step.  What is refused leaves everything as it was (base.py:90-139, 233-256, 258-369, 371-694, 881-915, 1190-1303, 1429-1488). -/
def step (C : Calc) (w : World) : Op → World
  | .make v => { w with heap := w.heap ++ [v], known := w.heap.length :: w.known }
  | .write a i x => if w.knows a then { w with heap := w.heap.set a ((content w.heap a).set i x) } else w
  | .spectrum args =>
    -- base.py:1190-1193, 1200, 1204: `np.array` copies
    if ∀ f ∈ SField.all, w.knows (args f) then
      match C.spectrum (fun f => content w.heap (args f)) with
      | none => w
      | some v => let p := place w.heap SField.all v
                  { w with heap := p.1, specs := w.specs ++ [p.2] }
    else w
  | .response args sparse =>
    -- base.py:1429-1437, 1484: copies; base.py:1432: a sparse matrix is kept as it is
    if ∀ f ∈ RField.all, w.knows (args f) then
      match C.response (fun f => content w.heap (args f)) with
      | none => w
      | some v => let p := place w.heap RField.all v
                  { w with heap := p.1, resps := w.resps ++ [fun f => if sparse = true ∧ f = .matrix then args f else p.2 f] }
    else w
  | .observe s r b e =>
    -- base.py:90-139: the flags of the spectrum are handed to `set_grouping` without a copy
    if w.knows e ∧ s < w.specs.length ∧ r < w.resps.length ∧ (∀ k ∈ b, k < w.specs.length) ∧
        (w.specVals s .grouping).length = (w.respVals r .names).length then
      match C.erange (content w.heap e) with
      | none => w
      | some v =>
        let h := w.heap ++ [v, C.good (w.specVals s) (b.map w.specVals)]
        let o : Obs := ⟨s, r, b, w.heap.length + 1, (w.specs.getD s fun _ => 0) .grouping, w.heap.length, fun _ => w.heap.length⟩
        regroup C { w with heap := h, obs := w.obs ++ [o] } w.obs.length o o.grouping
    else w
  | .setGrouping d g =>
    match w.obs[d]? with
    | none => w
    | some o =>
      match g with
      | none => regroup C w d o ((w.specs.getD o.spec fun _ => 0) .grouping)
      | some a => if w.knows a then regroup C w d o a else w
  | .setErange d e =>
    match w.obs[d]? with
    | none => w
    | some o => if w.knows e then rerange C w d o e else w
  | .group d m =>
    match w.obs[d]? with
    | none => w
    | some o =>
      match C.group m (w.specVals o.spec) (w.respVals o.resp) (o.back.map w.specVals) (content w.heap o.good) (content w.heap o.erange) with
      | none => w
      | some v => regroup C { w with heap := w.heap ++ [v] } d o w.heap.length
  | .readSpec s f => match w.specs[s]? with | none => w | some x => { w with known := x f :: w.known }
  | .readResp r f => match w.resps[r]? with | none => w | some x => { w with known := x f :: w.known }
  | .readObs d f => match w.obs[d]? with | none => w | some o => { w with known := o.refs f :: w.known }
  | .readGrouping d => match w.obs[d]? with | none => w | some o => { w with known := o.grouping :: w.known }
  | .readErange d => match w.obs[d]? with | none => w | some o => { w with known := o.erange :: w.known }
  | .readGood d => match w.obs[d]? with | none => w | some o => { w with known := o.good :: w.known }
  | .fit d =>
    -- base.py:881-915: every array is copied
    match w.obs[d]? with
    | none => w
    | some o =>
      let p := place w.heap DField.all (fun f => content w.heap (o.refs f))
      { w with heap := p.1 ++ [w.respVals o.resp .photons], fits := w.fits ++ [⟨p.2, p.1.length⟩] }

/-- A sequence of calls of base.py:58, 233, 258, 371, 881, 1133, 1419. -/
def run (C : Calc) (w : World) (ops : List Op) : World := ops.foldl (step C) w

end Elisa.Data.Alias
