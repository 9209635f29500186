import Mathlib.Data.List.Basic
import Mathlib.Logic.Function.Basic
import Mathlib.Tactic

/-!
# Model of the cached quantities of plots (`src/elisa/plot/data.py:45-93`, `PlotData.__init__` 101-118)

A plot object refers to the simulations of a result (`boot`, `ppc`), an object in memory that is replaced when new simulations are run
(results.py:436-460, 2061-2098).  Quantities computed from them are cached and recomputed if `id(...)` of the simulations has changed.
An `id` is an address: two objects alive at the same time have different ones; `None` has the address 0.
-/

namespace Elisa.Plot.Cache

/-- The simulations a result holds: an address and what is there (`none` before the first run) (plot/data.py:50-68). -/
structure Held (C : Type) where
  addr : Nat
  content : Option C

/-- `old_id` and the dictionary of `functools.cache` (data.py:50-66) of one cached method. -/
structure Memo (K V : Type) where
  old : Nat
  memo : K → Option V

/-- `if (new_id := get_id()) != old_id: cache_clear(); old_id.update(new_id)` (data.py:60-63). -/
def Memo.check {C K V : Type} (c : Memo K V) (w : Held C) : Memo K V := if w.addr ≠ c.old then ⟨w.addr, fun _ => none⟩ else c

/-- A call of a cached method with the argument `k` (data.py:59-64), which computes `f` of the simulations. -/
def Memo.call {C K V : Type} [DecidableEq K] (f : Option C → K → V) (w : Held C) (c : Memo K V) (k : K) : V × Memo K V :=
  match (c.check w).memo k with
  | some v => (v, c.check w)
  | none => (f w.content k, ⟨(c.check w).old, Function.update (c.check w).memo k (some (f w.content k))⟩)

/-- The cached methods of a plot object: one that is computed from the simulations (`_sign_boot`, data.py:402-407), and one that calls it, such as
`deviance_residuals_boot` (data.py:545-558). -/
structure State (C K V W : Type) where
  held : Held C
  inner : Memo K V
  outer : Memo K W

/-- What happens: a run of simulations, stored at an address; calls of the inner and of the outer method (plot/data.py:50-92). -/
inductive Event (C K : Type) where
  | run (addr : Nat) (c : C)
  | inner (k : K)
  | outer (k : K)

/-- A call of the outer method: if it is not in the cache, the inner method is called with the argument `arg k`, and `g` computes the result from it (plot/data.py:50-92). -/
def State.callOuter {C K V W : Type} [DecidableEq K] (f : Option C → K → V) (g : Option C → V → K → W) (arg : K → K) (s : State C K V W) (k : K) :
    W × State C K V W :=
  match (s.outer.check s.held).memo k with
  | some v => (v, { s with outer := s.outer.check s.held })
  | none =>
    let r := s.inner.call f s.held (arg k)
    let v := g s.held.content r.1 k
    (v, ⟨s.held, r.2, ⟨(s.outer.check s.held).old, Function.update (s.outer.check s.held).memo k (some v)⟩⟩)

/-- One event, and what a call returns (plot/data.py:50-92). -/
def State.step {C K V W : Type} [DecidableEq K] (f : Option C → K → V) (g : Option C → V → K → W) (arg : K → K) (s : State C K V W) :
    Event C K → Option (V ⊕ W) × State C K V W
  | .run a c => (none, { s with held := ⟨a, some c⟩ })
  | .inner k => let r := s.inner.call f s.held k; (some (.inl r.1), { s with inner := r.2 })
  | .outer k => let r := s.callOuter f g arg k; (some (.inr r.1), r.2)

/-- A history of events, with what the calls return (plot/data.py:50-92). -/
def State.runs {C K V W : Type} [DecidableEq K] (f : Option C → K → V) (g : Option C → V → K → W) (arg : K → K) :
    State C K V W → List (Event C K) → List (Option (V ⊕ W))
  | _, [] => []
  | s, e :: es => let r := s.step f g arg e; r.1 :: State.runs f g arg r.2 es

/-- A new plot object (data.py:107-113): empty caches, addresses as they are. -/
def State.new {C K V W : Type} (w : Held C) : State C K V W := ⟨w, ⟨w.addr, fun _ => none⟩, ⟨w.addr, fun _ => none⟩⟩

end Elisa.Plot.Cache
