import Mathlib.Data.List.Nodup
import Mathlib.Tactic

/-!
# Parameter assignment bookkeeping

Model of `AssignmentTracker` (`/repo/src/elisa/models/parameter.py:33-59`) and of the parameter slots
of model components (`/repo/src/elisa/models/model.py:1427-1539`).

A component is known to trackers only by its id, the hexadecimal memory address of the object
(`model.py:1581`); a tracker is owned by the parameter object.  Component construction is an
allocation followed by one slot assignment per configured parameter (`model.py:1590-1591`).  The
fields `clock` and `since` are ghost: they record when a slot received its current content.
-/

namespace Elisa.Models.Track

/-- Component id (a memory address) (model.py:1580-1597). -/
abbrev Cid := Nat
/-- Parameter name within a component (model.py:1624-1627). -/
abbrev PName := String
/-- Parameter object identity (parameter.py:118-121). -/
abbrev Pid := Nat

/-- All components, all slots and all trackers (parameter.py:33-59, model.py:1580-1597). -/
structure Heap where
  /-- components that have not been garbage collected -/
  live : Cid → Prop
  /-- `getattr(comp, '__name', None)` -/
  slot : Cid → PName → Option Pid
  /-- `param._tracker._history` -/
  hist : Pid → List (Cid × PName)
  /-- ghost: number of operations so far -/
  clock : Nat
  /-- ghost: when the slot received its content -/
  since : Cid × PName → Nat

/-- Nothing allocated (parameter.py:36-37). -/
def Heap.init : Heap := ⟨fun _ => False, fun _ _ => none, fun _ => [], 0, fun _ => 0⟩

/-- `AssignmentTracker.append`, parameter.py:39-43. -/
def append (h : List (Cid × PName)) (r : Cid × PName) : List (Cid × PName) :=
  if r ∈ h then h else h ++ [r]

/-- `AssignmentTracker.remove`, parameter.py:45-47: `list.remove`, a `ValueError` when absent. -/
def remove (h : List (Cid × PName)) (r : Cid × PName) : Option (List (Cid × PName)) :=
  if r ∈ h then some (h.erase r) else none

/-- `AssignmentTracker.get_comp_param`, parameter.py:49-59. -/
def getCompParam (h : List (Cid × PName)) (ids : List Cid) : Option (Cid × PName) :=
  h.find? fun r => decide (r.1 ∈ ids)

/-- The tracker update for the previous content of a slot, model.py:1531-1533. -/
def dropPrev (h : Heap) (c : Cid) (n : PName) : Option (Pid → List (Cid × PName)) :=
  match h.slot c n with
  | none => some h.hist
  | some q =>
    match remove (h.hist q) (c, n) with
    | none => none
    | some l => some (Function.update h.hist q l)

/-- Assignment of a parameter object to a slot, model.py:1428-1537: nothing happens when the slot
already holds it (1431-1432), otherwise the previous content forgets the slot, the slot is
overwritten and the new content remembers it. `none` is an exception. Conversion of numbers,
mappings and sequences to a fresh parameter is an `Op.newParam` before the assignment. -/
def assign (h : Heap) (c : Cid) (n : PName) (p : Pid) : Option Heap :=
  if h.slot c n = some p then some { h with clock := h.clock + 1 }
  else
    match dropPrev h c n with
    | none => none
    | some hist =>
      some { h with
        slot := Function.update h.slot c (Function.update (h.slot c) n (some p))
        hist := Function.update hist p (append (hist p) (c, n))
        clock := h.clock + 1
        since := Function.update h.since (c, n) h.clock }

/-- What a program can do (model.py:1427-1539, 1580-1597). -/
inductive Op where
  | alloc (c : Cid)                       -- a component object is created at address `c`
  | free (c : Cid)                        -- a component is garbage collected
  | newParam (p : Pid)                    -- a parameter object is created
  | assign (c : Cid) (n : PName) (p : Pid)
  | rejected                              -- a slot assignment that raises before line 1531

/-- One operation, with the conditions under which Python can perform it: an address is allocated
only when it is not in use, a parameter object is created at an identity no live slot holds, only
live components are assigned to (parameter.py:39-47, model.py:1427-1539). -/
inductive Step (h : Heap) : Op → Heap → Prop where
  | alloc {c} (hc : ¬ h.live c) :
      Step h (.alloc c) { h with live := fun x => x = c ∨ h.live x, slot := Function.update h.slot c (fun _ => none) }
  | free {c} (hc : h.live c) :
      Step h (.free c) { h with live := fun x => x ≠ c ∧ h.live x }
  | newParam {p} (hp : ∀ c n, h.live c → h.slot c n ≠ some p) :
      Step h (.newParam p) { h with hist := Function.update h.hist p [] }
  | assign {c n p h'} (hc : h.live c) (ha : assign h c n p = some h') : Step h (.assign c n p) h'
  | rejected : Step h .rejected h

/-- Any sequence of operations (a sequence of operations, model.py:1427-1539). -/
inductive Steps : Heap → List Op → Heap → Prop where
  | nil (h) : Steps h [] h
  | snoc {h ops h₁ op h₂} : Steps h ops h₁ → Step h₁ op h₂ → Steps h (ops ++ [op]) h₂

end Elisa.Models.Track
