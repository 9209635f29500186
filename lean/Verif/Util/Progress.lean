import Verif.Np
import Mathlib.Logic.Relation
import Mathlib.Tactic.Linarith

/-!
# Model of `progress_bar_factory` (src/elisa/util/misc.py:523-633)

Every device runs the same loop and calls back into Python from its own thread.  A thread is the list of
operations it still has to perform; a step of the whole program is one operation of one thread.
-/

namespace Elisa.Util

open Elisa

/-- One operation of a callback thread on the shared objects (util/misc.py:523-634). -/
inductive Op where
  /-- `bar.update(k)` as one indivisible operation -/
  | update (k : Nat)
  /-- first half of tqdm's `self.n += k`: return if the bar is closed, else read `self.n` -/
  | load
  /-- second half of tqdm's `self.n += k`: write back the value read plus `k` -/
  | store (k : Nat)
  /-- `with lock: idx_counter += 1` (misc.py:595-596) -/
  | incr
  /-- `if idx_counter == ncores: bar.close()` (misc.py:598-599), outside the lock -/
  | check
deriving DecidableEq, Repr

/-- `print_rate` (misc.py:572-575); `int(a / b)` of positive integers is the floor. -/
def printRate (neval nevalSingle updateRate : Nat) : Nat :=
  if updateRate < neval then max 1 (nevalSingle / updateRate) else 1

/-- `bar.update(k)` as seen by other threads: one operation, or a read and a write (util/misc.py:584-586). -/
def compileUpdate (atomic : Bool) (k : Nat) : List Op := if atomic then [.update k] else [.load, .store k]

/-- The callbacks of one iteration (misc.py:601-620), `iter_num` counted from 1. -/
def iterOps (atomic : Bool) (m pr iterNum : Nat) : List Op :=
  (if iterNum = 1 then compileUpdate atomic 0 else []) ++
  (if iterNum % pr = 0 then compileUpdate atomic pr else []) ++
  (if iterNum = m then compileUpdate atomic (m % pr) ++ [.incr, .check] else [])

/-- All callbacks of one device: `m` iterations (misc.py:622-633). -/
def deviceOps (atomic : Bool) (m pr : Nat) : List Op :=
  (List.range m).flatMap fun i => iterOps atomic m pr (i + 1)

/-- The shared objects: `bar.n`, whether the bar is closed, `idx_counter`; and for every thread the value it
has read and the operations it still has to do (util/misc.py:523-600). -/
structure PState where
  n : Nat
  closed : Bool
  counter : Nat
  threads : List (Option Nat × List Op)
deriving DecidableEq

/-- Effect of one operation (tqdm's `update` does nothing on a closed bar) (util/misc.py:584-597). -/
def runOp (ncores : Nat) (op : Op) (reg : Option Nat) (n : Nat) (closed : Bool) (counter : Nat) :
    Option Nat × Nat × Bool × Nat :=
  match op with
  | .update k => (reg, if closed then n else n + k, closed, counter)
  | .load => (if closed then none else some n, n, closed, counter)
  | .store k => match reg with
    | some v => (none, v + k, closed, counter)
    | none => (none, n, closed, counter)
  | .incr => (reg, n, closed, counter + 1)
  | .check => (reg, n, closed || (counter = ncores), counter)

/-- One operation of one thread (util/misc.py:584-617). -/
inductive PStep (ncores : Nat) : PState → PState → Prop where
  | mk (before after : List (Option Nat × List Op)) (reg : Option Nat) (op : Op) (ops : List Op)
      (n : Nat) (closed : Bool) (counter : Nat) :
      PStep ncores ⟨n, closed, counter, before ++ (reg, op :: ops) :: after⟩
        ⟨(runOp ncores op reg n closed counter).2.1, (runOp ncores op reg n closed counter).2.2.1,
          (runOp ncores op reg n closed counter).2.2.2,
          before ++ ((runOp ncores op reg n closed counter).1, ops) :: after⟩

/-- The state in which the loop starts (misc.py:552-584); the factory refuses a number of evaluations that is
not a multiple of the number of devices. -/
def startProgress (atomic : Bool) (neval ncores updateRate : Nat) : Except PyErr PState :=
  if neval % ncores ≠ 0 then .error .valueError
  else
    let m := neval / ncores
    .ok ⟨0, false, 0, List.replicate ncores (none, deviceOps atomic m (printRate neval m updateRate))⟩

end Elisa.Util
