# Formal model of wcxve/elisa in Lean 4: design

This file is generated by `tools/design.py` from `tools/design_head.md`, the table in that script, the docstrings of the `_partial` and `_refuted`
theorems, and `tools/design_tail.md`.  `AXIOMS.md` lists the axioms of every property theorem (`tools/axioms.sh`).

## Technique

Each Python function is modelled as a small total Lean function with a comment citing the file and lines it models.

* Exceptions are values of `Except PyErr`; the exception class is part of the model, the message is not.
* Loops are structural or fuelled recursions; the fuel is proved sufficient.
* Objects with mutable attributes (parameters, observation data, samplers, caches, the tracker of parameter assignments) are state machines, and
  the theorems quantify over all histories of calls, including calls that fail half-way and garbage collection with reuse of addresses.
* Threads (progress bars, sampler listeners) are small-step interleaving semantics; the theorems quantify over all schedules.
* Array bookkeeping (grouping flags, name spaces, OGIP decoding, reshaping) is on lists and naturals.
* Arithmetic is over an ordered field or the real numbers with Mathlib's logarithm, exponential, integrals and measures.  Where floating point
  matters for a claim (bounds of parameters, confidence levels), NaN and infinities are values of the model, and rounding is an arbitrary function
  about which the theorem states what it needs.
* Libraries (NumPy's generators, optimisers, samplers, quadrature, arviz, XLA) are arguments of the model: functions or relations with the facts
  used stated as hypotheses.

Each property is stated with a small vocabulary of its own (`*Spec.lean`, or the section "Specification" at the head of a `*Props.lean` file)
which does not use the helpers of the model.  Next to each theorem stands an `example` that meets its hypotheses.

Where the code violates a property, the negation is proved with a witness (suffix `_refuted`; these are findings about the code, listed below), and
the strongest true restriction that was found is proved (suffix `_partial`).  A property with any such theorem has status `partial`.

`tools/mutations/*.py` and `tools/mutate.py` are the wrong programs the theorems were tested against; `seeded/LOG.jsonl` is the record.
