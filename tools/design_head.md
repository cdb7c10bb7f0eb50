# Formal model of usnistgov/mass: design

A Lean 4 model of the parts of `mass` (python/cython, read as text in `/repo`) whose behaviour users rely on, and
machine-checked proofs of the properties in `properties.jsonl`. This file is generated by `tools/gen_design.py` from
`tools/design_head.md`, `tools/how.py`, `tools/claims.py` and the comments in the Lean sources.

## Layout

* `lean/Verif/<Area>/…` – the model: total, computable functions (`Model.lean`, or the top of each file); each definition
  cites the file and lines it models and says what was simplified. Below it, the property theorems with an `example` beside each.
* Definitions marked `[specification]` are vocabulary in which theorems are stated; they do not model code.
* `MANIFEST.json` – property → theorem names and status (from `tools/claims.py`).
* `seeded/LOG.jsonl` – mutation experiments on the model (`seeded/mutate.py`).

## Conventions

* Python exceptions are values (`Except Exc α`, `Verif/Py.lean`); the state left behind by an exception is modelled where the
  code mutates before raising.
* numpy `uint32` cut masks are `BitVec 32`; `int8` / `uint16` counters wrap where the code's do; file contents are lists of bytes.
* Floating point is modelled by exact arithmetic (ℚ, ℝ, or any ordered field). Numeric theorems are about the algorithm,
  not about rounding, except where a rounding function is modelled explicitly (float64 time stamps, C22). NaN is modelled
  where the code's behaviour depends on it.
* Where the unchanged code violates a property, the negation is proved on a concrete witness (name ends in `_fails`), and the
  part that does hold is proved (suffix `_partial` if hypotheses were added). All are listed under "Disagreements".
* Status "partial" in the table means: the full English statement is false of the code or only part of it is proved; the
  note says which part.
