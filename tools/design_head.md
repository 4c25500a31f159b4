# Formal model of pyNTM (network_traffic_modeler_py3) in Lean 4

The code in `/repo/pyNTM` is a network simulator: a *model* object holds nodes,
interfaces, demands (traffic loads), RSVP LSPs (tunnels) and SRLGs (shared risk
groups); `update_simulation()` routes LSPs, routes demands, loads interfaces and
validates the result.  `/verif/lean/Verif` contains a hand-written executable
model of that code and the theorems about it.

(Generated by `tools/design.py` from `tools/design_head.md`, `tools/design_tail.md`, the
method notes in the script, `properties.jsonl` and `MANIFEST.json`.)

## 1. Trusted base

* Lean 4.33.0's kernel.
* Axioms: at most `propext`, `Classical.choice`, `Quot.sound`.  No axiom of our
  own, no `sorry`, no `native_decide`/`bv_decide`.  `AXIOMS.md` lists the axioms of every
  theorem named in `MANIFEST.json` (`tools/axioms.py` regenerates it).
* The reading of the Python code: every model definition cites the file and
  lines it models, and says where it simplifies.  `tools/coverage.py` lists, for every
  function of the package, the model files that cite it.
* Python semantics assumed by the model: sets iterate in some fixed but
  arbitrary order, exceptions unwind and keep earlier mutations, objects are
  references.
* networkx 2.4 (`all_shortest_paths`, `shortest_path_length`,
  `all_simple_paths`, `DiGraph`, `MultiDiGraph`) is not in `/repo`.  It is
  replaced by an executable reference enumeration (`Model/Graph.lean`),
  which is *proved* to return exactly the minimum-cost walks (resp. the simple
  paths up to the cutoff); that networkx does so too is trusted.

### Modelling conventions

* **Numbers.**  Python floats are idealised as exact rationals (`Rat`);
  `round(x, n)` is exact round-half-even to `n` decimals.  (Rounding *is*
  modelled, because several properties depend on it.)  `Model/Float.lean` repeats the load
  phase with a rounding after every operation, and C92 bounds what that changes in a FlexModel
  without shortcuts.  `Model/FloatLsp.lean` repeats the whole simulation that way, and C101 says
  when it gives the result of exact arithmetic.  Overflow and underflow are outside the model.
* **Heap.**  Objects live in heaps indexed by references (`Nat`), mutation is a
  heap update, aliasing is equality of references.  `interface.node_object` is a
  reference into the node heap, so a model whose interfaces refer to other Node
  objects than `model.node_objects` (which `add_network_interfaces_from_list`
  creates) is expressible.  `Model/Shared.lean` adds one more level: several model objects over
  a common heap of Python sets, to express the shared mutable default arguments (C72).
* **Sets.**  A Python set of objects is a duplicate-free list: its iteration
  order.  Theorems quantify over every list, hence every order.  Sets built
  during a computation (names of sources, ...) are ordered by the environment `Env`
  (`ordS`, `ordI`: an arbitrary permutation of the elements), so theorems hold for every such
  order.
* **Randomness.**  `random.choice` takes its index from `Env.rand`; theorems
  quantify over all environments, hence over all outcomes of all draws.
* **Exceptions.**  `Py α := EStateM Exn State α`: a raised exception keeps the
  state reached, as in Python.  `Exn` tells `ModelException` from the built-in exceptions the
  code runs into (`KeyError`, `ValueError`, ...), which several findings are about.
* **Files.**  The loader works on the text of the file: `splitLines` and `splitTab` are
  modelled; reading numbers (`int()`, `float()`) is a parameter (`Reader`) over which the
  theorems quantify, with a decimal reader as instance.

### What is not modelled

* Binary floating point outside `update_simulation` (C92, C101), `print`/`pprint` output, `display_*`, `__repr__`, timing.
* Of `weathermap.py`, the layout of the page, JSON encoding and the wiring of the Dash callbacks;
  the functions that compute what is drawn, listed, highlighted and looked up are modelled.
* The auxiliary model of non-failed interfaces built by `update_simulation` (only its demand
  set, which is the model's own, is used), and the write-back of a configured metric during
  routing (unobservable there, see `Lsp.manualView`).
* `isinstance` checks: the arguments are typed.
* Mutation of a hashed attribute (`change_interface_name` on an element of a set).

## 2. Layout

* `Verif/Model/*`  – the model (each definition cites `/repo`).
* `Verif/Spec/*`   – small specifications, independent of the model's helpers.
* `Verif/Proof/*`  – lemmas.
* `Verif/Props/*`  – the property theorems, one file per group, with an `example`
  beside each theorem showing that its hypotheses are met by a concrete state;
  negative results (`..._false`) carry concrete witnesses.
* `seeded/LOG.jsonl` – wrong programs tried against the theorems.

Properties that the code violates are kept with their intended statement; the
violation is proved from a concrete witness (theorem suffix `_false`) and the
part that does hold is proved with suffix `_partial`.

## 3. Properties: what is modelled, how it is proved

Nothing on the list is inexpressible in the model.

