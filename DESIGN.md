# Formal model of bentheiii/Records in Lean 4

## Layout

* `lean/Verif/Model/*.lean`  definitions only: the model, one definition per function of `/repo/records`, each citing file and lines.
* `lean/Verif/Spec/*.lean`   small, independent specifications (no use of model helpers).
* `lean/Verif/Proofs/*.lean` helper lemmas.
* `lean/Verif/Props/*.lean`  the property theorems (`Cnn_...`) with, beside each, an `example`/witness showing that the hypotheses are met.
* `lean/Verif/Conformance/*.lean` the upstream unit tests, transcribed as `example`s about the model in a concrete world.
* `properties.jsonl`, `MANIFEST.json` property list and status. `tools/` generators. `seeded/LOG.jsonl` mutation log.

## How Python is modelled

* **World.** Everything the library does not define itself (objects, classes, `isinstance`, `==`, `hash`,
  constructors, `json`, `getattr`, user callbacks) is a field of a structure `World`; theorems quantify over *every*
  world. Lean equality on `World.Obj` is Python identity (`is`); `World.eq` is `==`. Laws a theorem needs (e.g. `==` is
  an equivalence) are explicit hypotheses, met by a concrete world used for the examples.
* **Effects.** User code (coercers, validators, factories, `post_new`, parsers) is an arbitrary function in the monad
  `M W a = State W -> Except Exc a x State W`: it may read and change arbitrary user state, and may raise. State changes
  survive exceptions, as in Python. "No user code runs" is "the state is unchanged for every choice of callbacks".
* **Exceptions** are values; `Exc.isException` separates `Exception` subclasses (caught by `except Exception`) from
  `KeyboardInterrupt`-like ones.
* **dict** is an association list in insertion order with distinct keys; **set iteration order** is an arbitrary
  permutation supplied as a parameter and quantified over.
* **Mutable library state** that matters is modelled: the cached truth value and one-shot iterators of `Select`, the
  `defaultdict` inside `LiteralFiller`, the `_hash` slot and `__dict__` of instances, partial mutation of a caller's dict.
* **Recursion limit.** construction -> parse -> from_mapping -> construction can recurse through a mapping key `arg`;
  the model takes the remaining recursion depth as fuel and raises `RecursionError` at 0, as CPython does
  (counted in constructions, not in frames). C100 says when the depth does not matter.
* **Tags** are numbers in most of the model. `Model/Tags.lean` has them as objects in Python sets, and C101 proves that the
  numbers give the same answers.

* **Floats** (`Model/Floats.lean`) are the rationals they denote; each operation is exact and then rounded to binary64. That the
  rounding yields the nearest float is proved against a definition of floats that does not mention rounding (C103).

## Simplifications by layer

Each model file lists its own simplifications; the important ones:

* **Fields and classes** (`Field`, `Program`). A class statement is a record of its annotations, assignments and hooks.
  `pre_bind` is the list of tokens it applies. Class objects are not modified after creation; a class statement that
  raises leaves nothing behind; there is no metaclass but `type`; fields and assignments in class bodies do not use the names the library
  itself stores on the class (`_fields`, `_parsers`, ...). The method resolution order is computed by C3 in the model.
* **Instances** (`New`, `Instance`). An instance is its class, its `__dict__` and its `_hash` slot. `==` of field values is a pure
  function and `!=` its negation; hashing raises TypeError for unhashable values and is pure otherwise; `Effects` lifts this for
  exporting, printing, hashing and comparing (C109). Instances held by the user are
  "existing objects" (`Res.old`); the theorems on histories (C67 ff., C91) follow an instance through arbitrary user actions.
* **Exporters** (`Export`, `Exporter`). Bound exporters and factories live in a store, so that aliasing and one-shot
  iterators are visible. The Select read by `to_dict` and `from_instance` is re-iterable there; `OneShot` lifts this (C112). `json` and `pickle` codecs are parameters; round trips assume only what the property names.
* **Fillers** (`Filler`, `Select`, `Validators`, `Coercers`, `Tokens`). Hints are an AST. Inspecting a token object
  (`isinstance`, instantiating a class without arguments, `__wrapped__`) is deterministic and has no effect on the user
  state except raising. Constructors of containers take all elements of their argument or none; `Lazy` lifts this (C118). The namespace of `Eval` is a store entry that expressions may change.
* **Threads** (`Threads`). An operation is a tree of accesses: reading or writing one attribute, one cache, or calling user code is atomic
  (this is what the GIL gives); between two accesses any thread may run. `==` and `hash` of field values are pure and do not count as accesses.
* **Deep copies** (`Copying`). A heap says what each object contains: a list, a tuple, a dict with string keys, a record, or nothing (anything
  else, which `copy.deepcopy` is taken to return as it is). The recursion limit counts calls of `deepcopy`.
* **Hints as `typing` objects** (`Dispatch`). A hint is given by what the library asks of it (`__supertype__`, `get_origin`, `get_args`, ...);
  the rest of the model speaks about the AST `Hint`, which C130 connects with this. Hints are hashable. An alias is not itself a class
  (for `list[int]` and the like that is wrong in CPython 3.9 and 3.10, but matters only for origins that are not in the table).
* **Lifetimes** (`Lifetime`). A program is a list of operations on such a heap; exceptions are caught. Changing a list or dict replaces its
  contents in one step. The hashes of field values at the time of an operation are part of the operation.
* **Printing** (`Printing`). `repr` of lists, tuples and dicts is that of CPython (`Py_ReprEnter` cuts cycles off); `repr` of objects without
  parts and `==` with defaults return. The recursion limit counts calls of `repr`.
* **Comparing** (`Comparing`). `==` of lists, tuples and dicts is that of CPython: identical elements are not compared; lists and dicts look
  at lengths first, tuples last. Classes of records are not frozen (frozen ones compare hashes first, see C122). The recursion limit counts
  comparisons of objects. `C132_record` says that the questions asked for two records are those of the model of `__eq__` used elsewhere, and `C132_nested` that in acyclic graphs the answers are those of the world of C122.
* **Nested objects** (`Nested`). The same description of what objects contain. `==` of lists, tuples and dicts is that of the standard library
  (identical elements count as equal); an object with parts equals only objects of the same kind (no subclasses of `list` or `dict`, no
  reflected `__eq__` of foreign classes). No cycles: with a cycle `==` may recurse forever in Python.
* **Documents** (`Documents`). A coercer calls classes through the world's `construct`, so that a record class used in a hint is foreign to the
  model; `Constructs` says that for the classes of a schema this call is the modelled constructor (same result, same change of the user state),
  with new records as objects of the class. The caches of `Literal` fillers inside the inner class are not carried over to the outer state.
* **Pickling** (`Pickling`). `dump` is `Pickler.save` (protocol 2 and above) for lists, non-empty tuples, dicts with string keys and records;
  anything else is stored as it is. `loads` runs the instructions in a heap of its own. Left out: the encoding, marks and frames, the
  groups of 1000 elements in which lists and dicts are filled, `__dict__` objects shared between records, subclasses with their own
  `__reduce__`, `__getstate__` or `__setstate__`.

## Not modelled

CPython itself; the text of messages and exception chaining; `warnings`/logging beyond counting; threads other than in C119; overflow,
infinities and NaN in float arithmetic; concrete behaviour of `json`, `pickle`, `re`, `eval`, `literal_eval`, `copy.deepcopy` (parameters; C121 has a model of `copy.deepcopy`, C125 one of `pickle`);
user exception classes derived from StopIteration (StopIteration itself is modelled; it becomes RuntimeError in generators); a constructor that catches exceptions of the iterator it gets;
`typing` itself (`get_type_hints`; the answers of `get_origin` and `get_args` are given, see C130; CPython 3.9 flattening of nested
`Annotated` assumed); mutation of a container while it is being iterated; subclass overrides of `__eq__`, `__hash__` etc. (overrides of `to_dict` are in C120); docstring plumbing
(`update_wrapper`).

## Trusted base

Lean 4.33.0 kernel; axioms at most `propext`, `Classical.choice`, `Quot.sound`: `Verif/Audit.lean` (generated by
`tools/gen_audit.py`) lists the axioms of every theorem of the manifest, and the build fails if an entry is wrong; the reading of the Python source recorded in the comments of the model.

## Conformance with the upstream unit tests

`lean/Verif/Conformance/` transcribes the assertions of `tests/unittests/*.py` (the lines are cited) into `example`s that
evaluate the model in a concrete world (`Conformance/World.lean`: classes, objects, tables for `int`, `float`, `eval`,
`json.loads` on the strings of the tests). The tests were read, not run. No assertion disagreed with the model. This is
evidence that the model was read off correctly; no property depends on it. Left out: test_inheritance 119-197 (mixins with
`__new__`/`__init__`, warnings), test_record 65-67 (`eval` of a repr), 70-81 (skipped upstream), 110-134 (methods).
`Conformance/Readme.lean` does the same for the examples of `README.md` and `doc/source/select.rst`. Four README examples
do not work as written, in the model and by reading the code: a stray `)` in the JSON text, an attribute called `user`
instead of `name` (AttributeError), and integers given for checked float fields in `Point([2, 3, 6])` and
`Point(x=2, y=3, z=6)` (TypeError).

## Plan per property

| ids | model | method |
|---|---|---|
| C01 C02 C05 C06 C07 | `Model/Select.lean`: `Select.__call__` as in-place edit of an ordered dict, with caller-dict effect | refinement to edits on functions `Key -> Option V`; counting; case analysis; counterexamples by evaluation |
| C03 C04 C84 | Select merge, truth cache, sources, bound factories/exporters | algebra; induction over use histories |
| C08-C11 | `Model/Validators.lean` over any linear order, Int for Cyclic | order reasoning, floor-mod lemmas |
| C12-C18 | `Model/Coercers.lean` | induction over lists; bit-length arithmetic; well-founded recursion for LiteralEval |
| C19-C29 | `Model/Filler.lean`: `AnnotatedFiller.fill/bind/apply`, leaf fillers, Literal with mutable state | induction over coercer/validator lists, state-passing reasoning; refutations on a concrete world |
| C30-C33 | `UnionFiller` | fold invariant, then permutation invariance |
| C34-C42 | container fillers, `get_filler` over a hint AST | list induction; structural induction over hints for C38/C39 |
| C43-C48 C87 C88 | `Model/Field.lean`: `from_type_hint`, `__init_subclass__`, `pre_bind`, `bind` | inductive predicate of creatable classes |
| C97 C98 (and program forms of C43 C44 C87 C88) | `Model/Program.lean`: class statements, C3, attribute lookup | invariants of the class table over all programs |
| C99 | `Model/Filler.lean` (`withSub`, `applyPre`) | two declarations agree part by part; the record of `Annotated` arguments is irrelevant after binding |
| C49-C66 | `Model/New.lean`: `__new__`, `parse`, factories with fuel | state-passing reasoning, decision table, permutations |
| C67-C83 C89 | `Model/Export.lean`, `Model/Instance.lean`: to_dict/to_json, eq/hash/setattr/ordering/copy/pickle | history induction, lexicographic order, round-trip lemmas |
| C84 | `Model/Exporter.lean`: bound exporters and factories in a store | histories of calls |
| C28 C90 C91 | conformance of stored values, all layers | structural induction over hints; invariant over all ways to make or change an instance |
| C85 C103 | `Model/Floats.lean`, `Whole` in `Model/Coercers.lean` | rounding is nearest, hence monotone and idempotent; counterexamples by evaluation (Mathlib's ordered fields) |
| C86 | `Model/Coercers.lean` (`Eval`) | case analysis |
| C104 | all layers | a set of exception classes closed under every construct; parse weakens it to non-`Exception`s |
| C105 | New, Factory, Instance | an object that is an instance of the class itself: `from_instance` is the only parser that accepts it |
| C106 | Validators | any strict partial order, `==` not necessarily reflexive (NaN) |
| C107 | Foreign | Python's dispatch of the operators between a record and an arbitrary other object |
| C108 | Field, Filler, Program | errors of class creation traced to the tokens or to a stated cause; the annotations are already evaluated (NameError of forward references is not modelled) |
| C109 | Effects | big-step relations for sequences of effectful calls; refinement to the pure functions of Export and Instance; the methods of values do not modify the records at hand |
| C110 | Extras | induction over programs that replace modules and make validators |
| C111 | Safety | invariant of the record along any history of operations; exact answers of reading and exporting |
| C112 | OneShot | which entries a Select from iterators has left at each use; invariant along any sequence of uses; refuted expectation |
| C113 | Special | lookup along the resolution order of any program; warnings are complete (order preservation of C3); refuted warning texts |
| C114 | Keys | refinement of an abstract map by the entries of a dict (invariant over programs; records at addresses); refuted with a deletion |
| C115 | Sort | comparison sorts as decision trees of any size; strict weak order of the answers; uniqueness of sorted permutations; insertion sort of every length as witness |
| C116 | Repr | a reader of calls with keyword arguments (brackets, literals, escapes) written independently of `__repr__`; reading inverts printing by induction on the text; then the round trip of C77 |
| C117 | Kin | ordering names of a class are a prefix of those of its line; lexicographic order with shorter-first; then the sorting argument of C115 |
| C118 | Lazy | operational model of `_split_at`, `islice` on a shared iterator and `chain`; refinement to a list of deferred computations served one by one |
| C119 | Threads | operations as trees of accesses to shared state, interleaved by any schedule; invariant: fields constant, caches empty or right, every thread safe for what it has seen filled; bound on accesses; sequential refinement |
| C120 | Override | the methods that call `self.to_dict`, with any user code in its place; case analysis on cached and fresh hashes, then the construction lemmas for copies and pickles |
| C121 | Copying | a heap of lists, tuples, dicts and records, the memo of `copy.deepcopy` and the new memo of `__deepcopy__`; induction on the recursion depth with the memo as a partial injection from old to new objects |
| C122 | Nested | `==` and `hash` of objects given by what they contain, from those of the parts; induction on the depth, the contract of `==` and `hash` for records needs only that `==` compares hashes first |
| C123 | Nested | records that are values of fields are compared by `compare`, lists and tuples by `listCmp`; kinds of objects nested to any depth, induction on the kind with the lexicographic order as the order of the next level |
| C124 | Documents | schemas of nested classes; calling a class as a coercer (`W.construct`) is tied to the modelled constructor; induction on the schema: fields first, then the class by C59, C57 and the account of field construction |
| C125 | Pickling | `dump` makes a list of instructions, a stack machine runs it in another heap; induction on the recursion depth: the numbered entries of the two memos are a partial bijection, finished objects correspond, and a record met again after its arguments is the memo entry; separate inductions for the recursion depth and for cycles without lists and dicts |
| C126 | Archive | `Schema.Flat` relates records to deep exports through the modelled `to_dict`; induction on the schema twice: an export is a document (C124), and what it means is a tree of the same shape (C122, C75); a third induction for the converse |
| C127 | Copies | from C121 and C125: the correspondence between originals and copies is contained in `SameTree`, by induction on the rank of an acyclic graph; trees do not change when their objects do not |
| C128 | Lifetime | programs as lists of operations on a heap of objects; the objects reachable from a permanent one keep their contents up to the hash slot, by induction on the program with the initial heap as the invariant |
| C129 | Accepts | mutual recursion over hints, with the tokens from inside and outside as parameters; the checked/unchecked question is C26's; whole classes through C44 |
| C130 | `Model/Dispatch.lean`: `get_filler`, the checkers and the constructors of the generic fillers, on what `get_origin`/`get_args` give | refinement to the hint AST by mutual recursion; the two sides of each equivalence step give equal fillers, by induction on the equivalence |
| C131 | Printing | failing: by induction on the distance to a cycle of records; returning: by the number of containers not being printed and of records not on the current chain; copies: from the correspondences of C121 and C125, as bisimulations; texts: by induction on the recursion limit, reading by induction on the relation between objects and texts |
| C132 | Comparing | induction on the recursion limit against two inductive relations (agree, disagree), which exclude each other; loops by induction on these; pickles and deep copies from the correspondences of C125 and C121 |
| C100 | `Model/New.lean` | induction over nested `arg` entries; a cyclic mapping as counterexample |
| C101 | `Model/Tags.lean` | refinement of tag sets to numbers |
| C102 | `Model/Files.lean` | equational |
| C92-C96 | `Model/Tokens.lean`: what metadata means, adders, type constraints, `Eval` namespaces | case analysis, induction over constraints and histories |

Where the documented or expected behaviour is false of the code, the property states the behaviour the code has, the
theorems prove that, and a further theorem `Cnn_refuted...` is a concrete counterexample to the expectation.
Theorems that only cover a part of their property are named `..._partial`.
