# Formal model of jsonpickle in Lean 4 — design

## 1. Trusted base

* The Lean 4.33 kernel.
* Axioms: at most `propext`, `Quot.sound`, `Classical.choice`.  `AXIOMS.md` lists the axioms of every property theorem
  (generated by `scripts/gen_axioms.py` from `#print axioms`).  There are no axioms of our own, no `sorry`, no `native_decide`,
  no `bv_decide`.  Mathlib is not used.
* The reading of `/repo` that the model embodies.  Every definition of the model cites the file and lines it was read from.
  The code was not run.
* The assumptions made explicit as parameters or hypotheses of the theorems:
  - `World` (encoder): the heap, `repr`, `str`, the JSON backend `dumps`, the registered handlers.
  - `UEnv` (decoder): `loadclass`, facts about classes (`ClassInfo`), handlers, `_loadmodule`, `eval`, the backend `loads`.
  - `Matching` (round trips): both sides use the same `keys` option and handlers, and the backend reads back what it
    wrote.  C41 proves this for a model of the standard library's `json`, where only the text of floats is a parameter.
  - Results of user methods (`__getstate__`, `__reduce__`, `__getnewargs__`, `__getinitargs__`, `_jsonpickle_exclude`, default
    factories, handlers) are data of the model's objects: they are called once and have no side effects.
  - `zlib`/`bz2` are functions with `decompress (compress b) = b` where a theorem says so.  numpy's `tobytes`, `ndarray(buffer=)`,
    `tolist` are modelled from their documentation.

## 2. What is modelled

| code | model | not modelled |
|------|-------|--------------|
| `tags.py` | `Tags.lean` (all) | |
| `pickler.py:21-178 encode` | `Api.encode`; `JsonLayout.lean` with `indent` and `separators` | |
| `pickler.py:181-975 Pickler` | `Pickler.lean`, function by function | `use_decimal`; Python's recursion limit; a state that is an instance of a dict *subclass* is not filtered by `_jsonpickle_exclude` (724-725 does); `max_iter` is a natural number; compiled bytes patterns have a record handler here (see `Handlers.lean`, where the backend refuses them) |
| `pickler.py` `handle_readonly`, `_sort_attrs`, iterators as consumed objects | `Readonly.lean` (heap in the state) | in that file: `include_properties`; a `__dict__` that is itself an object of the graph |
| `sort_keys` (`_determine_sort_keys`, `_sort_attrs`, `set_encoder_options`) | `SortKeys.lean` | attributes of instances that are keys (`keys=True`) |
| `pickler.py` `warn` | `Warn.lean`: a copy of the encoder that collects reports | warning filters (every warning passes and none is raised) |
| `pickler.py` `numeric_keys` | `NumericKeys.lean`: the encoder in a world where numbers have marked texts | keys of subclasses of `int` and `float` |
| `pickler.py` `include_properties` | `Properties.lean`: the encoder with this option | property values that no JSON document can hold |
| `util.py` `_is_module_function`, `_is_cython_function` on callables | `Probe.lean`: the encoder with this question; `C64.quiet` says when it is the one of `Pickler.lean` | |
| `unpickler.py:21-125 decode` | `Api.decode` | |
| `unpickler.py:353-427` `restore(classes=…)`, `register_classes` on a context that is used again | `Session.lean` | |
| `unpickler.py:128-1014 Unpickler` | `Unpickler.lean`, function by function | `py/ref` name dictionary (written, never read); `handle_readonly` (740), numpy `KeyError` retry, frozen dataclasses (724-735) and immutable mappings (755-757), which are in `Targets.lean` and `RestoreAttrs.lean`; in `_restore_reduce` (554-592) the calls made on the new object (`__setstate__`, `extend`, …) are recorded in the object and taken to succeed, and its `__dict__` is empty at first; functions of reduce values are functions or classes (not callable instances); `default_factory` (867-870) is looked up in the instance, not in its class, and can be assigned (840); `py/seq` is read for list and set subclasses (800-806 asks for `append` and `add`) |
| `util.py` `importable_name`, `translate_module_name`, `loadclass`, base64/85, `items`, `_is_picklable`, `_is_readonly` | `LoadClass.lean`, `Base64.lean`, `Pickler.lean`, `Readonly.lean` | |
| `util.py` `_is_type`, `_is_object`, `_is_not_class`, `_is_primitive`, `_is_enum`, `_is_dictionary_subclass`, `_is_sequence_subclass`, `_is_function`, `_is_iterator`; the choices of `_flatten_impl`, `_get_flattener`, `_flatten_obj_instance` | `Dispatch.lean`, over class tables | objects without `__class__` |
| `util.py` `has_reduce`, `_is_reducible`, `has_method`, `in_dict`, `in_slots`; `has_own_getstate` | `Classes.lean` | metaclasses, properties; in `Pickler.lean` the results are facts in `ClassInfo`, not computed |
| `handlers.py` registry, `handler_accepts_handler_context` | `Registry.lean` | |
| `handlers.py` `BaseHandler.__init__`, `BaseHandler.__call__` | `HandlerContext.lean` | handlers that override `__call__` |
| `ext/numpy.py`, `ext/pandas.py`, `ext/gmpy.py`: `register_handlers`, `unregister_handlers` | `Extensions.lean` | the classes of dtypes are taken to be different |
| `handlers.py` handlers | `Handlers.lean` (date and time, UUID, array, regex, lock, queue); in `Pickler.lean` and `Unpickler.lean` four behaviours, `HKind`; `StdObjects.lean` connects the two (C74) | `TextIOHandler`; handlers written by users behave like one of the four |
| `backend.py` | `Backend.lean` | importing modules (a parameter of the operations) |
| stdlib `json` | `JsonText.lean` | `float.__repr__` / `float()`; Python's limits on the digits of integers (`sys.set_int_max_str_digits`) and on nesting |
| stdlib `base64` | `Base64.lean` | |
| `ext/numpy.py` | `Numpy.lean`: text, binary and view handlers; `DTypeText.lean`: the text of dtypes; `NumpyScalars.lean`: dtypes, scalars, ufuncs | object arrays; `align=True` |
| `ext/pandas.py` | `Pandas.lean`: `rle_*`, `PandasProcessor`; `PandasTypes.lean`: the handlers; `PandasOld.lean`: `restore_v3_3` | pandas itself: constructors as documented, conversions are parameters |
| `tags_pd.py` | `TagsPd.lean`, `DTypeNames.lean` | what numpy and pandas define (parameters) |
| `ext/gmpy.py` | `NumpyScalars.lean` | `gmpy.mpz` is the integer it holds |
| `ext/yaml.py`, `compat.py`, `version.py`, `errors.py` | | (thin wrappers) |

Style of the model:

* `Str = List Nat` (code points).  `Val` = Python value, `Heap` = list of cells (lists, dicts, instances, placeholders).  Tuples,
  sets, bytes and bytearrays are inline values with their `id()` as a label, since jsonpickle never tracks their identity.
  Equal scalars of one type are one object (they reach the reference tables only where a name in the document leads to one, as `math/math.pi`).
* A function of the code is a function of the model that takes the recursive call as a parameter; `flatten (n+1) = flattenStep
  (flatten n)`.  Result `none` = out of fuel.  Theorems are about all `n`, or state that some `n` suffices (termination).
* Exceptions are values and keep the state reached (`PyM`), as in Python.
* Integers are unbounded, floats are their 64 bits (only equality and integrality are computed).  NaNs have no identity of their own: as dict keys
  and set members they count as equal (`pyEq`), because `json` gives the same object for every `NaN`.  So a set with two NaN objects is not
  covered by the round trips; it comes back with one (`C85.nan_merged`).
* Instances count as hashable unless they are dicts, lists or sets; that an instance of a tuple subclass with an unhashable element is not is left out.
* An instance is a record of what its class protocols return or raise (original) or were given (rebuilt).

Specifications are separate from the model: `GraphSpec` (isomorphic graphs), `PathSpec` (access paths), `TreeSpec` (plain data),
`JsonSpec`/`TextSpec` (documents and their text), `RefSpec`/`RefDoc`/`DocSpec` (documents with references), `Supported`/`Covered`
(which graphs), `ApiSpec` (what `encode`/`decode` return), `UserSpec` (programs that differ where user code raises), `RunSpec` (the run for one object), `Rename` (renaming of addresses), `ExpandSpec` (the document without references), `PruneSpec` (the entries that `decode` reads), `PartsSpec` (documents without references and their parts), `ShareSpec` (what values reach), `KeySpec` (the text of dictionary keys).

## 3. The covered graphs (C01, C02, C03, C05, C12, C25, C27, C30, C31, C32, C39, C40, C45, C46)

The main theorem is a simulation (`Proofs/Sim*.lean`, `Proofs/RoundTrip.lean`): encoder and decoder number objects in lock
step.  `Supported` (Supported.lean) says which graphs it covers: scalars, bytes, tuples, sets, classes, functions, modules,
lists, dicts, and instances with `__dict__`, with slots, of list/set/dict/tuple subclasses, defaultdicts, with
`__getnewargs__`/`__getnewargs_ex__`/`__getinitargs__`, with `__getstate__`+`__setstate__`, with `__getstate__` alone if it returns
a dict of its own with string keys, with a reduce tuple, with a handler.
Cycles and sharing are unrestricted except through constructor arguments, reduce tuples and handler fields.

Limits that a defect of the code forces (there is a witness): reserved names as attributes or keys (C25), names starting with `__` (C39),
attributes on tuple subclasses (C39), factories that are not classes and attributes called `default_factory` (C30), empty
keyword arguments (C05), `__getnewargs__` together with `__getinitargs__` (C05), string reduce values (C05), handlers that
return `None` (C05), cycles through constructor arguments, reduce tuples or handler fields (C27), instances as keys (C02), escaped keys
before other string keys (C03), lambdas (dropped by design).

Limits that are ours: `__getstate__` without `__setstate__` in other cases (shared state dicts: witness in C46), iterators, several instances sharing one
`__dict__`, `unpicklable=False` (lossy by design).  A `max_depth` that is large enough is covered by `C54.round_trip_partial`, `_jsonpickle_exclude` (for classes without
`__getstate__` that returns a dict) by `C55.round_trip_partial`.

## 4. Properties

P = proved in full, p = partial (what is missing is in the theorem's comment and in the manifest note), W = false as stated for
some inputs or options, with a proved witness.

A property counts as proved only if no theorem for it has a hypothesis that the statement lacks.  Seven statements were made precise after the
unrestricted version had been refuted, or because a condition on the user's side had been left implicit; the witness that forced the change is kept:
C06 and C28 (`keys=True` gives keys that start with `json://` a meaning; C06 also the limit `max_depth`), C10 and C37 (names in a document that denote
an existing list or dict, not a class, function or module), C08 (user code that writes the key `py/id` itself), C29 (swallowed exceptions together with `max_depth`), C22 (a compressor that cannot decompress its own output), C31 (the elements are those that `decode` makes of what was written; that they correspond to the originals is said of the graphs of C01), C40 (likewise; falsy states and states of tuples are not delivered).

| id | status | theorem is about | idea of the proof |
|----|--------|------------------|-------------------|
| C01 | p | `encode`, `decode` on covered graphs, `keys=False` | lock-step simulation, invariant relating the two object tables |
| C02 | p W | same, `keys=True` | same; entries with string keys first |
| C03 | p W | escaped string keys | same, escaped keys last |
| C04 | p W | `flatten` ends | measure: unregistered cells and nesting of inline values; pumping argument for the witnesses |
| C05 | p W | references are in range / resolve | invariant on the table; corollary of the simulation |
| C06 | P W | plain data is written and read as itself | induction on documents |
| C07 | p W | tags with `unpicklable=False` | key predicate preserved by every branch (`PLogic`) |
| C08 | P W | no references with `make_refs=False` | same |
| C09 | p W | reuse of a `Pickler` | reset lemma, depth bookkeeping |
| C10 | P W | reuse of an `Unpickler` | decoding commutes with renaming (`UShift*`) |
| C11 | P | bytes, base64/85 | arithmetic on groups |
| C12 | p W | aliasing as equality of access paths | corollary of the graph isomorphism |
| C13 | p W | `max_depth`; exact cut for plain data | induction on the remaining depth |
| C14 | P | `fail_safe`, also with user code that raises anywhere | case analysis of the try block; two runs that differ where user code raises (`PInterrupt`) |
| C15 | P | `max_iter` | encoding the truncated iterator gives the same run |
| C16 | P | no `eval` with `safe=True` | trace logic for the decoder (`UTrace`) |
| C17 | P | `on_missing` | trace logic |
| C18, C34, C43 | p W | `loadclass`, `importable_name`, `_loadmodule` | search over splits |
| C19, C33 | P | handler registry, handler context | refinement to the history of calls |
| C20 | p W | backend manager | invariant over histories |
| C21, C22 | P, P W | run lengths, pandas payloads | list induction |
| C23 | p W | dtype tags | invariant of the loop |
| C24 | p W | `_jsonpickle_exclude` | key predicate |
| C25 | p W | user data is not taken for tags | corollary of the simulation |
| C26, C44 | p W | `handle_readonly`, sorted keys, iterators | heap invariant (`ReadonlyInv`), equality of runs |
| C27, C38 | p W | no placeholders in results | corollary of the simulation / resolution invariant (`UResolve`); for every document with `keys=False`: lists, dicts and attributes hold no placeholder but of objects that were given up (`UHeld`, `UHeldRun`, `UHeldSwap`) |
| C28 | P W | malformed payloads | no-raise logic (`UTolerant`) |
| C29 | P W | the values written for readability do not affect the rest | equality of runs up to the depth counter (`PShift`) |
| C30, C31, C39, C40, C45, C46 | p W (C31, C40: P) | default factories, reduce (recipe; what is done with it), attributes, state | corollaries of the simulation |
| C47 | P | errors of user code without `fail_safe` | `PInterrupt` |
| C48, C49 | P | what has no influence on the document: excluded attributes; protocols of lower precedence | the encoder does the same on both graphs (`PCongr`) |
| C32 | p W | order of entries | corollary |
| C50 | P | dictionary keys as text | induction over the loop |
| C53 | P | renamed addresses | the two runs are the same up to the renaming (`PRen`) |
| C55 | P W | excluded attributes can be removed first | as C48 |
| C56, C57 | P W | `has_reduce`, `has_method`, `__getstate__` of `object` | induction over the MRO |
| C58 | P W | the document without references is the expansion | invariant on the table and the cache; a run gives the result of the specification, branch by branch (`PExpand`) |
| C59 | P | entries that `decode` does not read | the decoder does the same on the pruned document (`UPrune`) |
| C60 | p W | `include_properties=True` and decoding | the encoder with and without properties run in lockstep, with documents equal after pruning (`PPropSim`); a method breaks it |
| C61 | p W | pandas objects and their names | exact conditions for each kind of object, by computation with the parts that are encoded on their own as parameters |
| C62 | p W | frozen dataclasses, immutable mappings | a second decoder (`Targets.lean`) with classes that refuse assignment; equal to the first for frozen classes up to the replacement of placeholders |
| C63 | P W | nesting and `max_depth` | two runs at different depths, with limits as far apart, in lockstep (`PShift`) |
| C64 | P W | `repr` of callables | the encoder with the question (`Probe.lean`) equals the other one when every answer is no; else by computation |
| C65 | P W | strings returned by `__reduce__` | by computation on the components (`StringReduce.lean`) |
| C54 | P W | large `max_depth` | the runs agree from some limit on (`PLimit`) |
| C51, C52 | P | the handlers for standard classes | computation on the payload |
| C35, C42 | p W | numpy arrays | index arithmetic on buffers |
| C36 | p W | ids in tables belong to live objects | invariant |
| C37 | P W | results are fresh objects | renaming |
| C41 | P W | JSON text round trip | structural induction over printer and parser |
| C66 | P W | layout of the text | the same induction for any layout that adds white space only (`Proofs/JsonLayout`) |
| C67 | P W | `sort_keys` | sorting is a permutation with increasing keys, hence unique; encoder does not look at `dumps` without `keys=True`; C06 for plain data |
| C68 | P | plain graphs with `unpicklable=False` | invariant on the cache of flattened objects; termination from `Term` |
| C69 | P W | iterators | `Writes` and `Plainly` (as for C06) for the items |
| C70 | P W | handlers of the extensions | the two dicts of the registry as lists; what is left after removals |
| C71 | P | options of the backends | looking up the options after any history |
| C72 | P | encode, decode, encode gives the same text | what decode builds is isomorphic to the source (rebuilt); isomorphic graphs are flattened in lock step (PIso) |
| C73 | P | same text iff isomorphic | the same, for two graphs |
| C74 | P | dates, UUIDs, arrays, patterns, locks in a graph | which object an instance stands for; handlers against the core model; round trip |
| C75 | P | only what the document names is looked up or called | value-flow logic for the decoder (`UNames`): classes and functions in values, cells, placeholders and the log |
| C76 | P | what is not named has no influence on `decode` | relational version of the logic of C75 (`UNamesEq`): two environments, same runs |
| C77 | P | `decode` ends; events ≤ 5·length | cost logic `Fin` (`UExtent`): every part of an object is restored at most once; `loads` reads at most what the text holds (`ReadExtent`); exponential witness |
| C78 | P | document ≤ 3·values + 14·instances | potential logic `Sz` (`PSize`) over the encoder: an object pays for its contents when it is registered; exponential witnesses for tuples and for `make_refs=False` |
| C79 | P | same text with and without the option; texts differ for bools, NaN, equal texts | lockstep `Sim` (`PNumeric`) of the encoder in two worlds, documents equal after the marks are removed |
| C80 | P | same text; only what cannot be written is reported; no `null` without a report (`unpicklable=True`) | lockstep `Good` (`PWarn`) of `Warn.lean` and `Pickler.lean` |
| C81 | P W | which form of writing applies to which object | case analysis of the tests over the class table (`Dispatch.lean`) |
| C82 | P W | `v1_decode`: same without references; which objects are counted | two runs in lockstep (`UV1`), denotation of reference documents (`UDenote`) |
| C83 | P W | text of numpy dtypes | printing and parsing of Python literals (`DTypeText.lean`), then dtypes from descriptions |
| C84 | P W | context of handlers | `HandlerContext.lean`: trees of handler calls; the last caller of an instance in the order of events |
| C85 | P W | round trip with make_refs=False | `UnfoldSpec.lean`: trees, `Is` (the unfolding, with the cells met); isomorphic iff nothing is met twice |
| C86 | P | keys, use_base85, max_iter, fail_safe where they have nothing to do | `OptionsSpec.lean`: keys of dicts and objects; two instances of the program logic compare one step under two sets of options |
| C87 | P | data frames written before 3.4 | `PandasOld.lean`: `make_read_csv_params`, `restore_v3_3` and the choice of the reader; what pandas does with one column is a parameter, the theorems say which treatment each column gets |
| C88 | P | documents without references are decoded part by part | `Gives`: decoding alone; `Alone`: copies of the results one after the other. From a simulation with the object table dropped (`UV1`), absence of placeholders (`UQuiet`) and renaming of addresses (`UShift`) |
| C89 | P | values that share nothing are encoded as if alone, with shifted reference numbers | `ShareSpec.lean`: `Reach` (what can be found from a value), `bump` (reference numbers raised), `Docs`. From a simulation of the encoder with and without a prefix of the object table (`PShare`) |
| C90 | P | numpy dtypes, scalars and ufuncs and gmpy integers are read back | the handlers in `NumpyScalars.lean` over C83 (dtypes) and C18 (`loadclass`); numpy itself is a parameter with laws |
| C91 | P | frozen dataclasses, read-only attributes and immutable mappings | `RestoreAttrs.lean`: `_restore_from_dict` over any behaviour of `setattr`, `setitem` and the class |
| C92 | p W | column types mean the same in every process | `DTypeNames.lean`: the names from the class hierarchy; the listing of the set is a parameter; invariant of the loop for one name |
| C93 | P W | with `make_refs=False` or `unpicklable=False` a cycle is cut where an object is met while it is being written | `CycleSpec.lean`: the expansion inside the objects in progress; the invariant of C58 with the objects in progress (`PCycle`) |

## 5. Where the code does not satisfy the property

Each is a theorem with a concrete witness.

* C02 `instance_keys_merge`, `shared_instance_key`: instances as keys: equal texts merge entries; shared keys are duplicated.
* C03 `alias_damaged`, `placeholder_left`: an escaped string key before an ordinary one makes encoder and decoder count differently.
* C04 `list_diverges`, `enum_diverges`: `unpicklable=False` loops for ever on a list containing itself, and on enum cycles.
* C05 `string_reduce_shifts`, `singleton_dangling`, `dropping_handler_shifts`, `empty_kwargs_shift`, `two_argument_lists_shift`,
  `fields_shift`: six ways in which a reference leads to the wrong object or to none.
* C06 `json_key_not_itself`: with `keys=True` the plain dict `{"json://7": 2}` is read as `{7: 2}`.
* C07 `bytes_leak`, `bytearray_leak`, `type_leak`, `newargs_leak`, `iterator_leak`: tags with `unpicklable=False`.
* C69 `second_is_list`: `g = (x for x in …)`, `decode(encode([g, g]))` is `[iterator, list]`: the list of items is registered, not the iterator.
* C70 `datetime_kept`: `unregister_handlers` of the numpy and pandas extensions does not remove the handler of `np.datetime64`; `index_subclass`: a subclass of `MultiIndex`
  is written by the handler of `Index`, which is registered first.
* C08 `user_code_can`: a `py/id` entry that user code wrote.
* C09 `root_stays_cached`, `swallowed_error_retains`: objects are retained after `encode` returns.
* C12 `set_alias_lost`, `bytearray_alias_lost`.
* C75 `safe_calls_named_functions`: with `safe=True` a document can have any function called that it names; `through_global_list`: also what a list found by name holds.
* C77 `exponential`: the elements of a list subclass with a `_fields` attribute are restored twice on every level.
* C13 `cache_exceeds`, `enum_exceeds`, `swallowed_error_exceeds`, `date_exceeds`: `max_depth` exceeded.
* C29 `limit_disturbed`: a swallowed exception inside decorative values changes where `max_depth` cuts afterwards.
* C63 `negative_limit`: `max_depth=-1` is no limit for a value and cuts off its tuple.
* C64 `slot_dropped`, `replaced_example`: a callable whose `repr` raises costs the attribute or, with `fail_safe`, the dict that holds it; `method_in_list`: a bound method is
  written in a list and left out of a dict.
* C18 `shadowed_by_submodule`, `foreign_import_error_propagates`; C43 `rebound_submodule`, `depth_zero`.
* C19 `stale_base_handler`, `name_shared`: surprising but consistent with the specification.
* C20 `double_load_then_remove`, `double_load_breaks_decode`, `decode_uncaught_error`.
* C22 `pandas_no_compression_raises`; C23 `tags_collide`, `tags_raise`.
* C24 `list_subclass_ignores_exclude`.
* C25 `b64_masquerades`, `b64_masquerades_keys`, `b64_attribute_masquerades` (`py/b64` is not reserved), `reserved_key_dropped`.
* C26 `attribute_overwritten`, `method_shadowed` (`handle_readonly` assigns attributes of other objects to the root), `own_item_overwrites`,
  `attributes_reordered`, `key_reordered`, `iterator_consumed`; C44 `dict_entry_dropped`, `child_attribute_dropped`.
* C27 `ordered_dict_self`, `list_subclass_in_reduce`, `dict_in_reduce`, `dict_in_reduce_keys`, `newargs_self`, `dict_subclass_in_reduce`; `attribute_instead`: an item of a dict subclass
  that holds a placeholder is repaired as an attribute.
* C28 `other_tags_raise`, `malformed_key_raises`.
* C30 `falsy_attribute_lost`, `attribute_confuses_references`, `lambda_factory_confuses_references`.
* C32 `keys_reorder`, `escaped_reorder`; C33 `context_clash`; C34 `exceptions_module_lost`.
* C35 `zero_dim_becomes_one_dim`, `text_loses_byteorder`, `noncontiguous_permuted`; C42 `struct_byteorder_lost`, `fortran_view_wrong`,
  `foreign_base_view_wrong`, `bytes_base_view_wrong`.
* C36 `bytes_confused`: with `make_refs=False` a cached `bytes` object is not kept alive, so another object can be confused with it.
* C37 `global_object_shared`: a `py/type` entry that names an existing list returns that list itself.
* C38 `tuple_leaks`, `keys_leaks`, `root_leaks`, `negative_counts_back`; `forward_given_up`: a forward reference to an object that cannot be made becomes the internal `_Proxy` (a backward one `None`); `hidden_leaks`: an attribute `__x` is stored under its mangled name and replaced under the plain one.
* C39 `dunder_mangled`, `tuple_attribute_lost`, `equal_dict_lost`, `base_slot_lost`, `underscore_class_slot_lost` (private slots), `class_attributes_written`; C41 `surrogates_merge`.
* C66 `minus_indent`: with `indent="-"` the text of `[1]` is read as `[-1]`.
* C67 `reference_moves`, `inner_attributes`, `two_texts`: with `sort_keys=True` references are numbered in the order in which objects are flattened, but counted by `decode` in
  the order in which they are written.  `{"b": [1], "a": [2], "c": <list of b>}` comes back with `c is a`.  (`_sort_attrs` avoids this for the attributes of the root only.)
* C65 `singleton`: an object named by its own reduce string is written as `{"py/id": 0}`; `nested_wrong`, `name_ignored`: paths with more than one dot, and none.
* C45: the state is given before the list and dict items (pickle does the opposite; the statement says so); `falsy_state_dropped`; `state_in_progress_dropped`: a state dict that is not complete yet is empty, so falsy, and is not delivered;
  `pair_state_raises`: a `(dict, slots)` state is an error for objects with a `__dict__`.
* C47 `not_raised`: a `TypeError` of `__getstate__`, a `KeyError` below a string reduce value and an `AttributeError` below a slot are swallowed.
* C46 `state_in_progress_lost`, `state_in_progress_half`: of a state dict that is not complete yet only the entries read so far become attributes.
* C46 `list_state_replaces`: if `__getstate__` returns a list and there is no `__setstate__`, the first occurrence of the object becomes that list, and the others an instance without attributes.
* C55 `list_keeps`: instances of list, set and tuple subclasses keep their excluded attributes.
* C56 `list_like_ignored`: the `__reduce__` of a class with `__getitem__` and `append` is ignored; `none_counts`: `__reduce__ = None` counts as a definition; `slots_text`: a
  `__slots__` that is one string is searched for the substring `__reduce__`.
* C57 `none_getstate`: whether `__getstate__ = None` counts depends on the Python version.
* C58 `factory_registered`, `own_dict_registered`, `own_dict_first`: with `make_refs=False` a default factory, or the `__dict__` of a dict subclass, that is used once more is written
  as its `repr` although there is no cycle; with `unpicklable=False` the factory is written as `null`.  Whether it happens depends on the order.
* C54 `bound_above_depth`: after a swallowed error the depth counter is too high, so a limit above the depth of the graph still cuts.
* C61 `text_name`: an index named `"key"` comes back named `("k", "e", "y")`, one named by a number raises; `multi_empty`, `tuples_become_multi`: an empty
  `MultiIndex` becomes a plain index, a plain index of tuples a `MultiIndex`; `series_tuple_name`, `frame_tuple_name`: tuples as names raise;
  `nullable_lost`: the table of dtypes has lower-case names, so columns of type `Int64` come back as objects; `zone_lost`.
* C62 `frozen_cycle`: a frozen dataclass that refers back to an object with a reduce value makes `decode` raise `FrozenInstanceError`; `mapping_twice`, `immutable_twice`: of a
  mapping without item assignment only the first occurrence has the items.
* C60 `method_breaks`: with `include_properties=True` every method of a class is flattened as an object and numbered, but `decode` never reads it, so the
  references that follow point to other objects; `raising`: a property that raises makes `encode` raise.
* C51 `fold_lost`; C52 `is_safe_lost`, `regex_bytes`, `queue_emptied`.
* C93 `ring_depends_on_order`: with `make_refs=False`, two lists that contain each other, `[a, b]`: `b` is written as it was cut inside `a`, not as it would be written alone.
* C92 `tags_differ`, `values_damaged`: the tags of dtypes depend on the order of a set of classes, so that a column of `int64` written by one process can be read
  as `int8` by another: `[300]` becomes `[44]`.
* C91 `accepted_lost`: a dict subclass that refuses one entry with `TypeError` is rebuilt from the refused entries alone; `frozen_private`.
* C90 `unpickleable_raises`: `UnpickleableNumpyGenericHandler` cannot write anything with `unpicklable=True`: `super(NumpyGenericHandler, self).flatten` is the abstract `BaseHandler.flatten`.

Read in the code, not proved: when none of the slots of an object is set, class attributes are written (C39 `class_attributes_written`), and `decode` cannot set
them on the new object (`AttributeError`; in the model every attribute of an object with slots can be set).

## 6. Testing the theorems

Realistic edits are made to the model in a scratch copy; `seeded/LOG.jsonl` gets one line per finished attempt, with the theorems that
failed and what was tightened.  `Checks.lean` evaluates whole round trips on concrete graphs; edits that only change such values are caught there.  `RepoTests.lean` writes about 150 of the repository's own tests (`/repo/tests`, read as text) down as calls of the model, with the objects, documents and assertions of the tests; `all_pass` says that the model gives what they expect.  It is evidence that the model describes the code, and found no disagreement.  Theorems about definitions without a line there have not been tested in this way.

## 7. Layout

`lean/Verif/*.lean` model and specifications, `Proofs/` helper lemmas, `Props/Cxx.lean` the property theorems with examples
and witnesses (C18 also holds C34 and C43, C35 also C42).  `scripts/` generates `properties.jsonl`, `MANIFEST.json`, `AXIOMS.md`.
