{"id": "C01", "title": "decode(encode(x)) rebuilds the same object graph", "statement": "For an object graph built from None, booleans, integers, floats, strings, bytes, bytearrays, tuples, sets, lists, string-keyed dicts, types, module-level functions, modules and instances of importable classes, decode(encode(x)) returns a graph isomorphic to x: there is a one-to-one correspondence between the lists, dicts and instances reachable from x and those of the result under which every object has the same type and corresponding contents. Shared objects stay shared, distinct objects stay distinct, and cycles are rebuilt.", "quantifier": "every finite object graph of the supported kinds, any sharing and any cycles, any size", "why_tests_cant": "the numbering of py/id references is implicit (both sides count objects in traversal order); one traversal-order mismatch anywhere in an unbounded family of graphs silently yields a different object", "anchors": ["jsonpickle/pickler.py:Pickler._flatten_obj", "jsonpickle/pickler.py:Pickler._mkref", "jsonpickle/pickler.py:Pickler._flatten_dict_obj", "jsonpickle/unpickler.py:Unpickler._restore_tags", "jsonpickle/unpickler.py:Unpickler._mkref", "jsonpickle/unpickler.py:Unpickler._restore_object_instance"]}
{"id": "C02", "title": "keys=True round-trips non-string dictionary keys", "statement": "With keys=True on both sides, decode(encode(d)) gives back every entry of d with its key restored as an object equal in structure to the original key (ints, None, bools, tuples, bytes, instances ...), including keys that share objects with the rest of the graph, and no entry is lost or merged.", "quantifier": "every finite graph with dicts whose keys are arbitrary hashable values (string keys that do not collide with the wire tags)", "why_tests_cant": "keys are serialized as JSON nested inside a JSON string and are processed in a separate phase on each side; agreement of the two phase orders for every dict cannot be sampled", "anchors": ["jsonpickle/pickler.py:Pickler._escape_key", "jsonpickle/pickler.py:Pickler._flatten_dict_obj", "jsonpickle/unpickler.py:Unpickler._restore_dict", "jsonpickle/unpickler.py:Unpickler._restore_pickled_key"]}
{"id": "C03", "title": "keys=True escapes colliding string keys without damaging aliasing", "statement": "With keys=True, a dict whose string keys equal a reserved wire tag or start with json:// decodes to the same keys and the same values, and references inside the document still point at the right objects.", "quantifier": "every dict whose string keys collide with reserved tags, at any position, with any sharing between its values and the rest of the graph", "why_tests_cant": "the escaped key is written in one phase by the encoder and read in another phase by the decoder; the failure needs a particular order of entries together with sharing", "anchors": ["jsonpickle/pickler.py:Pickler._flatten_string_key_value_pair", "jsonpickle/unpickler.py:Unpickler._restore_dict"]}
{"id": "C04", "title": "encode terminates on every finite object graph", "statement": "encode(x) finishes on every finite object graph, cyclic or not, whatever the unpicklable, make_refs and keys options are; with max_depth set it finishes for every graph.", "quantifier": "every finite heap, every root, every option combination", "why_tests_cant": "non-termination (RecursionError) only shows on the particular cyclic shapes and option combinations one happens to try", "anchors": ["jsonpickle/pickler.py:Pickler._flatten_obj", "jsonpickle/pickler.py:_in_cycle", "jsonpickle/pickler.py:Pickler._ref_obj_instance", "jsonpickle/pickler.py:Pickler._get_flattener"]}
{"id": "C05", "title": "References emitted by encode are always resolvable", "statement": "Every {\"py/id\": n} produced by encode refers to an object that is defined earlier in the document: n is smaller than the number of reference-counted objects opened before it, so decode never meets a dangling or forward reference.", "quantifier": "every graph, every position of a reference in the produced document", "why_tests_cant": "quantifies over all documents the encoder can emit", "anchors": ["jsonpickle/pickler.py:Pickler._log_ref", "jsonpickle/pickler.py:Pickler._getref", "jsonpickle/unpickler.py:Unpickler._restore_id"]}
{"id": "C06", "title": "JSON-compatible data is encoded as itself and tag-free JSON decodes to itself", "statement": "A value made only of None, bools, ints, floats, strings, lists and string-keyed dicts (no sharing, no key that is a wire tag) is encoded as exactly that JSON value, and decoding a JSON document that contains no wire tag returns exactly that data, whatever the options: with keys=True as long as no key starts with json:// (the marker of that option), and with max_depth as long as the data has no more levels than that.", "quantifier": "every JSON-like tree and every tag-free JSON document", "why_tests_cant": "all documents of unbounded depth and width", "anchors": ["jsonpickle/pickler.py:Pickler._flatten_impl", "jsonpickle/unpickler.py:Unpickler._restore_tags", "jsonpickle/unpickler.py:Unpickler._restore_dict", "jsonpickle/unpickler.py:Unpickler._restore_list"]}
{"id": "C07", "title": "unpicklable=False produces plain JSON without type information", "statement": "With unpicklable=False the produced document contains no jsonpickle tag as a key.", "quantifier": "every graph, every nesting", "why_tests_cant": "a tag could leak from any branch of the flattener at any depth", "anchors": ["jsonpickle/pickler.py:Pickler._flatten_obj_instance", "jsonpickle/pickler.py:Pickler._flatten_bytestring", "jsonpickle/pickler.py:_mktyperef"]}
{"id": "C08", "title": "make_refs=False produces no references", "statement": "With make_refs=False the produced document never contains a py/id entry that jsonpickle generated: one can only be there if user code wrote that key itself, as the repr of a dictionary key, as the name of a handler's field, or in a result of fail_safe.", "quantifier": "every graph including shared and cyclic ones", "why_tests_cant": "all sharing patterns", "anchors": ["jsonpickle/pickler.py:Pickler._mkref", "jsonpickle/pickler.py:_in_cycle"]}
{"id": "C09", "title": "A Pickler can be reused: results do not depend on its history", "statement": "Calling flatten (reset=True, the default) on a Pickler gives the same result whatever the Pickler was used for before, including earlier calls that raised an exception half way through, and after a successful top-level call no objects are retained for reference tracking.", "quantifier": "every earlier history of calls, every crash point inside an earlier call, every next value", "why_tests_cant": "histories and exception points are unbounded", "anchors": ["jsonpickle/pickler.py:Pickler.reset", "jsonpickle/pickler.py:Pickler._push", "jsonpickle/pickler.py:Pickler._pop", "jsonpickle/pickler.py:Pickler.flatten"]}
{"id": "C10", "title": "An Unpickler can be reused: results do not depend on its history", "statement": "Calling restore (reset=True) on an Unpickler gives the same result (up to the addresses of the objects made) whatever it restored before, including calls that raised, and whatever classes were registered with it by earlier calls; the names in the document denote classes, functions and modules. With reset=False a class registered by an earlier call is found under the name that the document gives, or else under the last part of that name.", "quantifier": "every earlier history, every next document", "why_tests_cant": "histories are unbounded", "anchors": ["jsonpickle/unpickler.py:Unpickler.reset", "jsonpickle/unpickler.py:Unpickler.restore"]}
{"id": "C11", "title": "Binary data survives base64 and base85", "statement": "For every byte string, decoding the base64 (or base85) text that jsonpickle stores gives back exactly that byte string; undecodable text yields the empty byte string instead of an exception.", "quantifier": "every byte string of every length; every payload text", "why_tests_cant": "2^(8n) inputs; padding and tail groups depend on the length modulo 3, 4 and 5", "anchors": ["jsonpickle/util.py:b64encode", "jsonpickle/util.py:b64decode", "jsonpickle/util.py:b85encode", "jsonpickle/util.py:b85decode", "jsonpickle/unpickler.py:Unpickler._restore_base64"]}
{"id": "C12", "title": "Mutable sets and bytearrays keep their aliasing", "statement": "If the same mutable set (or bytearray) is reachable twice from x then the two places of decode(encode(x)) hold the same object, as they do for lists and dicts.", "quantifier": "every graph with shared sets/bytearrays", "why_tests_cant": "identity of unbounded graphs", "anchors": ["jsonpickle/pickler.py:Pickler._get_flattener", "jsonpickle/unpickler.py:Unpickler._restore_set"]}
{"id": "C13", "title": "max_depth bounds how deep encode looks", "statement": "With max_depth=d, encode never descends more than d container levels: anything below is replaced by its repr() string, so the produced document is at most a fixed number of levels deep per step.", "quantifier": "every graph and every d", "why_tests_cant": "unbounded depth", "anchors": ["jsonpickle/pickler.py:Pickler._max_reached", "jsonpickle/pickler.py:_in_cycle"]}
{"id": "C14", "title": "fail_safe absorbs every error while encoding", "statement": "With a fail_safe callback that itself does not raise, encode never raises an Exception for a container or object value: the failing object is replaced by the callback's result; KeyboardInterrupt and SystemExit still propagate.", "quantifier": "every graph and every place where user code (repr, __getstate__, __reduce__, handlers) raises", "why_tests_cant": "crash points are unbounded", "anchors": ["jsonpickle/pickler.py:Pickler._flatten_obj"]}
{"id": "C15", "title": "max_iter bounds how much of an iterator is consumed", "statement": "With max_iter=n at most n items of an iterator are read and encoded, and they are its first n items.", "quantifier": "every iterator and every n", "why_tests_cant": "infinite iterators cannot be tested exhaustively", "anchors": ["jsonpickle/pickler.py:Pickler._flatten_obj_instance"]}
{"id": "C16", "title": "decode with safe=True never evaluates code strings", "statement": "With the default safe=True no document, however malicious, makes decode call eval(); with safe=False a py/repr entry does.", "quantifier": "every JSON document, every nesting, every class registry", "why_tests_cant": "all attacker-chosen documents", "anchors": ["jsonpickle/unpickler.py:loadrepr", "jsonpickle/unpickler.py:Unpickler._restore_tags", "jsonpickle/unpickler.py:Unpickler._restore_repr_safe"]}
{"id": "C17", "title": "on_missing='error' reports every missing class", "statement": "With on_missing='error', if decode returns a value then every class named by a processed py/object entry was found or has a registered handler; a missing class always surfaces as ClassNotFoundError and is never swallowed by decode's own error handling. With 'ignore' the raw dict is returned instead.", "quantifier": "every document, every position of the missing class", "why_tests_cant": "the error has to cross arbitrarily many nested recovery handlers", "anchors": ["jsonpickle/unpickler.py:Unpickler._process_missing", "jsonpickle/unpickler.py:Unpickler._restore_object", "jsonpickle/errors.py:ClassNotFoundError"]}
{"id": "C18", "title": "Class lookup finds the class that was encoded and honours the classes argument", "statement": "For a class or function reachable under its own module and qualified name, looking up the name that encode wrote returns that very object, also for nested classes; an entry given in classes= takes precedence; a name that cannot be resolved yields None without raising.", "quantifier": "every module tree, every nesting depth of qualified names, every classes mapping", "why_tests_cant": "the search tries every split of the dotted name against an arbitrary import environment", "anchors": ["jsonpickle/util.py:loadclass", "jsonpickle/util.py:importable_name", "jsonpickle/util.py:untranslate_module_name", "jsonpickle/unpickler.py:Unpickler.register_classes"]}
{"id": "C19", "title": "The handler registry behaves like a map with subclass fallback", "statement": "After any sequence of register/unregister calls, looking up a type returns the handler most recently registered for it (and not unregistered since); otherwise a handler registered with base=True for one of its base classes, otherwise the default.", "quantifier": "every history of register/unregister, every class hierarchy", "why_tests_cant": "unbounded histories", "anchors": ["jsonpickle/handlers.py:Registry.get", "jsonpickle/handlers.py:Registry.register", "jsonpickle/handlers.py:Registry.unregister"]}
{"id": "C20", "title": "JSON backends: preferred backend first, first success wins, last error is raised", "statement": "Encoding/decoding returns the result of the first loaded backend that succeeds, in preference order; if all fail the error of the last one is raised; with fallthrough disabled only the preferred backend is tried; with no backend loaded an AssertionError is raised. A backend that was removed is never used.", "quantifier": "every history of load/remove/set_preferred/enable_fallthrough, every backend behaviour", "why_tests_cant": "unbounded histories and arbitrary backends", "anchors": ["jsonpickle/backend.py:JSONBackend.encode", "jsonpickle/backend.py:JSONBackend.decode", "jsonpickle/backend.py:JSONBackend.load_backend", "jsonpickle/backend.py:JSONBackend.remove_backend", "jsonpickle/backend.py:JSONBackend.set_preferred_backend"]}
{"id": "C21", "title": "Run-length encoding of column types is lossless", "statement": "rle_decode(rle_encode(xs)) == xs for every list of type codes; runs are maximal and counts positive.", "quantifier": "every list", "why_tests_cant": "all lists", "anchors": ["jsonpickle/ext/pandas.py:rle_encode", "jsonpickle/ext/pandas.py:rle_decode"]}
{"id": "C22", "title": "Pandas payload packing is lossless whatever the size threshold", "statement": "For every payload string, metadata, size threshold and compression module that can decompress what it compressed, what PandasProcessor.flatten_pandas stored is what restore_pandas returns. It stores nothing, but raises, exactly for payloads above the threshold that are not compressed or contain lone surrogates.", "quantifier": "every payload, threshold and compressor", "why_tests_cant": "all strings and thresholds", "anchors": ["jsonpickle/ext/pandas.py:PandasProcessor.flatten_pandas", "jsonpickle/ext/pandas.py:PandasProcessor.restore_pandas"]}
{"id": "C23", "title": "Column type tags are unambiguous", "statement": "The short tags assigned to dtype names are pairwise different, so the reverse map recovers every dtype name.", "quantifier": "every list of distinct dtype names (the list depends on the installed numpy/pandas)", "why_tests_cant": "the dtype list is open-ended and version dependent", "anchors": ["jsonpickle/tags_pd.py:get_smallest_unique_substrings", "jsonpickle/tags_pd.py:split_letters_numbers_brackets"]}
{"id": "C24", "title": "_jsonpickle_exclude keeps attributes out of the document", "statement": "An attribute listed in an object's _jsonpickle_exclude never appears among that object's keys in the produced document.", "quantifier": "every object and exclude list", "why_tests_cant": "all objects", "anchors": ["jsonpickle/pickler.py:Pickler._flatten_obj_instance", "jsonpickle/util.py:items"]}
{"id": "C25", "title": "User data cannot masquerade as a jsonpickle tag", "statement": "A dict or instance whose user-controlled keys equal a wire tag is never encoded in a way that decode interprets as that tag.", "quantifier": "every dict and every key", "why_tests_cant": "any key at any depth", "anchors": ["jsonpickle/tags.py:RESERVED", "jsonpickle/util.py:_is_picklable", "jsonpickle/pickler.py:Pickler._flatten_key_value_pair", "jsonpickle/unpickler.py:Unpickler._restore_tags"]}
{"id": "C26", "title": "encode does not modify the object it is given", "statement": "Encoding leaves every attribute of every object in the graph as it was, for every combination of options.", "quantifier": "every graph and option combination", "why_tests_cant": "side effects on unbounded graphs", "anchors": ["jsonpickle/util.py:_is_readonly", "jsonpickle/pickler.py:Pickler._flatten_key_value_pair", "jsonpickle/pickler.py:Pickler._sort_attrs"]}
{"id": "C27", "title": "decode never leaves internal placeholders in its result", "statement": "The graph returned by decode(encode(x)) contains no internal proxy placeholder, also when objects refer to themselves while they are being reconstructed.", "quantifier": "every graph, including self-referential reconstruction arguments", "why_tests_cant": "depends on where in an unbounded graph a self reference sits", "anchors": ["jsonpickle/unpickler.py:_Proxy", "jsonpickle/unpickler.py:Unpickler._swap_proxies", "jsonpickle/unpickler.py:Unpickler._restore_list", "jsonpickle/unpickler.py:Unpickler._restore_dict"]}
{"id": "C28", "title": "decode tolerates malformed tag payloads", "statement": "A document whose only tags are py/tuple, py/set, py/id, py/iterator, py/b64, py/b85 (with arbitrary payloads) is decoded without raising; with keys=True as long as no key starts with json:// (the marker of that option). Elements that a py/set lists more than once (1, 1.0 and true are equal, and so are all NaNs) are kept once.", "quantifier": "every such JSON document, arbitrarily nested", "why_tests_cant": "all malformed documents", "anchors": ["jsonpickle/unpickler.py:Unpickler._restore_tuple", "jsonpickle/unpickler.py:Unpickler._restore_set", "jsonpickle/unpickler.py:Unpickler._restore_id", "jsonpickle/unpickler.py:Unpickler._restore_iterator", "jsonpickle/unpickler.py:Unpickler._restore_base64", "jsonpickle/unpickler.py:Unpickler._restore_bytearray"]}
{"id": "C29", "title": "Decorative numpy values do not disturb reference numbering", "statement": "Writing the human-readable values of an array view leaves the reference numbering and everything that is encoded afterwards unchanged: the entries of a document that are written one after the other are the same with and without such values, but for the values themselves, which are not read back; with max_depth set this holds when no exception is swallowed inside the values, since a swallowed exception leaves the depth counter changed.", "quantifier": "every array content and every surrounding graph", "why_tests_cant": "all graphs around the view", "anchors": ["jsonpickle/ext/numpy.py:NumpyNDArrayHandlerView._flatten_values_for_readability"]}
{"id": "C30", "title": "defaultdict and attributes named default_factory round-trip", "statement": "A defaultdict with any factory, and any object with an attribute called default_factory, decodes to an object with the same entries, the same factory/attribute, and intact references.", "quantifier": "every defaultdict content and factory", "why_tests_cant": "depends on sharing between the entries and the position of the factory", "anchors": ["jsonpickle/pickler.py:Pickler._flatten_dict_obj", "jsonpickle/unpickler.py:Unpickler._loadfactory", "jsonpickle/unpickler.py:Unpickler._restore_object_instance"]}
{"id": "C31", "title": "__reduce__ tuples survive trimming and padding", "statement": "The reconstruction recipe (callable, args, state, list items, dict items, state setter) that decode uses has six elements: what decode makes of the six elements that encode wrote for what __reduce__ returned, in order, with None for those that are absent, whatever the length from 2 to 6 and however many trailing elements are None. That trailing Nones are not written makes no difference to decode. In the graphs of C01 each element corresponds to the one that __reduce__ returned.", "quantifier": "every recipe length and content", "why_tests_cant": "all recipes", "anchors": ["jsonpickle/pickler.py:Pickler._flatten_obj_instance", "jsonpickle/unpickler.py:Unpickler._restore_reduce"]}
{"id": "C32", "title": "Dict order is preserved", "statement": "The entries of a decoded dict come in the same order as in the original.", "quantifier": "every dict", "why_tests_cant": "all dicts", "anchors": ["jsonpickle/pickler.py:Pickler._flatten_dict_obj", "jsonpickle/unpickler.py:Unpickler._restore_dict"]}
{"id": "C33", "title": "handler_context reaches exactly the handlers that ask for it", "statement": "handler_context is passed to a handler method exactly when a context was given and the method has a parameter of that name that can be passed by keyword; handlers without it are called as before.", "quantifier": "every signature and context", "why_tests_cant": "all signatures", "anchors": ["jsonpickle/handlers.py:handler_accepts_handler_context", "jsonpickle/pickler.py:Pickler._call_handler_flatten", "jsonpickle/unpickler.py:Unpickler._call_handler_restore"]}
{"id": "C34", "title": "Module name translation is consistent", "statement": "Translating a module name for writing and translating it back for importing names the same importable module, and translation is idempotent.", "quantifier": "every module name", "why_tests_cant": "all names", "anchors": ["jsonpickle/util.py:translate_module_name", "jsonpickle/util.py:untranslate_module_name"]}
{"id": "C35", "title": "Numpy arrays: restore takes the branch that matches how the array was stored", "statement": "Whatever the size threshold, an array stored as text is restored as text and one stored as binary is restored as binary, with the original shape, dtype, memory order and contents.", "quantifier": "every array shape, dtype class, threshold and compressor", "why_tests_cant": "shapes and thresholds are unbounded", "anchors": ["jsonpickle/ext/numpy.py:NumpyNDArrayHandlerBinary.flatten", "jsonpickle/ext/numpy.py:NumpyNDArrayHandlerBinary.restore"]}
{"id": "C36", "title": "Identity-keyed caches never confuse two objects", "statement": "While one encode call runs, an object identity recorded for reference tracking or for the flattening cache stays pinned to the same object, so a temporary object that was freed can never be mistaken for a later one.", "quantifier": "every allocation/free schedule of temporaries during one call", "why_tests_cant": "depends on the memory allocator reusing addresses", "anchors": ["jsonpickle/pickler.py:Pickler._flatten", "jsonpickle/pickler.py:Pickler._flatten_obj", "jsonpickle/pickler.py:Pickler._log_ref"]}
{"id": "C37", "title": "decode returns fresh objects", "statement": "Every list, dict and instance in the result of decode is newly created by that call: it is not shared with anything that existed before, and two decode calls never share objects, provided that the names in the document denote classes, functions and modules.", "quantifier": "every document and every prior state", "why_tests_cant": "aliasing over all documents", "anchors": ["jsonpickle/unpickler.py:Unpickler._restore_list", "jsonpickle/unpickler.py:Unpickler._restore_dict", "jsonpickle/unpickler.py:Unpickler._restore_object_instance"]}
{"id": "C38", "title": "py/id outside the known range is recoverable", "statement": "A py/id that points past the objects seen so far is resolved when decoding finishes (list elements and dict values), and becomes None if the object never appears; non-integer ids become None.", "quantifier": "every document, every index", "why_tests_cant": "all indices", "anchors": ["jsonpickle/unpickler.py:_IDProxy", "jsonpickle/unpickler.py:Unpickler._restore_id", "jsonpickle/unpickler.py:Unpickler._swap_proxies"]}
{"id": "C39", "title": "Slots, private names and attributes of dict subclasses round-trip", "statement": "The attributes of an object - in __slots__ (also inherited), private double-underscore names, or in the __dict__ of a dict/list/set subclass - have the same values after decode(encode(x)).", "quantifier": "every class layout and attribute values", "why_tests_cant": "all layouts and values", "anchors": ["jsonpickle/pickler.py:Pickler._flatten_newstyle_with_slots", "jsonpickle/pickler.py:Pickler._flatten_obj_attrs", "jsonpickle/pickler.py:Pickler._flatten_dict_obj", "jsonpickle/unpickler.py:Unpickler._restore_from_dict"]}
{"id": "C40", "title": "The state protocol delivers the saved state", "statement": "For an object without handler and reduce value whose class has __getstate__ and __setstate__ and is not a subclass of tuple: if __getstate__ returned a true value and no name is excluded, encode writes the class, the constructor arguments if there are any, and that state; and whatever else a document with a class and a state says, the instance that decode makes of it has that class, was made without __init__ if __new__ accepts the arguments, and was given to __setstate__ with what decode makes of the document of the state. In the graphs of C01 that is isomorphic to what __getstate__ returned, within the isomorphism of the whole graphs. States that are falsy are not written and states of tuples are not read.", "quantifier": "every state value, any sharing between the state and the graph", "why_tests_cant": "all states", "anchors": ["jsonpickle/pickler.py:Pickler._getstate", "jsonpickle/unpickler.py:Unpickler._restore_state"]}
{"id": "C41", "title": "What the JSON text of a document reads back as", "statement": "The text of any document can be read, and gives the document with every adjacent pair of a high and a low surrogate merged into one character, every NaN without its payload, and, of entries with equal keys, the last value at the place of the first. This is the document itself exactly if it has no such pair, payload or equal keys, and documents of this kind are equal exactly if their texts are (so keys nested as JSON inside strings are recoverable).", "quantifier": "every JSON value, every string content", "why_tests_cant": "all strings including quotes, backslashes, control characters and surrogates", "anchors": ["jsonpickle/backend.py:JSONBackend.encode", "jsonpickle/backend.py:JSONBackend.decode", "jsonpickle/pickler.py:Pickler._escape_key"]}
{"id": "C42", "title": "numpy byte order and memory layout bookkeeping is lossless", "statement": "The byte order and the C/F order recorded for a binary-stored array reconstruct the original element sequence.", "quantifier": "every byte order, shape and buffer", "why_tests_cant": "all buffers", "anchors": ["jsonpickle/ext/numpy.py:get_byteorder", "jsonpickle/ext/numpy.py:NumpyNDArrayHandlerBinary.flatten_byteorder", "jsonpickle/ext/numpy.py:NumpyNDArrayHandlerBinary.restore_byteorder"]}
{"id": "C43", "title": "Module references decode to the module", "statement": "A module object is written as name/name and decode gives back the module of that name when it is importable; a malformed or unimportable name gives None or the documented error, never another module.", "quantifier": "every dotted module name, every import environment", "why_tests_cant": "all names and environments", "anchors": ["jsonpickle/pickler.py:Pickler._flatten_obj_instance", "jsonpickle/unpickler.py:_loadmodule"]}
{"id": "C44", "title": "handle_readonly leaves out nothing but read-only attributes", "statement": "encode(obj, handle_readonly=True) gives the same document as handle_readonly=False except that attributes of obj which cannot be assigned are absent.", "quantifier": "every object graph, every class, every set of member names", "why_tests_cant": "the test compares names only, so it depends on the combination of all names in the graph with all members of the root's class", "anchors": ["jsonpickle/pickler.py:Pickler._flatten_key_value_pair", "jsonpickle/util.py:_is_readonly"]}
{"id": "C45", "title": "An object rebuilt from a reduce tuple is finished as the tuple says", "statement": "If __reduce_ex__ returned (f, args, state, listitems, dictitems, setter), then after f(*args) decode delivers the state (to the setter, else to __setstate__, else to __dict__, else to the slots), then the list items with extend or append, then the dict items with __setitem__: each once, in this order, with values corresponding to the original ones.", "quantifier": "every object graph, every reduce tuple, every class", "why_tests_cant": "what is delivered depends on the class, the shape of the state and on what of the graph is complete when the object is built", "anchors": ["jsonpickle/unpickler.py:Unpickler._restore_reduce", "jsonpickle/pickler.py:Pickler._flatten_obj_instance"]}
{"id": "C46", "title": "Without __setstate__ the saved state becomes the attributes", "statement": "For a class with __getstate__ but without __setstate__, if __getstate__ returned a dict with string keys, then decode(encode(x)) gives an instance of the same class, made without __init__, whose attributes are exactly the entries of that dict, with corresponding values.", "quantifier": "every object graph, every state dict, any sharing between the state and the graph", "why_tests_cant": "what is read depends on which parts of the graph are complete when the object is built", "anchors": ["jsonpickle/pickler.py:Pickler._getstate", "jsonpickle/unpickler.py:Unpickler._restore_state", "jsonpickle/unpickler.py:Unpickler._restore_from_dict"]}
{"id": "C47", "title": "Without fail_safe errors of user code are not swallowed", "statement": "Without fail_safe, if user code other than repr() (str(), __getstate__, __reduce__, __reduce_ex__, __getnewargs__, __getnewargs_ex__, __getinitargs__, handlers, default factories, iterators) raises an exception other than TypeError, AttributeError and KeyError while encode runs, at any depth, then encode raises that exception. The three exceptions can be swallowed.", "quantifier": "every object graph, every place where user code raises, every option except fail_safe", "why_tests_cant": "crash points are unbounded; an error that is swallowed at one place changes the document silently", "anchors": ["jsonpickle/pickler.py:Pickler._reduce", "jsonpickle/pickler.py:Pickler._flatten_obj_instance", "jsonpickle/pickler.py:Pickler._flatten_obj_attrs"]}
{"id": "C48", "title": "What _jsonpickle_exclude excludes has no influence on the document", "statement": "If two object graphs differ only in attributes, slots, entries of dict subclasses and entries of dict states that _jsonpickle_exclude lists (for instances that are not of a list, set or tuple subclass; no dict subclass becomes empty), then encode gives the same document, with the same reference numbers, for both. A state dict of which nothing is left counts as no state.", "quantifier": "every pair of object graphs that differ only in what is excluded, every option", "why_tests_cant": "non-interference is about pairs of runs over unbounded graphs", "anchors": ["jsonpickle/pickler.py:Pickler._flatten_obj_attrs", "jsonpickle/pickler.py:Pickler._flatten_dict_obj", "jsonpickle/pickler.py:Pickler._flatten_obj_instance"]}
{"id": "C49", "title": "Precedence of the encoding protocols", "statement": "A handler registered for the class comes before __reduce__/__reduce_ex__, these (with unpicklable=True, unless the class cannot take the state back) before __getnewargs_ex__, which comes before __getnewargs__, and __getstate__ comes before the attributes and contents: where one applies, nothing that only the later ones would read has any influence on the document.", "quantifier": "every pair of object graphs that differ only in what protocols of lower precedence would read", "why_tests_cant": "non-interference is about pairs of runs over unbounded graphs", "anchors": ["jsonpickle/pickler.py:Pickler._flatten_obj_instance", "jsonpickle/pickler.py:Pickler._reduce"]}
{"id": "C50", "title": "Dictionary keys as text", "statement": "With keys=False, a dict that is met for the first time and is not cut off or replaced by fail_safe becomes a JSON object whose keys are the texts of its keys, in the order of first occurrence: a string is itself, None is null, any other key is its repr, or its str if repr raises an Exception. The value for a text is the encoding of the last entry with that text. Entries whose key is one of the reserved py/ names, and functions that cannot be found by name, are left out.", "quantifier": "every dict in every state of the Pickler, every repr and str of the keys", "why_tests_cant": "any combination of keys may collide; repr and str are user code", "anchors": ["jsonpickle/pickler.py:Pickler._flatten_dict_obj", "jsonpickle/pickler.py:Pickler._flatten_key_value_pair"]}
{"id": "C51", "title": "Dates and times round-trip", "statement": "A date, time or datetime (or an instance of a subclass that keeps the constructor) that DatetimeHandler writes reads back with the same class, the same date and time of day to the microsecond and its time zone, whenever its class and its tzinfo object read back; fold is set to 0. With unpicklable=False its isoformat is written.", "quantifier": "every date, time and datetime, every tzinfo object, every state of the Pickler and Unpickler", "why_tests_cant": "all combinations of fields; the payload is the binary one of pickle", "anchors": ["jsonpickle/handlers.py:DatetimeHandler.flatten", "jsonpickle/handlers.py:DatetimeHandler.restore"]}
{"id": "C52", "title": "UUIDs, arrays, compiled regular expressions, locks and queues", "statement": "A UUID reads back as the UUID with the same 128 bits, and different UUIDs have different documents. An array.array reads back with the same type code and items, whenever the list of its items reads back as an equal list. A compiled regular expression for text is compiled again from the same pattern and flags; one for bytes cannot be encoded (TypeError). A lock reads back as a new lock that is held exactly if the first was. A queue reads back empty and unbounded.", "quantifier": "every UUID, array, pattern, lock and queue", "why_tests_cant": "2^128 UUIDs; arrays of any length", "anchors": ["jsonpickle/handlers.py:UUIDHandler.flatten", "jsonpickle/handlers.py:UUIDHandler.restore", "jsonpickle/handlers.py:ArrayHandler.flatten", "jsonpickle/handlers.py:ArrayHandler.restore", "jsonpickle/handlers.py:RegexHandler.flatten", "jsonpickle/handlers.py:LockHandler.restore"]}
{"id": "C53", "title": "The document depends on the object graph, not on addresses", "statement": "If the same objects lie at other addresses, and repr() and str() do not show addresses, encode gives the same text or raises the same exception; also when one Pickler writes several documents with reset=False.", "quantifier": "every graph, every injective renaming of addresses, all options", "why_tests_cant": "id() of objects differs from run to run; no test covers all placements", "anchors": ["jsonpickle/pickler.py:Pickler._log_ref", "jsonpickle/pickler.py:Pickler._mkref", "jsonpickle/pickler.py:Pickler._getref", "jsonpickle/pickler.py:Pickler._flatten"]}
{"id": "C54", "title": "A large max_depth has no effect", "statement": "For every object graph that encode finishes on there is a bound such that encode with any max_depth from this bound on does exactly what it does without max_depth.", "quantifier": "every graph, all options, every max_depth from the bound on", "why_tests_cant": "unbounded limits and graphs", "anchors": ["jsonpickle/pickler.py:Pickler._max_reached", "jsonpickle/pickler.py:_in_cycle"]}
{"id": "C55", "title": "An object with exclusions is written like the object without what is excluded", "statement": "For instances that are not of a list, set or tuple subclass and whose __getstate__, if any, does not return a dict: encode does exactly what it does for the graph in which the attributes, slots and dict-subclass entries listed in _jsonpickle_exclude are missing and nothing is excluded (no dict subclass becomes empty). Instances of list, set and tuple subclasses keep their excluded attributes.", "quantifier": "every object graph, all options", "why_tests_cant": "pairs of runs over unbounded graphs", "anchors": ["jsonpickle/pickler.py:Pickler._flatten_obj_attrs", "jsonpickle/pickler.py:Pickler._flatten_dict_obj", "jsonpickle/pickler.py:Pickler._flatten_obj_instance", "jsonpickle/util.py:items"]}
{"id": "C56", "title": "Whose __reduce__ is used", "statement": "has_reduce is (False, False) for objects of types with a notation of their own, of subclasses of dict, list, set, tuple and modules (those defined in collections other than defaultdict apart) and for objects with __getitem__ and append. For all others except time.struct_time, __reduce__ counts as present exactly if the object itself has it (in __dict__ or __slots__) or some class in its MRO other than object defines it, wherever it stands in the MRO; likewise __reduce_ex__. This holds when __slots__ is not a single string and the definitions are neither false values nor the methods of object.", "quantifier": "every class hierarchy with every MRO", "why_tests_cant": "unbounded class hierarchies; the loop over the MRO skips some classes and a fallback must catch them", "anchors": ["jsonpickle/util.py:has_reduce", "jsonpickle/util.py:_is_reducible", "jsonpickle/util.py:in_dict", "jsonpickle/util.py:in_slots"]}
{"id": "C57", "title": "Which methods of an object are used", "statement": "For an object without an attribute of that name in its own __dict__, has_method(obj, name) is True exactly if the first class in the MRO that defines name defines it as a function, static method, class method or builtin method; a definition as None or another value hides the methods above it. A function assigned to the object itself does not count (unless the class has a static method of that name). A subclass that does not define the name has the method if its base class has it. Asked about a class, has_method is True exactly if the first class in the MRO that defines name defines it as a static or class method, or if none defines it and it is a builtin method of the metaclass. __getstate__ counts exactly if a class other than object defines it (not as None, and not as the method of object).", "quantifier": "every class hierarchy with every MRO", "why_tests_cant": "unbounded class hierarchies", "anchors": ["jsonpickle/util.py:has_method", "jsonpickle/pickler.py:Pickler._flatten_obj_instance"]}
{"id": "C58", "title": "Without references every object is written out wherever it occurs", "statement": "With unpicklable=False or make_refs=False and without max_depth, encode of an object graph without cycles returns the text of its expansion: a document computed from the objects alone, level by level, in which an object that occurs several times is written in full each time. Neither the table of seen objects nor the cache of documents shows. This holds when user code does not raise (__getstate__ and __reduce__ may raise TypeError) and repr() and str() do not; default factories are classes; excluded attributes are not part of a __getstate__ result; the __dict__ of a dict-subclass instance is not used elsewhere; distinct objects have distinct ids.", "quantifier": "every acyclic object graph, all other options", "why_tests_cant": "two stateful mechanisms (seen objects, cached documents) must cancel out over unbounded graphs with arbitrary sharing", "anchors": ["jsonpickle/pickler.py:Pickler._flatten", "jsonpickle/pickler.py:Pickler._flatten_obj", "jsonpickle/pickler.py:Pickler._ref_obj_instance", "jsonpickle/pickler.py:Pickler._mkref", "jsonpickle/pickler.py:_in_cycle"]}
{"id": "C59", "title": "What decode reads", "statement": "decode depends only on the entries of a JSON object that belong to what the object denotes; two documents that agree after all other entries are left out (at every level) give the same object, the same exception and the same imports and calls. The first present of py/tuple, py/set, py/b64, py/b85, py/bytea, py/id, py/iterator, py/object, py/type, py/reduce, py/function, py/mod, py/repr decides; all but py/object need no other entry. For an instance only the factory, the first present of py/newargsex, py/newargs, py/initargs, then py/seq, py/state and the unreserved keys are read; for a tuple subclass neither state nor keys, and py/seq only if there are no arguments. In particular py/property is never read. A tuple class with _fields whose document has only py/seq gets the elements as arguments if their number is that of the fields, and none otherwise (shown for numbers, strings and constants). Objects of missing classes (or classes that cannot be made), of classes with handlers, and missing py/type entries are not covered: they are kept as they are.", "quantifier": "every document, every environment and all options of decode", "why_tests_cant": "unbounded documents; which entries matter depends on other entries", "anchors": ["jsonpickle/unpickler.py:Unpickler._restore_tags", "jsonpickle/unpickler.py:Unpickler._restore_object_instance", "jsonpickle/unpickler.py:Unpickler._restore_object_instance_variables", "jsonpickle/unpickler.py:getargs", "jsonpickle/unpickler.py:Unpickler._restore_from_dict"]}
{"id": "C60", "title": "include_properties does not change what is decoded", "statement": "With include_properties=True the values of the properties of an object are added to its document. The documentation says that 'properties are unpickled properly regardless of this setting': decode(encode(x, include_properties=True)) is what decode(encode(x)) is, the same value with the same shared parts, the same imports and calls; and encode raises with the option exactly if it raises without.", "quantifier": "all object graphs, classes, members of classes and the values they have on instances; unpicklable=True, keys=False, no max_depth, no fail_safe, any max_iter and use_base85", "why_tests_cant": "The claim relates two encoders on all graphs. The tests encode one object with properties of type int and look at the text; none of them decodes a text with properties, and none has a shared object and a method in the same graph.", "anchors": ["jsonpickle/pickler.py:Pickler._flatten_properties", "jsonpickle/pickler.py:Pickler._flatten_newstyle_with_slots", "jsonpickle/pickler.py:Pickler._flatten_obj_instance", "jsonpickle/unpickler.py:Unpickler._restore_object_instance", "jsonpickle/tags.py:PROPERTY"]}
{"id": "C61", "title": "pandas objects come back with their names, types and labels", "statement": "With the pandas handlers registered, decode(encode(x)) equals x for every pandas Index, PeriodIndex, MultiIndex, Series, DataFrame, Timestamp, Period and Interval: the values, the dtypes of index and columns, the names of index, levels, columns and series, and the time zone; given that the values themselves survive encode and decode and that pandas converts them to the recorded dtype.", "quantifier": "all indexes, series and frames, all labels, names, dtypes and thresholds for compression", "why_tests_cant": "Names are put into the document without being encoded, and come back through tuple() or not at all, depending on the kind of object. The tests have indexes and series without names, and columns of numpy dtypes only.", "anchors": ["jsonpickle/ext/pandas.py:PandasIndexHandler.restore", "jsonpickle/ext/pandas.py:PandasMultiIndexHandler.name_bundler", "jsonpickle/ext/pandas.py:PandasSeriesHandler.flatten", "jsonpickle/ext/pandas.py:PandasDfHandler.flatten", "jsonpickle/ext/pandas.py:PandasDfHandler.restore", "jsonpickle/ext/pandas.py:PandasTimestampHandler.restore"]}
{"id": "C62", "title": "Instances that refuse assignment come back complete", "statement": "decode(encode(x)) gives back instances of frozen dataclasses with all their attributes, and instances of mappings without item assignment with all their items, also when they occur in cycles or more than once.", "quantifier": "every document and every graph of the supported objects, every choice of frozen classes, all mappings from names to plain values", "why_tests_cant": "Attributes of a frozen instance are set in two places, once with and once without regard to frozenness, depending on whether an object that refers back was complete. The tests have frozen dataclasses without cycles and immutable mappings that occur once.", "anchors": ["jsonpickle/unpickler.py:Unpickler._restore_from_dict", "jsonpickle/unpickler.py:Unpickler._swap_proxies", "jsonpickle/unpickler.py:_obj_setattr"]}
{"id": "C63", "title": "Nesting matters only through max_depth", "statement": "encode((v,), max_depth=m+1) writes exactly the document of encode(v, max_depth=m), for m >= 0 or no limit, wrapped in the document of a one-element tuple, and raises what it raises when there is no fail_safe; likewise for a set; inside a run the depth matters only through its distance to max_depth.", "quantifier": "every value and graph, cyclic ones through the tuple included, every combination of options, any number of levels", "why_tests_cant": "all graphs and option combinations, and all states of the bookkeeping", "anchors": ["jsonpickle/pickler.py:Pickler._push", "jsonpickle/pickler.py:Pickler._pop", "jsonpickle/pickler.py:Pickler._max_reached", "jsonpickle/pickler.py:Pickler._flatten_obj", "jsonpickle/pickler.py:_in_cycle"]}
{"id": "C64", "title": "Being callable matters only through repr", "statement": "encode treats a callable instance like any other if its repr returns a text that does not begin with '<cyfunction ' and it is no bound method. If its repr raises, encode raises for it and, unless max_depth=0, for every dict that has it as a value under an ordinary key (keys=False); with fail_safe it is the dict that is replaced, and in a list the object. If its repr begins with '<cyfunction ' it is written as the name of a function, with unpicklable=False as null, unless max_depth=0. Bound methods among the values of a dict are left out (keys=False), elsewhere they are written.", "quantifier": "every graph, every choice of callable objects and of what their repr does, every combination of the other options", "why_tests_cant": "all reprs of user classes; the question is asked of every value of every dict, where no test has a callable whose repr raises", "anchors": ["jsonpickle/util.py:_is_module_function", "jsonpickle/util.py:_is_cython_function", "jsonpickle/util.py:_is_picklable", "jsonpickle/util.py:_is_function", "jsonpickle/pickler.py:Pickler._get_flattener", "jsonpickle/pickler.py:Pickler._flatten_function"]}
{"id": "C65", "title": "Strings returned by __reduce__", "statement": "If __reduce__ returns a string 'module.NAME' whose module is loaded, the object written is the one that the path leads to. A name without a dot, which is what pickle expects, and a path whose first name is no loaded module are ignored; of a longer path only the first two names count. An object that is named by its own string is written as a reference to itself, and decode gives an internal placeholder.", "quantifier": "every string, every set of loaded modules and their attributes; every object named by its own string", "why_tests_cant": "all paths; the only test has a path of two names that leads to a different object", "anchors": ["jsonpickle/pickler.py:Pickler._flatten_obj_instance", "jsonpickle/pickler.py:Pickler._reduce"]}
{"id": "C66", "title": "indent and separators change only the look of the text", "statement": "encode with an indentation of white space and separators that are a comma and a colon with white space around them raises exactly if encode without these options raises, and otherwise writes a text of the same document, which decode turns into the same objects with the same effects. This also holds when the options are set for all texts, those inside dictionary keys included, for the graphs that come back without them.", "quantifier": "every indentation and separators of this kind, every value and document, every decoding environment and state", "why_tests_cant": "all documents and layouts; the tests compare the text of a few small values", "anchors": ["jsonpickle/pickler.py:encode", "jsonpickle/backend.py:JSONBackend.backend_encode", "jsonpickle/backend.py:JSONBackend.set_encoder_options", "jsonpickle/unpickler.py:decode"]}
{"id": "C67", "title": "sort_keys makes one text of equal plain data", "statement": "With the encoder option sort_keys=True, the text of every object (without keys=True) is the text of the document that it is flattened to with the entries of every object rearranged so that keys increase; lists and dicts of plain data without sharing have the same text whatever the order in which dicts were filled, and decode to the same data with keys in order; if the keys increase already the option changes nothing; an object with __slots__ is refused with a TypeError if warn is on. (Data with references is not covered: references are numbered before the entries are rearranged, and decode gives other objects.)", "quantifier": "all plain data, all orders of insertion, all graphs for the first part, all options except keys=True there", "why_tests_cant": "all permutations of all nested dicts", "anchors": ["jsonpickle/pickler.py:Pickler._determine_sort_keys", "jsonpickle/pickler.py:Pickler._sort_attrs", "jsonpickle/pickler.py:Pickler.flatten", "jsonpickle/backend.py:JSONBackend.set_encoder_options", "jsonpickle/backend.py:JSONBackend.backend_encode"]}
{"id": "C68", "title": "unpicklable=False writes shared plain data in full", "statement": "With unpicklable=False (default make_refs and max_depth), plain data - None, bools, numbers, strings, lists, and dicts with string keys that are not jsonpickle tags (nor start with json:// under keys=True) - is written as exactly the JSON value it looks like, with a list or dict that occurs several times written out each time, and decode returns equal data in which nothing is shared. encode fails to finish (RecursionError) exactly if a list or dict contains itself.", "quantifier": "every heap of lists and dicts, with any sharing and any cycles", "why_tests_cant": "sharing patterns and cycles of unbounded size", "anchors": ["jsonpickle/pickler.py:Pickler._flatten_impl", "jsonpickle/pickler.py:Pickler._mkref", "jsonpickle/pickler.py:_in_cycle", "jsonpickle/pickler.py:Pickler._getref"]}
{"id": "C69", "title": "Iterators come back as iterators over their items", "statement": "An iterator without handler, reduce value, constructor arguments or __getstate__ (a generator, an instance of a class with __next__) whose items are plain data in which no list or dict occurs twice is written as its class name and its first max_iter items, and decode returns an iterator over a new list of equal items; its class is not restored.", "quantifier": "every class, every sequence of plain items, every max_iter and option", "why_tests_cant": "unbounded item sequences", "anchors": ["jsonpickle/pickler.py:Pickler._flatten_obj_instance", "jsonpickle/unpickler.py:Unpickler._restore_iterator"]}
{"id": "C70", "title": "Registering and unregistering the handlers of an extension", "statement": "If none of the classes of an extension has a handler (nor another class of the same name), then register_handlers() followed by unregister_handlers() leaves the handler registry as it was for gmpy, and for numpy and pandas as it was except that np.datetime64 keeps its handler; every other lookup, by class or by name, gives what it gave before. While the pandas handlers are registered, every subclass of pd.Index that is not itself registered gets the handler of pd.Index, also if it is a subclass of PeriodIndex or MultiIndex.", "quantifier": "every registry, every class hierarchy", "why_tests_cant": "arbitrary earlier registrations and class hierarchies", "anchors": ["jsonpickle/ext/numpy.py:register_handlers", "jsonpickle/ext/numpy.py:unregister_handlers", "jsonpickle/ext/pandas.py:register_handlers", "jsonpickle/ext/pandas.py:unregister_handlers", "jsonpickle/ext/gmpy.py:register_handlers", "jsonpickle/handlers.py:Registry.unregister"]}
{"id": "C71", "title": "Options of the JSON backends", "statement": "After any history of calls, the encode (decode) function of a backend is called with the options given last to set_encoder_options (set_decoder_options) for its name, or, if they were never set, with those the manager starts with; the arguments indent and separators of encode override them; options set for one backend never reach another. Options set before a backend is loaded are kept. A backend that was removed (remove_backend, or load_backend not finding its functions) since then has no options, not even those of the start.", "quantifier": "every history of load/remove/prefer/option calls, double loads included", "why_tests_cant": "arbitrary interleavings of calls on the manager", "anchors": ["jsonpickle/backend.py:JSONBackend.set_encoder_options", "jsonpickle/backend.py:JSONBackend.set_decoder_options", "jsonpickle/backend.py:JSONBackend.backend_encode", "jsonpickle/backend.py:JSONBackend.backend_decode", "jsonpickle/backend.py:JSONBackend.load_backend", "jsonpickle/backend.py:JSONBackend.remove_backend"]}
{"id": "C72", "title": "Encoding what decode returned gives the same text again", "statement": "encode(decode(text)) == text, character by character, for every text that encode made of a covered graph of data: lists, dicts (also keys=True), tuples, bytes, classes, functions, modules and instances of classes without pickling protocol and handler (plain, with slots, subclasses of list), with any sharing and any cycles; whatever was decoded before. So any number of rounds of decode and encode ends with the same text.", "quantifier": "every covered data graph, every state in which the text is decoded, any number of rounds", "why_tests_cant": "sharing and cycles of any shape; the numbers of py/id must come out the same although the objects are new", "anchors": ["jsonpickle/pickler.py:Pickler._flatten_obj_instance", "jsonpickle/pickler.py:Pickler._mkref", "jsonpickle/unpickler.py:Unpickler._restore_object_instance", "jsonpickle/unpickler.py:Unpickler._restore_id"]}
{"id": "C73", "title": "Two graphs have the same text exactly if they are isomorphic", "statement": "With default references (make_refs, unpicklable, no max_depth): if there is a one-to-one correspondence between the objects of two graphs of data that respects classes, attributes, items, order and atoms, encode gives the same text for both, wherever the objects are in memory; and conversely two covered graphs with the same text are isomorphic (with keys=True up to the order of string and other keys of a dict). Without references this is false.", "quantifier": "every pair of covered data graphs", "why_tests_cant": "quantifies over pairs of heaps and over the layout of objects in memory", "anchors": ["jsonpickle/pickler.py:Pickler._log_ref", "jsonpickle/pickler.py:Pickler._mkref", "jsonpickle/pickler.py:Pickler._flatten_obj_instance", "jsonpickle/pickler.py:Pickler._flatten_dict_obj", "jsonpickle/unpickler.py:Unpickler._mkref"]}
{"id": "C74", "title": "Dates, UUIDs, arrays, patterns and locks inside a graph", "statement": "If a covered graph contains a date, time or datetime, a UUID, an array.array, a compiled pattern of text, a lock or a queue, then the object at the same place of decode(encode(x)) has the same class and is: the same date and time with the object that corresponds to its time zone (shared with whatever shared it), except that fold is 0; a UUID with the same number; an array with the same type code and items; a pattern with the same text and flags; a lock in the same state; an empty unbounded queue.", "quantifier": "every covered graph, every place in it, every value of these types", "why_tests_cant": "sharing between these objects and the rest of the graph; all values of the types", "anchors": ["jsonpickle/handlers.py:DatetimeHandler.flatten", "jsonpickle/handlers.py:DatetimeHandler.restore", "jsonpickle/handlers.py:UUIDHandler.restore", "jsonpickle/handlers.py:ArrayHandler.flatten", "jsonpickle/handlers.py:ArrayHandler.restore", "jsonpickle/handlers.py:RegexHandler.restore", "jsonpickle/handlers.py:LockHandler.restore", "jsonpickle/handlers.py:QueueHandler.restore"]}
{"id": "C75", "title": "With safe=True decode looks up and calls only what the document names", "statement": "Let safe=True, and let what can be found by name be classes, functions, modules and constants. Whatever the document, the options and the registered handlers: every name that decode looks up, hands to on_missing or treats as a class is the text of a py/object, py/type, py/function, py/mod or py/repr entry of the document (or of a document inside a json:// key), and everything it calls (classes, __new__, functions of py/reduce, state setters) is named by such a text. A document without such entries makes nothing happen. To look up the class a.b.c only a and a.b are imported. Functions that are named can be called all the same: safe=True does not prevent a document from calling os.system.", "quantifier": "every JSON document, every outcome, every set of classes, functions and handlers, every state of the interpreter", "why_tests_cant": "the documents of an attacker are not in any test", "anchors": ["jsonpickle/unpickler.py:Unpickler._restore_tags", "jsonpickle/unpickler.py:Unpickler._restore_object", "jsonpickle/unpickler.py:Unpickler._restore_reduce", "jsonpickle/unpickler.py:Unpickler._restore_type", "jsonpickle/unpickler.py:Unpickler._restore_function", "jsonpickle/unpickler.py:Unpickler._restore_module", "jsonpickle/unpickler.py:Unpickler._restore_object_instance", "jsonpickle/unpickler.py:getargs", "jsonpickle/util.py:loadclass", "jsonpickle/unpickler.py:_loadmodule"]}
{"id": "C76", "title": "What a document does not name has no influence on decoding it", "statement": "Let safe=True, and let what can be found by name be classes, functions, modules and constants. If two programs use the same options and backend, and every name in the document denotes the same class, function or module with the same handler in both, then decode does exactly the same in both: same result or exception, same objects, same calls. In particular registering or removing a handler, or defining, redefining or removing a class or function, changes nothing for documents that do not name it.", "quantifier": "every JSON document, every pair of sets of classes, functions, modules and handlers, every state of the interpreter", "why_tests_cant": "it compares all pairs of programs", "anchors": ["jsonpickle/unpickler.py:Unpickler.restore", "jsonpickle/unpickler.py:Unpickler._restore_object", "jsonpickle/unpickler.py:Unpickler._restore_object_instance", "jsonpickle/unpickler.py:Unpickler._restore_reduce", "jsonpickle/unpickler.py:Unpickler._restore_type", "jsonpickle/unpickler.py:getargs"]}
{"id": "C77", "title": "Decoding ends, and what it does is linear in the length of the text", "statement": "decode(text) comes to an end for every text, whatever the options (keys=True included), the classes, the handlers and the state of the decoder are: it returns or raises, with fewer nested calls than the text has characters. If only subclasses of tuple have a _fields attribute, the number of look-ups of names, calls of classes, functions and state setters, evaluations of py/repr and py/object entries processed is at most five times the number of characters of the text. (A class L(list) with _fields is why the condition is there: its elements are restored twice, and a text of length 34n+4 causes at least 2^n-1 calls.)", "quantifier": "every text, every option, every set of classes and handlers, every state of the decoder", "why_tests_cant": "termination and a bound for all texts; the exponential case needs nested documents that nobody writes", "anchors": ["jsonpickle/unpickler.py:decode", "jsonpickle/unpickler.py:Unpickler.restore", "jsonpickle/unpickler.py:getargs", "jsonpickle/unpickler.py:Unpickler._restore_object_instance", "jsonpickle/unpickler.py:Unpickler._restore_object_instance_variables", "jsonpickle/unpickler.py:Unpickler._restore_dict"]}
{"id": "C78", "title": "The size of a document is linear in what the objects hold", "statement": "With unpicklable=True and make_refs=True, whatever the graph, the classes, the handlers and the other options (fail_safe absent or returning something with at most three values): if encode returns, the document has at most 3 values for every value that a list, dict or instance of the program holds and 14 more for every instance; each of them is written out once, however often it occurs and through however many cycles. Values are lists, objects, strings, numbers and constants. Tuples count wherever they occur: n+1 tuples, each a pair of the one before, give at least 2^n values; with make_refs=False so do n+2 lists.", "quantifier": "every graph, every set of classes and handlers, every option that keeps references", "why_tests_cant": "a bound for all graphs, with all sharing and all cycles; tests look at a few documents", "anchors": ["jsonpickle/pickler.py:Pickler.flatten", "jsonpickle/pickler.py:Pickler._flatten_impl", "jsonpickle/pickler.py:Pickler._mkref", "jsonpickle/pickler.py:Pickler._flatten_obj_instance", "jsonpickle/pickler.py:Pickler._ref_obj_instance", "jsonpickle/pickler.py:Pickler._flatten_dict_obj"]}
{"id": "C79", "title": "numeric_keys does not change the text for ordinary numbers", "statement": "encode(x, numeric_keys=True, ...) gives the same text or raises the same exception as encode(x, ...), for every graph and all other options, if the numbers among the keys of its dictionaries are such that repr and json write them alike (all ints; finite floats), no number has the same text as another key of its dictionary, and fail_safe, if given, returns nothing with numbers as keys. With keys=True there are no conditions. Without them the texts differ: {True: 1} is written with the key true instead of True, NaN as NaN instead of nan, and {1: a, '1': b} with two entries named 1.", "quantifier": "every graph, every set of classes and handlers, every combination of the other options", "why_tests_cant": "quantifies over all graphs and options; the two runs keep different tables", "anchors": ["jsonpickle/pickler.py:Pickler._flatten_key_value_pair", "jsonpickle/pickler.py:Pickler._flatten_string_key_value_pair", "jsonpickle/pickler.py:Pickler._flatten_dict_obj"]}
{"id": "C80", "title": "warn reports what cannot be written and changes nothing else", "statement": "encode(x, warn=True, ...) gives the same text or raises the same exception as encode(x, ...) if str succeeds for the objects that cannot be written. Only objects that cannot be written are reported: lambdas, objects whose handler returns None, objects whose __getstate__ raises TypeError, and with unpicklable=False objects without attributes, slots and elements. With unpicklable=True, if None does not occur in the graph (nor in what its methods return), fail_safe returns nothing with None, and nothing is reported, then null does not occur in the document. Otherwise null may appear unreported: with unpicklable=False functions and cycles become null silently. Lambdas that are values of dictionaries or attributes are dropped silently, those in lists are reported twice; and if str raises for an object that cannot be written, encode raises with warn=True only.", "quantifier": "every graph, every set of classes and handlers, every combination of the other options", "why_tests_cant": "quantifies over all graphs and options and relates two runs", "anchors": ["jsonpickle/pickler.py:Pickler._pickle_warning", "jsonpickle/pickler.py:Pickler._get_flattener", "jsonpickle/pickler.py:Pickler._flatten_obj", "jsonpickle/pickler.py:Pickler._flatten_obj_instance"]}
{"id": "C81", "title": "The form in which an object is written is determined by its exact type", "statement": "Objects whose type is exactly bytes, bytearray, list, dict, tuple, set, str, bool, int, float or NoneType are written in the notation of the type; instances of subclasses never are, but as instances (with use_decimal, instances of Decimal and its subclasses are handed to the backend). Among objects that do not claim another __class__ than their type and are not Cython functions: functions that can be found by name are written by name, classes of any metaclass by name, functions that cannot be found by name (lambdas) are refused, everything else is written as an instance. As values of dictionaries and attributes exactly the refused objects and bound methods are left out. Instances without handler, reduce value and state are written as modules, entries, elements, iterators, attributes, slots, in this order; the second test for sequences, under has_dict, never succeeds. An object that claims to be a function is written as one or refused, one that claims to be a list is written as an instance with elements.", "quantifier": "every class hierarchy, every object, with and without use_decimal", "why_tests_cant": "quantifies over all class hierarchies and objects", "anchors": ["jsonpickle/pickler.py:Pickler._get_flattener", "jsonpickle/pickler.py:Pickler._flatten_impl", "jsonpickle/pickler.py:Pickler._flatten_obj_instance", "jsonpickle/util.py:_is_object", "jsonpickle/util.py:_is_module_function", "jsonpickle/util.py:_is_picklable", "jsonpickle/util.py:_is_sequence_subclass", "jsonpickle/util.py:_is_iterator"]}
{"id": "C82", "title": "v1_decode only changes what references refer to", "statement": "A document without py/id entries (with keys=True: also none inside its json:// keys) is decoded in the same way with and without v1_decode=True: the same result or exception, the same objects made in the same way, the same calls. So is what encode(make_refs=False) writes, unless user code writes py/id entries, and data whose text has no references round-trips with the option as without it. With the option and keys=False, a document made of scalars, lists, dicts and references is decoded to what it denotes when only the lists are counted: every reference becomes a list or None, never a dict. What this version writes for [{}, x, x] is read as [{}, x, None].", "quantifier": "every document, environment and state without leftover placeholders; the round trip for every supported value", "why_tests_cant": "quantifies over all documents", "anchors": ["jsonpickle/unpickler.py:Unpickler._restore_dict", "jsonpickle/unpickler.py:Unpickler._mkref", "jsonpickle/unpickler.py:Unpickler._restore_id", "jsonpickle/unpickler.py:decode"]}
{"id": "C83", "title": "Which numpy dtypes come back from the text that is stored for them", "statement": "The numpy handlers store a dtype as text (str(dtype), without the class of record dtypes) and read it back with literal_eval and np.dtype. A dtype comes back unchanged if and only if it is a scalar dtype or a structured dtype, packed or not, with titles, subarrays and nested structures, in which no structure has a class of its own such as numpy.record; field names may contain any characters. A record dtype comes back as a plain structured dtype with the same fields. Subarray dtypes, and structured dtypes with a record dtype inside or a class other than numpy.record, are written, but reading them raises. In particular literal_eval(repr(x)) is x for the strings, numbers, tuples, lists and dicts of which the texts are made.", "quantifier": "every dtype not made with align=True; all scalar dtypes whose names numpy reads back", "why_tests_cant": "quantifies over all nested dtypes and all field names", "anchors": ["jsonpickle/ext/numpy.py:NumpyBaseHandler.flatten_dtype", "jsonpickle/ext/numpy.py:NumpyBaseHandler.restore_dtype", "jsonpickle/ext/numpy.py:NumpyDTypeHandler.flatten", "jsonpickle/ext/numpy.py:NumpyDTypeHandler.restore"]}
{"id": "C84", "title": "A handler works with the pickler that called it", "statement": "Handlers may be registered as classes or as instances. Methods of handlers registered as classes always find the pickler or unpickler that called them in self.context. Methods of a handler registered as an instance find the one that called this instance last: they find their own caller if they read self.context before they do anything else, or if no method in the course of the call encodes or decodes anything with another pickler; in general if and only if the last call of the instance before the reading came from the same caller. What earlier calls did with the instance makes no difference.", "quantifier": "all nestings of calls of handlers, whatever was done with the handlers before", "why_tests_cant": "quantifies over all nestings of handler calls", "anchors": ["jsonpickle/handlers.py:BaseHandler.__call__", "jsonpickle/handlers.py:BaseHandler.__init__", "jsonpickle/pickler.py:Pickler._flatten_obj_instance", "jsonpickle/unpickler.py:Unpickler._restore_object"]}
{"id": "C85", "title": "With make_refs=False the unfolding of the graph comes back", "statement": "For an object graph without cycles that consists of scalars, bytes, bytearrays, classes, functions and modules that their names lead to, tuples, sets of scalars, bytes, classes, functions, modules and tuples of them (no two of which differ only in which NaN objects they are or hold), lists, dicts with string keys and objects of classes without pickling protocol, whose keys and attribute names are not taken for something else (no tags, no attribute called default_factory or starting with two underscores, with keys=True no json:// prefix) and whose texts and numbers JSON can tell, decode(encode(x, make_refs=False)) has the same unfolding as x: following elements, entries and attributes shows the same values, and objects of the same classes. All lists, dicts and objects of the result are new, and along different paths different ones are met. So the result is an isomorphic object graph (the identity of bytearrays aside) if and only if no list, dict or object of x is met along two paths.", "quantifier": "all object graphs without cycles of these kinds; keys and v1_decode on or off", "why_tests_cant": "quantifies over all object graphs without cycles", "anchors": ["jsonpickle/pickler.py:Pickler._mkref", "jsonpickle/pickler.py:Pickler._ref_obj_instance", "jsonpickle/unpickler.py:Unpickler._restore_object_instance", "jsonpickle/unpickler.py:Unpickler._restore_tuple", "jsonpickle/unpickler.py:Unpickler._restore_set", "jsonpickle/unpickler.py:Unpickler._restore_function", "jsonpickle/unpickler.py:Unpickler._restore_dict"]}
{"id": "C86", "title": "Options have an effect only on the objects they are about", "statement": "Whatever the graph and the other options are, encode gives the same text or raises the same exception: with and without keys=True, if all keys of dicts and all attribute names are strings that are no tags and do not start with json://; with and without use_base85, if there are no byte strings; with max_iter=n and without it, if every iterator has at most n items left (and does not raise after the n-th). If encode succeeds without fail_safe, it returns the same text with it, provided that no object has slots without __dict__ or a __reduce__ that returns a name (encode catches exceptions for these). For such keys, a covered graph (C01) written with or without keys=True is read back with or without it.", "quantifier": "all object graphs, classes, handlers and other options; all states of the encoder", "why_tests_cant": "quantifies over all object graphs and combinations of options", "anchors": ["jsonpickle/pickler.py:Pickler._flatten_dict_obj", "jsonpickle/pickler.py:Pickler._flatten_string_key_value_pair", "jsonpickle/pickler.py:Pickler._flatten_non_string_key_value_pair", "jsonpickle/pickler.py:Pickler._flatten_obj", "jsonpickle/pickler.py:Pickler._flatten_obj_instance", "jsonpickle/pickler.py:Pickler._flatten_impl"]}
{"id": "C87", "title": "Data frames written before version 3.4 are read as recorded", "statement": "A data frame document without dtypes_rle is read by the older reader with exactly one warning, whether or not its CSV text happens to be a JSON document; one with dtypes_rle is read by the newer reader without a warning if its text can be decoded, otherwise by the older one. The older reader returns a frame exactly if the text is a CSV table with all columns of dates and time differences that are recorded and every column can be read; its columns are then those of the table in their order, each read in one way only: dates are parsed and cast to the recorded dtype, complex numbers made by complex, time differences converted from objects, others read with the recorded dtype, and columns without one as pandas infers. So every column has its recorded dtype, except that complex columns are complex128 and time differences timedelta64[ns]. Blank text gives a frame without columns.", "quantifier": "all documents, tables, recorded dtypes and behaviours of pandas on columns", "why_tests_cant": "quantifies over all tables and assignments of dtypes to columns", "anchors": ["jsonpickle/ext/pandas.py:PandasDfHandler.restore", "jsonpickle/ext/pandas.py:PandasDfHandler.restore_v3_3", "jsonpickle/ext/pandas.py:make_read_csv_params"]}
{"id": "C88", "title": "Documents without references are decoded part by part", "statement": "If a list, tuple or untagged dict document contains no py/id (also not inside json:// keys) and the names in it denote classes, functions and modules, restore on a new Unpickler gives exactly the list, tuple or dict of what the parts give when each is restored alone by a new Unpickler: the parts of the result are copies of those results standing side by side and sharing no objects, and the same imports and calls are made in the same order. A list or dict raises an exception exactly if some part does and all parts before it give values, namely that exception; so does a tuple, except that a TypeError in a part makes the tuple empty. The result of decoding a document without references holds no placeholders. With references this fails.", "quantifier": "all programs, options and documents without references", "why_tests_cant": "quantifies over all documents and programs; relates decodings of a document and of its parts", "anchors": ["jsonpickle/unpickler.py:Unpickler.restore", "jsonpickle/unpickler.py:Unpickler._restore_list", "jsonpickle/unpickler.py:Unpickler._restore_tuple", "jsonpickle/unpickler.py:Unpickler._restore_dict", "jsonpickle/unpickler.py:Unpickler._swap_proxies", "jsonpickle/unpickler.py:Unpickler._mkref"]}
{"id": "C89", "title": "Values that share nothing are encoded as if alone, with shifted reference numbers", "statement": "With unpicklable=True, make_refs=True, keys=False and max_depth=None, and unless user code itself writes the key py/id, what a Pickler writes in the middle of a run for a value none of whose reachable objects it has met is what it writes for the value alone, with every py/id number raised by the number of objects met before; an exception is the same, and the objects met are the same ones, numbered after the old ones. Hence without fail_safe the document of a list, tuple or set of values no two of which reach a common object (and which do not reach the list) consists of the documents of the values, the reference numbers raised by the number of objects met in the container and the earlier values, and it raises an exception exactly if some value does and all earlier values do not, namely that one. Values that share an object are not written as if alone.", "quantifier": "all object graphs, programs and remaining options", "why_tests_cant": "quantifies over all object graphs and all states of the encoder; relates the run on a container with the runs on its parts", "anchors": ["jsonpickle/pickler.py:Pickler.flatten", "jsonpickle/pickler.py:Pickler._flatten", "jsonpickle/pickler.py:Pickler._log_ref", "jsonpickle/pickler.py:Pickler._mkref", "jsonpickle/pickler.py:Pickler._getref", "jsonpickle/pickler.py:Pickler._list_recurse", "jsonpickle/pickler.py:Pickler._pop"]}
{"id": "C90", "title": "numpy dtypes, scalars and ufuncs and gmpy integers are read back", "statement": "Given that the texts of scalar dtypes name them: what NumpyDTypeHandler writes for a dtype is read back as that dtype exactly if it is no subarray dtype and no structured dtype in it has a class other than numpy.void. A numpy scalar, given that numpy makes it from its stored value (tolist(), or the text if that is again a numpy scalar) and its dtype, and that the stored value survives flatten and restore, comes back from NumpyGenericHandler exactly if its dtype is in the byte order of the machine throughout and without record classes; otherwise the value is read with the dtype that is left. UnpickleableNumpyGenericHandler writes the plain value with unpicklable=False, raises NotImplementedError otherwise and never reads anything. A ufunc that is an attribute with undotted name of its importable module (not called __builtin__ or exceptions) comes back, and so does every gmpy integer. The handlers leave the class tag as it is.", "quantifier": "all dtypes, scalars, stored values, modules and integers", "why_tests_cant": "quantifies over all dtypes (nested to any depth), values and environments", "anchors": ["jsonpickle/ext/numpy.py:NumpyBaseHandler.flatten_dtype", "jsonpickle/ext/numpy.py:NumpyBaseHandler.restore_dtype", "jsonpickle/ext/numpy.py:NumpyDTypeHandler.flatten", "jsonpickle/ext/numpy.py:NumpyDTypeHandler.restore", "jsonpickle/ext/numpy.py:NumpyGenericHandler.flatten", "jsonpickle/ext/numpy.py:NumpyGenericHandler.restore", "jsonpickle/ext/numpy.py:UnpickleableNumpyGenericHandler.flatten", "jsonpickle/ext/numpy.py:UnpickleableNumpyGenericHandler.restore", "jsonpickle/ext/gmpy.py:GmpyMPZHandler.flatten", "jsonpickle/ext/gmpy.py:GmpyMPZHandler.restore"]}
{"id": "C91", "title": "Frozen dataclasses, read-only attributes and immutable mappings", "statement": "Let the keys be as in the document, not starting with two underscores, and let all values be restored. _restore_from_dict gives a frozen dataclass the same attributes as its twin that is not frozen (with a name that starts with two underscores it raises FrozenInstanceError). Read-only attributes are passed over if handle_readonly is set and the object is an int or str without slots, otherwise the AttributeError is raised. If setting k raises KeyError, _k is set. Entries that a mapping accepts are stored in the order of the document; if it refuses some with TypeError, the result is another object, made from the refused entries alone, and placeholders among these are not noted for replacement: an immutable mapping gets all its entries, a mapping that refuses only some loses the others. Objects that are no mappings are never replaced. All placeholders that are stored are noted.", "quantifier": "all documents, objects (any behaviour of setattr, setitem and the class) and options", "why_tests_cant": "quantifies over all documents and over all behaviours of the classes concerned", "anchors": ["jsonpickle/unpickler.py:Unpickler._restore_from_dict", "jsonpickle/util.py:_is_noncomplex"]}
{"id": "C92", "title": "Column types mean the same in every process", "statement": "The table of dtype tags is built when the module is imported, from the subclasses of ExtensionDtype. all_subclasses finds exactly the direct and indirect subclasses, each once, and ends. Whatever order the set lists them in, the same names get a tag. A tag that one process writes for the dtype of a column stands for the same dtype in any other process that has the same classes, so the column comes back with its type and values.", "quantifier": "all class hierarchies, names, listings of the set, and columns", "why_tests_cant": "the order of a set of classes depends on their addresses: a test runs in one process, with one order", "anchors": ["jsonpickle/tags_pd.py:all_subclasses", "jsonpickle/tags_pd.py:get_all_pandas_dtype_strings", "jsonpickle/tags_pd.py:get_all_numpy_dtype_strings", "jsonpickle/tags_pd.py:get_smallest_unique_substrings", "jsonpickle/ext/pandas.py:PandasDfHandler.restore"]}
{"id": "C93", "title": "Without references a cycle is cut where an object is met while it is being written", "statement": "With make_refs=False or unpicklable=False, and without max_depth, encode of an object graph with cycles returns the text of its expansion: a document computed from the objects alone, in which every object is written in full wherever it occurs, except that an object met while it is being written is cut. With make_refs=False every object is cut and written as its repr, and encode always returns; with unpicklable=False only, instances of classes are cut and written as null, and encode returns if every chain of references ends in this way. This holds, under the conditions of C58 except that cycles are allowed, when no enum member is met while it is being written and whatever is written out at two places meets the same objects in progress at both, as in a tree with parent pointers. Otherwise the order of writing shows.", "quantifier": "every finite object graph with cycles, unpicklable on or off, all other options", "why_tests_cant": "cycles of any length, nested in any way, with arbitrary sharing; the cache keeps the text of a cut object until the object is complete", "anchors": ["jsonpickle/pickler.py:Pickler._flatten", "jsonpickle/pickler.py:Pickler._flatten_obj", "jsonpickle/pickler.py:Pickler._ref_obj_instance", "jsonpickle/pickler.py:Pickler._mkref", "jsonpickle/pickler.py:_in_cycle"]}
