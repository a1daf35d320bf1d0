"""Writes MANIFEST.json: which theorems establish which property."""
import json, os
C = []
def c(prop, status, theorems, note=""):
    C.append({"property": prop, "status": status, "theorems": theorems, "note": note})

R = "JP.Registry.C19."
L = "JP.LoadClass.C18."
B = "JP.Backend.C20."
c("C18", "partial", [L+x for x in ["loadclass_finds_partial", "loadclass_finds_toplevel", "method_found_partial", "no_module", "classes_precedence",
   "unresolvable_is_none", "undotted_is_none", "registerClasses_spec", "shadowed_by_submodule",
   "foreign_import_error_propagates"]],
  "holds unless a submodule shadows an enclosing class or an import raises a foreign exception (both shown by witnesses)")
c("C19", "proved", [R+x for x in ["get_type_spec", "lookup_unique", "get_name_spec", "register_nontype",
   "stale_base_handler", "name_shared"]], "with two witnesses of surprising behaviour")
c("C20", "partial", [B+x for x in ["encode_spec_partial", "decode_spec_partial", "preferred_first", "removed_never_used",
   "double_load_then_remove", "double_load_breaks_decode", "decode_uncaught_error"]],
  "needs each backend to be loaded once; loading twice then removing breaks the backend list (witness)")
c("C21", "proved", ["JP.Pandas.C21."+x for x in ["rle_roundtrip", "rle_canonical", "rle_unique"]])
c("C22", "proved", ["JP.Pandas.C22."+x for x in ["pandas_roundtrip", "pandas_raises_iff", "pandas_roundtrip_text", "pandas_no_compression_raises"]],
  "that compression=None raises above the threshold is contrary to its documentation")
c("C23", "partial", ["JP.TagsPd.C23."+x for x in ["tags_names", "tag_collision", "tags_distinct_partial", "date_tags", "split_parts", "tags_collide", "tags_raise"]],
  "distinct iff no name is a suffix collision; witnesses for collision and IndexError")
c("C33", "proved", ["JP.Registry.C33."+x for x in ["context_passed_iff", "context_call_ok", "context_clash"]])
c("C34", "partial", [L+x for x in ["translate_idempotent", "untranslate_translate_partial", "untranslate_translate_iff", "exceptions_module_lost"]],
  "a user module called exceptions is renamed to builtins (witness)")
N = "JP.Numpy.C35."
c("C35", "partial", [N+x for x in ["text_iff", "slice_elem", "text_roundtrip_partial", "binary_roundtrip_partial", "zero_dim_becomes_one_dim",
   "text_loses_byteorder", "noncontiguous_permuted"]],
  "0-d arrays stored as text change shape, the text form loses byte order, non-contiguous arrays given to the binary handler are permuted (witnesses)")
c("C42", "partial", [N+x for x in ["binary_roundtrip_partial", "view_roundtrip_partial", "struct_byteorder_lost",
   "fortran_view_wrong", "foreign_base_view_wrong", "bytes_base_view_wrong"]],
  "holds for simple dtypes, contiguous arrays and views onto native C-ordered bases; witnesses for the rest")
c("C43", "partial", [L+x for x in ["loadmodule_roundtrip_partial", "loadmodule_iff", "loadmodule_fails", "loadmodule_breaks", "rebound_submodule"]] +
  ["JP.C43."+x for x in ["module_written_partial", "module_read", "module_round_trip_partial", "depth_zero"]],
  "the look-up is characterised completely; another object comes back when a package rebinds the name of its submodule (witness), and max_depth=0 writes the repr")
c("C07", "partial", ["JP.C07."+x for x in ["only_leaking_tags_partial", "bytes_leak", "bytearray_leak", "type_leak", "newargs_leak", "iterator_leak"]],
  "false as stated (witnesses); the theorem gives the exact set of tags that can appear")
c("C08", "proved", ["JP.C08.only_user_code", "JP.C08.no_references", "JP.C08.user_code_can"],
  "user_code_can: each of the three ways in which user code can write the key does occur")
c("C09", "partial", ["JP.C09."+x for x in ["flatten_history", "nothing_retained_partial", "cache_empty", "root_stays_cached", "swallowed_error_retains"]],
  "history independence complete; release of objects fails in cache mode and after a swallowed AttributeError (witnesses)")
c("C10", "proved", ["JP.C10."+x for x in ["history_irrelevant", "history_irrelevant_diverges", "two_histories", "session_history_irrelevant", "bookkeeping_irrelevant", "without_reset", "classes_forgotten", "classes_stay", "registered"]],
  "bookkeeping_irrelevant holds whatever names denote")
c("C16", "proved", ["JP.C16.restore_never_evaluates", "JP.C16.decode_never_evaluates", "JP.C16.unsafe_evaluates"])
c("C17", "proved", ["JP.C17."+x for x in ["missing_surfaces", "returned_all_found", "entry_recorded", "entry_raises", "surely_found", "ignored_is_raw"]],
  "every run records the py/object entries that it processes (entry_recorded)")
c("C37", "proved", ["JP.C37.fresh", "JP.C37.old_unchanged", "JP.C37.no_sharing", "JP.C37.global_object_shared"],
  "global_object_shared shows why the condition on names is in the statement")
c("C13", "partial", ["JP.C13."+x for x in ["depth_bound_partial", "depth_bound_dates_partial", "at_limit_repr", "cut_exactly", "cache_exceeds", "enum_exceeds", "swallowed_error_exceeds", "date_exceeds"]],
  "bound with references, exact cut of plain data with all options; a larger bound if there are dates and times, whose handler writes three levels; witnesses where the bounds are exceeded")
c("C14", "proved", ["JP.C14."+x for x in ["absorbs", "encode_absorbs", "replaced", "propagates"]],
  "in any mode; user code: repr, str, __getstate__, __reduce_ex__, constructor-argument methods, handlers, factories, iterators, the callback; the JSON backend of the model accepts every document")
c("C29", "proved", ["JP.C29."+x for x in ["numbering_unchanged", "rest_unchanged", "rest_unchanged_limited", "limit_disturbed", "same_document", "objects_same", "values_not_read", "without_saving"]],
  "limit_disturbed shows why the condition for max_depth is in the statement")
c("C36", "partial", ["JP.C36."+x for x in ["pinned_partial", "pinned_initially", "bytes_not_pinned", "bytes_confused"]],
  "everything is pinned except cached bytes objects (witness)")
c("C41", "proved", ["JP.C41."+x for x in ["reads", "same_iff", "injective", "surrogates_merge", "escape_written", "escape_read", "short_escape_read"]],
  "the standard library's json; the text of floats is a parameter (one word that reads back, one text for all NaNs)")
c("C04", "partial", ["JP.C04."+x for x in ["terminates_partial", "terminates_with_references", "terminates_without_references_partial", "terminates_max_depth_partial", "list_diverges", "enum_diverges"]],
  "complete for the default mode (references on); with references off, lists, dicts and enum members that contain themselves loop for ever (witnesses), everything else ends")
c("C01", "partial", ["JP.C01."+x for x in ["round_trip_partial", "text_determines_graph_partial"]] + ["JP.C54.round_trip_partial", "JP.C55.round_trip_partial", "JP.C55.trip_succeeds_partial"],
  "for graphs of supported objects (Supported): sharing and cycles unrestricted, except that an object must not be reachable from its own constructor arguments, reduce tuple or handler fields")
c("C02", "partial", ["JP.C02."+x for x in ["keys_roundtrip_partial", "stringsFirst_perm", "instance_keys_merge", "shared_instance_key"]],
  "keys=True round trip of covered graphs whose keys are strings and supported non-string values; witnesses for instances as keys")
c("C12", "partial", ["JP.C12."+x for x in ["aliasing_partial", "set_alias_lost", "bytearray_alias_lost", "set_subclass_alias_kept"]],
  "sharing is preserved and reflected for covered graphs; plain sets and bytearrays are copied (witnesses)")
c("C30", "partial", ["JP.C30."+x for x in ["factory_partial", "falsy_attribute_lost", "attribute_confuses_references", "lambda_factory_confuses_references"]],
  "for covered graphs; witnesses for attributes on defaultdict objects and for function factories")
c("C32", "partial", ["JP.C32."+x for x in ["order_partial", "order_kept_partial", "keys_reorder", "escaped_reorder"]],
  "order kept with keys=False; with keys=True the exact reordering is given")
c("C39", "partial", ["JP.C39."+x for x in ["attributes_partial", "dunder_mangled", "tuple_attribute_lost", "equal_dict_lost", "base_slot_lost", "underscore_class_slot_lost", "class_attributes_written"]],
  "for covered graphs; witnesses for mangled names and for tuple subclasses")
c("C40", "proved", ["JP.C40."+x for x in ["state_written", "state_in_document", "state_used", "state_delivered", "falsy_state_skipped", "tuple_state_skipped"]],
  "state_written, state_in_document (the same for the document, said of the run): every graph; state_used: every document, environment and state of the Unpickler; state_delivered: the graphs of C01 (Covered), as the statement says")
c("C46", "partial", ["JP.C46."+x for x in ["state_becomes_attributes_partial", "state_in_progress_lost", "state_in_progress_half", "list_state_replaces"]],
  "for covered graphs, in which state dicts are not shared; false for state dicts that are being read when the object is built (witnesses)")
c("C48", "proved", ["JP.C48.no_influence", "JP.C48.empty_state_ignored"],
  "the second theorem is for classes without reduce value; the text of repr() is a parameter, so it is taken not to depend on what is excluded")
c("C49", "proved", ["JP.C49.no_influence"])
c("C50", "proved", ["JP.C50.dict_as_text"])
c("C47", "proved", ["JP.C47.raised", "JP.C47.not_raised"],
  "not_raised: the three exceptions of the statement can be swallowed")
c("C05", "partial", ["JP.C05."+x for x in ["references_in_range", "no_dangling_partial", "string_reduce_shifts", "singleton_dangling", "dropping_handler_shifts", "empty_kwargs_shift", "two_argument_lists_shift", "fields_shift"]],
  "numbers are in range for all graphs; resolution by decode for covered graphs; five witnesses where the decoder counts differently")
c("C24", "partial", ["JP.C24."+x for x in ["exclude_partial", "list_subclass_ignores_exclude"]],
  "for the objects that consult the excluded names; list subclasses ignore them (witness)")
c("C25", "partial", ["JP.C25."+x for x in ["dict_read_as_dict_partial", "instance_read_as_instance_partial", "reserved_key_dropped", "reserved_key_escaped", "b64_masquerades", "b64_masquerades_keys", "b64_attribute_masquerades"]],
  "user data never looks like jsonpickle's own tags except py/b64 and py/b85 (witnesses)")
c("C27", "partial", ["JP.C27."+x for x in ["no_placeholder_partial", "paths_exist_partial", "ordered_dict_self", "list_subclass_in_reduce", "dict_in_reduce_keys", "dict_subclass_in_reduce", "attribute_instead", "dict_in_reduce", "newargs_self"]] + ["JP.C38.held_partial"],
  "for covered graphs; held_partial: for every document, what lists, dicts and attributes hold; witnesses where a placeholder is left in the result")
c("C28", "proved", ["JP.C28."+x for x in ["tolerant", "decode_tolerant", "repeated_elements", "other_tags_raise", "malformed_key_raises"]],
  "malformed_key_raises shows why the condition on keys is in the statement")
c("C38", "partial", ["JP.C38."+x for x in ["resolved_partial", "decode_resolved_partial", "no_placeholder_partial", "held_partial", "forward_given_up", "hidden_leaks", "tuple_leaks", "keys_leaks", "root_leaks", "negative_counts_back"]],
  "resolved_partial: lists, dicts and references with keys=False; held_partial: every document with keys=False, what lists, dicts and attributes hold; witnesses where a placeholder stays in the result")
c("C06", "proved", ["JP.C06."+x for x in ["encodes_itself", "decodes_itself", "plain_round_trip", "shared_not_itself", "json_key_not_itself"]],
  "shared_not_itself and json_key_not_itself show why the conditions are in the statement")
c("C11", "proved", ["JP.C11."+x for x in ["b64_round_trip", "b85_round_trip", "b64_standard", "b64_undecodable", "b85_undecodable", "binary_round_trip", "undecodable_empty"]])
c("C15", "proved", ["JP.C15."+x for x in ["reads_at_most", "first_items"]],
  "first_items: for an iterator that is written by its items; with fail_safe it may be replaced as a whole. An iterator is modelled as the list of items it has left")
c("C31", "proved", ["JP.C31."+x for x in ["pad_trim", "trim_minimal", "recipe_written", "recipe_in_document", "trimming_unseen", "recipe_used", "recipe_delivered"]],
  "recipe_written, recipe_in_document (the same for the document, said entry by entry), trimming_unseen, recipe_used: every graph, document, environment and state; recipe_delivered: the graphs of C01 (Covered), as the statement says")
c("C03", "partial", ["JP.C03."+x for x in ["escaped_key_read_back", "escaped_key_injective", "escaped_key_not_tag", "colliding_keys_partial", "alias_damaged", "placeholder_left"]],
  "for covered graphs whose dicts have the escaped keys after the other string keys; false otherwise (witnesses)")
c("C26", "partial", ["JP.C26."+x for x in ["unchanged_partial", "attribute_overwritten", "method_shadowed", "own_item_overwrites", "attributes_reordered", "key_reordered", "iterator_consumed"]],
  "false with handle_readonly when names clash, with sorted keys and for iterators (witnesses); otherwise proved for all values, instances and options of the model except include_properties, for methods and handlers that change nothing themselves, and for instances whose __dict__ is not an object of the graph")
c("C44", "partial", ["JP.C44."+x for x in ["same_document_partial", "agrees_partial", "dict_entry_dropped", "child_attribute_dropped"]],
  "false when names clash (witnesses); otherwise proved for the graphs and options of C26; agrees_partial: the run is the one of the encoder of Pickler.lean")
c("C45", "partial", ["JP.C45."+x for x in ["steps_unique", "finished_partial", "true_state_delivered", "falsy_state_dropped", "state_in_progress_dropped", "state_in_progress_delivered", "pair_state_raises", "newobj_called", "newobj_refused", "newobj_without_class"]],
  "for covered graphs: falsy states are not delivered, the recipe must be complete before the object is built, and the class must support what the tuple asks for; witnesses for the first two")
c("C51", "proved", ["JP.C51."+x for x in ["datetime_roundtrip", "withTz_self", "iso_text", "fold_lost", "none_is_no_zone", "bad_payload"]],
  "relative to the encoder and decoder for the class and the time zone object")
c("C52", "proved", ["JP.C52."+x for x in ["uuid_roundtrip", "uuid_distinct", "uuid_upper", "array_roundtrip", "array_range", "regex_roundtrip", "regex_bytes", "lock_roundtrip", "queue_emptied", "is_safe_lost"]],
  "array: relative to the encoder and decoder for the list of items; rounding to single precision is a parameter that must be idempotent")
c("C53", "proved", ["JP.C53."+x for x in ["same_document", "same_documents", "sharing_matters"]])
c("C54", "proved", ["JP.C54."+x for x in ["large_limit", "large_limit_returns", "bound_above_depth"]])
c("C55", "proved", ["JP.C55."+x for x in ["same_as_stripped", "list_keeps"]])
c("C56", "proved", ["JP.C56."+x for x in ["has_reduce_iff", "not_considered", "struct_time", "list_like_ignored", "none_counts", "false_ignored", "slots_text"]])
c("C57", "proved", ["JP.C57."+x for x in ["has_method_iff", "own_function_ignored", "own_getstate_iff", "subclass_same", "none_getstate", "has_method_class_iff", "own_method_iff"]],
  "the metaclass is type or a class with ordinary attribute lookup; no data descriptors and no __getattr__ under the names asked for")
c("C58", "proved", ["JP.C58."+x for x in ["expands", "levels_irrelevant", "factory_registered", "own_dict_registered", "own_dict_first"]])
c("C59", "proved", ["JP.C59."+x for x in ["unread", "pruned", "property_unread", "fields"]])
c("C60", "partial", ["JP.C60."+x for x in ["off", "same_partial", "same_back_partial", "method_encodes", "method_breaks", "method_off", "raising"]],
  "False as soon as a class has a method: bound methods are objects that are registered while the document is made and never read, so later references are off by one (method_breaks), and a property that raises makes encode raise (raising). Proved when the members of the classes are plain values, functions or classes.")
c("C61", "partial", ["JP.PandasTypes.C61."+x for x in ["index_iff", "period_index_iff", "index_text_name", "index_number_name", "multi_roundtrip", "multi_empty", "tuples_become_multi", "short_rows_filled", "tuples_text_name", "equal_columns", "series_iff", "frame_iff", "dtype_lost", "not_text", "capital_lost", "stamp_back", "stamp_iff", "interval_back", "period_back", "text_name", "nullable_lost", "zone_lost"]],
  "False of the code; the theorems say exactly when it holds. An index named by a text comes back named by the tuple of its characters, tuples as names of series and frames raise, columns of nullable dtypes become objects, named time zones become offsets. encode and decode of the parts and the conversions of pandas are parameters.")
c("C62", "partial", ["JP.C62."+x for x in ["frozen_same_or_raises", "frozen_raises_iff", "frozen_roundtrip", "mapping_twice", "frozen_cycle", "not_frozen_cycle", "immutable_twice", "unhashable_key"]],
  "False of the code. Frozen classes make no difference for the covered graphs, nor for any document that leaves no placeholder in an attribute of a frozen instance; otherwise decode raises (cycle through a reduce value). An immutable mapping is complete where it occurs first and empty where it is referred to.")
c("C63", "proved", ["JP.C63."+x for x in ["tuple_wraps", "tuple_raises", "set_wraps", "tuples_wrap", "shift", "unlimited", "negative_limit", "list_moves_numbers"]],
  "negative_limit: a limit of -1 is not covered; list_moves_numbers: a list takes a number of its own")
c("C64", "proved", ["JP.C64."+x for x in ["quiet", "object_raises", "dict_raises", "dict_replaced", "list_keeps", "methods_left_out", "method_dropped", "taken_for_function", "slot_dropped", "replaced_example", "method_in_list"]],
  "slot_dropped: an AttributeError of the repr drops an attribute kept in a slot; method_in_list: a bound method is written in a list and left out of a dict")
c("C65", "proved", ["JP.C65."+x for x in ["name_ignored", "module_name", "rest_ignored", "right_iff", "unknown_module", "attribute_raises", "singleton", "nested_wrong", "nested_encode"]],
  "nested_wrong, nested_encode: 'pkg.mod.ONE' writes the module pkg.mod")
c("C66", "proved", ["JP.C66."+x for x in ["same_document", "decode_same", "encode_same", "trip", "other_separators", "other_indent", "minus_indent"]],
  "other_separators, other_indent, minus_indent: other texts as separators or indentation are not read, or are read as another document")
c("C67", "proved", ["JP.C67."+x for x in ["text_of", "nothing_to_sort", "encodes_plain", "one_text", "plain_trip", "canonical", "same", "sort_ordered", "ordered_same", "slots_refused", "slots_accepted", "own_dict_sorted", "reference_moves", "root_attributes", "inner_attributes", "two_texts"]],
  "text_of: for every object (keys=False) the text is that of the sorted rearrangement of the document; one_text and plain_trip: plain data without sharing has one text whatever the insertion order, and comes back with its keys in order; nothing_to_sort: the option changes nothing if the keys increase already; witnesses: reference_moves, inner_attributes (data with references does not come back), two_texts")
c("C68", "proved", ["JP.C68.written_out", "JP.C68.read_back", "JP.C68.finishes_iff", "JP.C68.refused"],
  "All plain graphs, with any sharing and cycles. written_out: the text is the data; read_back: decode gives the data as a tree of new objects; finishes_iff and refused: encode ends exactly if nothing contains itself.")
c("C69", "proved", ["JP.C69.written", "JP.C69.read", "JP.C69.comes_back", "JP.C69.second_is_list"],
  "comes_back is the property. second_is_list: where the same iterator occurs a second time, the list comes back instead of the iterator.")
c("C70", "proved", ["JP.C70.left_over", "JP.C70.gmpy_undone", "JP.C70.numpy_left", "JP.C70.pandas_left", "JP.C70.lookup_after", "JP.C70.datetime_kept", "JP.C70.index_subclass"],
  "left_over: any list of registrations followed by any list of removals. The handler of np.datetime64 is never removed, and the handlers of PeriodIndex and MultiIndex do not reach their subclasses.")
c("C71", "proved", ["JP.Backend.C71.encoder_options", "JP.Backend.C71.decoder_options", "JP.Backend.C71.options_gone", "JP.Backend.C71.start_options"],
  "For every state and every history; the conditions say which calls count as setting or removing.")
c("C72", "proved", ["JP.C72.same_text_again", "JP.C72.rounds"],
  "The conditions are those of the statement; graphs with sets are left out of the statement because the model keeps the elements of a set in insertion order.")
c("C73", "proved", ["JP.C73.same_text", "JP.C73.text_iff", "JP.C73.without_references"],
  "same_text needs no round trip and no decoder; the witness shows why make_refs is needed for the converse.")
c("C74", "proved", ["JP.C74."+x for x in ["std_objects", "flatten_date", "flatten_uuid", "flatten_lock", "flatten_regex", "flatten_array", "flatten_queue", "restore_date", "restore_uuid", "restore_lock", "restore_regex", "restore_array"]],
  "flatten_* and restore_*: the handlers of Handlers.lean do to the objects what the core model does to the instances that stand for them. std_objects: inside any covered graph. Losses (fold, is_safe, items of a queue) are in the statement; witnesses in C51 and C52.")
c("C75", "proved", ["JP.C75."+x for x in ["only_named", "decode_only_named", "returned", "inert", "imports_prefixes", "safe_calls_named_functions", "through_global_list", "unsafe_runs_code"]],
  "Every event in the log of a run, whatever the outcome; the value flow of the whole decoder is in Proofs/UNames.lean. Witnesses: a named function is called with safe=True; a global list can be used to call what it holds; safe=False.")
c("C76", "proved", ["JP.C76."+x for x in ["same", "decode_same", "other_handler", "other_class", "named_handler_matters", "unsafe_differs"]],
  "Equality of the whole runs (value or exception, heap, log, bookkeeping). Witnesses: a handler for a named class matters; with safe=False more matters.")
c("C77", "proved", ["JP.C77."+x for x in ["terminates", "linear", "linear_document", "exponential", "not_linear"]],
  "Bound by the extent of the document (lists, objects, lengths of keys), which is bounded by the text. exponential/not_linear: the condition on _fields cannot be dropped.")
c("C78", "proved", ["JP.C78."+x for x in ["linear", "linear_data", "exponential", "exponential_without_references"]],
  "Potential argument: registering an object pays for what it holds. The exponential theorems show that tuples and make_refs=False are really exceptions.")
c("C79", "proved", ["JP.C79."+x for x in ["same", "same_text", "keys_ignored", "int_key", "bool_key", "nan_key", "twice"]],
  "Lockstep of the two encoders; keys that are numbers carry a mark that the backend removes. int_key shows that every int meets the condition; the last three are the witnesses that forced the conditions.")
c("C80", "proved", ["JP.C80."+x for x in ["same", "reported", "complete", "complete_text", "lambda_twice", "silent_lambda", "silent_function", "silent_cycle", "str_raises"]],
  "Lockstep of the encoder with reports and the encoder without; the relation carries that the cached documents have no null as long as nothing is reported. The last five are the witnesses that forced the conditions.")
c("C81", "proved", ["JP.C81."+x for x in ["special_iff", "instance_iff", "function_iff", "type_iff", "refused_iff", "decimal_iff", "picklable_iff", "primitive_iff", "dead","iterator_iff","rest_eq", "claims_function", "claims_list", "claims_refused"]],
  "The if-chains of the code over a class table, characterised by the types; rest_eq ties the order to flattenRest of the core model. Sound collects facts about Python classes (self in MRO, function types are final, special types are no metaclasses). The last three are the witnesses for objects that claim another class.")
c("C82", "proved", ["JP.C82."+x for x in ["same", "decodes_iff", "no_refs", "round_trip", "numbering", "never_dict", "differs"]],
  "Two runs of the decoder in lockstep whose states differ at most in the table of objects (UV1). numbering and never_dict from C38 for any value of the option. differs is the witness for texts of this version.")
c("C83", "proved", ["JP.C83."+x for x in ["back", "roundtrip_iff", "record_lost", "subarray_raises", "nested_record_raises", "trailing"]] + ["JP.DTypeText.literalEval_repr"],
  "numpy.dtype.__str__ and numpy.dtype(...) of descriptions are modelled as in numpy/_core/_dtype.py and its documentation; the texts of scalar dtypes are parameters (Lawful). back gives the result for every dtype, roundtrip_iff follows.")
c("C84", "proved", ["JP.C84."+x for x in ["seen", "right_iff", "classes", "same_context", "read_first", "nested_encode"]],
  "a view of a numpy array of objects that contains a data frame with arrays in its cells finds the pickler of the frame (nested_encode); the method of the numpy handler only uses it for the values that are not read back")
c("C85", "proved", ["JP.C85."+x for x in ["unfolds", "isomorphic_iff", "unfolding_unique", "cycle_cut", "nan_merged"]],
  "cycle_cut: a list that contains itself comes back with the text of its repr in it; nan_merged: of two NaNs in a set one comes back")
c("C86", "proved", ["JP.C86."+x for x in ["keys_irrelevant", "base85_irrelevant", "max_iter_irrelevant", "fail_safe_irrelevant", "mixed_keys", "swallowed_exceptions"]],
  "swallowed_exceptions: with slots, fail_safe changes what is written although encode succeeds without it")
c("C87", "proved", ["JP.PandasOld.C87."+x for x in ["old_frame", "blank_frame", "reader", "undecodable", "dtype_read", "example_frame"]],
  "read_csv, to_timedelta, astype and set_index are parameters; Reads says how each column is read")
c("C88", "proved", ["JP.C88."+x for x in ["list_value", "list_error", "tuple_value", "tuple_error", "tuple_type_error", "dict_value", "dict_error", "no_placeholders", "needs_condition"]],
  "the condition on references is part of the statement; needs_condition is the witness that it cannot be dropped")
c("C89", "proved", ["JP.C89."+x for x in ["context", "alone", "met", "list_value", "list_error", "tuple_value", "tuple_error", "set_value", "set_error", "needs_apart"]],
  "options, user code writing py/id and fail_safe are conditions of the statement; needs_apart is the witness that disjointness cannot be dropped")
c("C90", "proved", ["JP.C90."+x for x in ["dtype_back", "dtype_refused", "scalar_back", "scalar_result", "scalar_raises", "unpickleable_raises", "ufunc_back", "mpz_back", "tag_kept", "tag_kept_scalar"]],
  "what is expected of numpy is part of the statement (C83.Lawful, C90.Sound, C90.Survives)")
c("C91", "proved", ["JP.C91."+x for x in ["plain_result", "frozen_result", "frozen_twin", "frozen_private", "underscore", "readonly_result", "readonly_raises", "mapping_result", "immutable_result", "accepted_lost", "same_object"]],
  "accepted_lost is a witness of the loss that the statement describes")
c("C92", "partial", ["JP.C92."+x for x in ["all_subclasses_iff", "all_subclasses_ends", "same_names", "numpy_types_partial", "own_letter_partial", "column_partial", "category_agrees", "tags_differ", "values_damaged"]],
  "false as stated: a tag depends on the names before it, and the order is that of a set of classes (tags_differ, values_damaged). Proved: the classes and the names are the same in every process; names that only numpy has mean the same (if numpy's tags are distinct, see C23), and so do names of pandas whose first letter no other one has; a column of such a type comes back")
c("C93", "proved", ["JP.C93."+x for x in ["cuts", "ends", "levels_irrelevant", "returns", "unshared", "ring_depends_on_order"]])
out = os.path.join(os.path.dirname(__file__), "..", "MANIFEST.json")
C.sort(key=lambda x: x["property"])
json.dump({"claims": C}, open(out, "w"), indent=1)
print(len(C))
