{
 "claims": [
  {
   "property": "C01",
   "status": "partial",
   "theorems": [
    "JP.C01.round_trip_partial",
    "JP.C01.text_determines_graph_partial",
    "JP.C54.round_trip_partial",
    "JP.C55.round_trip_partial",
    "JP.C55.trip_succeeds_partial"
   ],
   "note": "for graphs of supported objects (Supported): sharing and cycles unrestricted, except that an object must not be reachable from its own constructor arguments, reduce tuple or handler fields"
  },
  {
   "property": "C02",
   "status": "partial",
   "theorems": [
    "JP.C02.keys_roundtrip_partial",
    "JP.C02.stringsFirst_perm",
    "JP.C02.instance_keys_merge",
    "JP.C02.shared_instance_key"
   ],
   "note": "keys=True round trip of covered graphs whose keys are strings and supported non-string values; witnesses for instances as keys"
  },
  {
   "property": "C03",
   "status": "partial",
   "theorems": [
    "JP.C03.escaped_key_read_back",
    "JP.C03.escaped_key_injective",
    "JP.C03.escaped_key_not_tag",
    "JP.C03.colliding_keys_partial",
    "JP.C03.alias_damaged",
    "JP.C03.placeholder_left"
   ],
   "note": "for covered graphs whose dicts have the escaped keys after the other string keys; false otherwise (witnesses)"
  },
  {
   "property": "C04",
   "status": "partial",
   "theorems": [
    "JP.C04.terminates_partial",
    "JP.C04.terminates_with_references",
    "JP.C04.terminates_without_references_partial",
    "JP.C04.terminates_max_depth_partial",
    "JP.C04.list_diverges",
    "JP.C04.enum_diverges"
   ],
   "note": "complete for the default mode (references on); with references off, lists, dicts and enum members that contain themselves loop for ever (witnesses), everything else ends"
  },
  {
   "property": "C05",
   "status": "partial",
   "theorems": [
    "JP.C05.references_in_range",
    "JP.C05.no_dangling_partial",
    "JP.C05.string_reduce_shifts",
    "JP.C05.singleton_dangling",
    "JP.C05.dropping_handler_shifts",
    "JP.C05.empty_kwargs_shift",
    "JP.C05.two_argument_lists_shift",
    "JP.C05.fields_shift"
   ],
   "note": "numbers are in range for all graphs; resolution by decode for covered graphs; five witnesses where the decoder counts differently"
  },
  {
   "property": "C06",
   "status": "proved",
   "theorems": [
    "JP.C06.encodes_itself",
    "JP.C06.decodes_itself",
    "JP.C06.plain_round_trip",
    "JP.C06.shared_not_itself",
    "JP.C06.json_key_not_itself"
   ],
   "note": "shared_not_itself and json_key_not_itself show why the conditions are in the statement"
  },
  {
   "property": "C07",
   "status": "partial",
   "theorems": [
    "JP.C07.only_leaking_tags_partial",
    "JP.C07.bytes_leak",
    "JP.C07.bytearray_leak",
    "JP.C07.type_leak",
    "JP.C07.newargs_leak",
    "JP.C07.iterator_leak"
   ],
   "note": "false as stated (witnesses); the theorem gives the exact set of tags that can appear"
  },
  {
   "property": "C08",
   "status": "proved",
   "theorems": [
    "JP.C08.only_user_code",
    "JP.C08.no_references",
    "JP.C08.user_code_can"
   ],
   "note": "user_code_can: each of the three ways in which user code can write the key does occur"
  },
  {
   "property": "C09",
   "status": "partial",
   "theorems": [
    "JP.C09.flatten_history",
    "JP.C09.nothing_retained_partial",
    "JP.C09.cache_empty",
    "JP.C09.root_stays_cached",
    "JP.C09.swallowed_error_retains"
   ],
   "note": "history independence complete; release of objects fails in cache mode and after a swallowed AttributeError (witnesses)"
  },
  {
   "property": "C10",
   "status": "proved",
   "theorems": [
    "JP.C10.history_irrelevant",
    "JP.C10.history_irrelevant_diverges",
    "JP.C10.two_histories",
    "JP.C10.session_history_irrelevant",
    "JP.C10.bookkeeping_irrelevant",
    "JP.C10.without_reset",
    "JP.C10.classes_forgotten",
    "JP.C10.classes_stay",
    "JP.C10.registered"
   ],
   "note": "bookkeeping_irrelevant holds whatever names denote"
  },
  {
   "property": "C11",
   "status": "proved",
   "theorems": [
    "JP.C11.b64_round_trip",
    "JP.C11.b85_round_trip",
    "JP.C11.b64_standard",
    "JP.C11.b64_undecodable",
    "JP.C11.b85_undecodable",
    "JP.C11.binary_round_trip",
    "JP.C11.undecodable_empty"
   ],
   "note": ""
  },
  {
   "property": "C12",
   "status": "partial",
   "theorems": [
    "JP.C12.aliasing_partial",
    "JP.C12.set_alias_lost",
    "JP.C12.bytearray_alias_lost",
    "JP.C12.set_subclass_alias_kept"
   ],
   "note": "sharing is preserved and reflected for covered graphs; plain sets and bytearrays are copied (witnesses)"
  },
  {
   "property": "C13",
   "status": "partial",
   "theorems": [
    "JP.C13.depth_bound_partial",
    "JP.C13.depth_bound_dates_partial",
    "JP.C13.at_limit_repr",
    "JP.C13.cut_exactly",
    "JP.C13.cache_exceeds",
    "JP.C13.enum_exceeds",
    "JP.C13.swallowed_error_exceeds",
    "JP.C13.date_exceeds"
   ],
   "note": "bound with references, exact cut of plain data with all options; a larger bound if there are dates and times, whose handler writes three levels; witnesses where the bounds are exceeded"
  },
  {
   "property": "C14",
   "status": "proved",
   "theorems": [
    "JP.C14.absorbs",
    "JP.C14.encode_absorbs",
    "JP.C14.replaced",
    "JP.C14.propagates"
   ],
   "note": "in any mode; user code: repr, str, __getstate__, __reduce_ex__, constructor-argument methods, handlers, factories, iterators, the callback; the JSON backend of the model accepts every document"
  },
  {
   "property": "C15",
   "status": "proved",
   "theorems": [
    "JP.C15.reads_at_most",
    "JP.C15.first_items"
   ],
   "note": "first_items: for an iterator that is written by its items; with fail_safe it may be replaced as a whole. An iterator is modelled as the list of items it has left"
  },
  {
   "property": "C16",
   "status": "proved",
   "theorems": [
    "JP.C16.restore_never_evaluates",
    "JP.C16.decode_never_evaluates",
    "JP.C16.unsafe_evaluates"
   ],
   "note": ""
  },
  {
   "property": "C17",
   "status": "proved",
   "theorems": [
    "JP.C17.missing_surfaces",
    "JP.C17.returned_all_found",
    "JP.C17.entry_recorded",
    "JP.C17.entry_raises",
    "JP.C17.surely_found",
    "JP.C17.ignored_is_raw"
   ],
   "note": "every run records the py/object entries that it processes (entry_recorded)"
  },
  {
   "property": "C18",
   "status": "partial",
   "theorems": [
    "JP.LoadClass.C18.loadclass_finds_partial",
    "JP.LoadClass.C18.loadclass_finds_toplevel",
    "JP.LoadClass.C18.method_found_partial",
    "JP.LoadClass.C18.no_module",
    "JP.LoadClass.C18.classes_precedence",
    "JP.LoadClass.C18.unresolvable_is_none",
    "JP.LoadClass.C18.undotted_is_none",
    "JP.LoadClass.C18.registerClasses_spec",
    "JP.LoadClass.C18.shadowed_by_submodule",
    "JP.LoadClass.C18.foreign_import_error_propagates"
   ],
   "note": "holds unless a submodule shadows an enclosing class or an import raises a foreign exception (both shown by witnesses)"
  },
  {
   "property": "C19",
   "status": "proved",
   "theorems": [
    "JP.Registry.C19.get_type_spec",
    "JP.Registry.C19.lookup_unique",
    "JP.Registry.C19.get_name_spec",
    "JP.Registry.C19.register_nontype",
    "JP.Registry.C19.stale_base_handler",
    "JP.Registry.C19.name_shared"
   ],
   "note": "with two witnesses of surprising behaviour"
  },
  {
   "property": "C20",
   "status": "partial",
   "theorems": [
    "JP.Backend.C20.encode_spec_partial",
    "JP.Backend.C20.decode_spec_partial",
    "JP.Backend.C20.preferred_first",
    "JP.Backend.C20.removed_never_used",
    "JP.Backend.C20.double_load_then_remove",
    "JP.Backend.C20.double_load_breaks_decode",
    "JP.Backend.C20.decode_uncaught_error"
   ],
   "note": "needs each backend to be loaded once; loading twice then removing breaks the backend list (witness)"
  },
  {
   "property": "C21",
   "status": "proved",
   "theorems": [
    "JP.Pandas.C21.rle_roundtrip",
    "JP.Pandas.C21.rle_canonical",
    "JP.Pandas.C21.rle_unique"
   ],
   "note": ""
  },
  {
   "property": "C22",
   "status": "proved",
   "theorems": [
    "JP.Pandas.C22.pandas_roundtrip",
    "JP.Pandas.C22.pandas_raises_iff",
    "JP.Pandas.C22.pandas_roundtrip_text",
    "JP.Pandas.C22.pandas_no_compression_raises"
   ],
   "note": "that compression=None raises above the threshold is contrary to its documentation"
  },
  {
   "property": "C23",
   "status": "partial",
   "theorems": [
    "JP.TagsPd.C23.tags_names",
    "JP.TagsPd.C23.tag_collision",
    "JP.TagsPd.C23.tags_distinct_partial",
    "JP.TagsPd.C23.date_tags",
    "JP.TagsPd.C23.split_parts",
    "JP.TagsPd.C23.tags_collide",
    "JP.TagsPd.C23.tags_raise"
   ],
   "note": "distinct iff no name is a suffix collision; witnesses for collision and IndexError"
  },
  {
   "property": "C24",
   "status": "partial",
   "theorems": [
    "JP.C24.exclude_partial",
    "JP.C24.list_subclass_ignores_exclude"
   ],
   "note": "for the objects that consult the excluded names; list subclasses ignore them (witness)"
  },
  {
   "property": "C25",
   "status": "partial",
   "theorems": [
    "JP.C25.dict_read_as_dict_partial",
    "JP.C25.instance_read_as_instance_partial",
    "JP.C25.reserved_key_dropped",
    "JP.C25.reserved_key_escaped",
    "JP.C25.b64_masquerades",
    "JP.C25.b64_masquerades_keys",
    "JP.C25.b64_attribute_masquerades"
   ],
   "note": "user data never looks like jsonpickle's own tags except py/b64 and py/b85 (witnesses)"
  },
  {
   "property": "C26",
   "status": "partial",
   "theorems": [
    "JP.C26.unchanged_partial",
    "JP.C26.attribute_overwritten",
    "JP.C26.method_shadowed",
    "JP.C26.own_item_overwrites",
    "JP.C26.attributes_reordered",
    "JP.C26.key_reordered",
    "JP.C26.iterator_consumed"
   ],
   "note": "false with handle_readonly when names clash, with sorted keys and for iterators (witnesses); otherwise proved for all values, instances and options of the model except include_properties, for methods and handlers that change nothing themselves, and for instances whose __dict__ is not an object of the graph"
  },
  {
   "property": "C27",
   "status": "partial",
   "theorems": [
    "JP.C27.no_placeholder_partial",
    "JP.C27.paths_exist_partial",
    "JP.C27.ordered_dict_self",
    "JP.C27.list_subclass_in_reduce",
    "JP.C27.dict_in_reduce_keys",
    "JP.C27.dict_subclass_in_reduce",
    "JP.C27.attribute_instead",
    "JP.C27.dict_in_reduce",
    "JP.C27.newargs_self",
    "JP.C38.held_partial"
   ],
   "note": "for covered graphs; held_partial: for every document, what lists, dicts and attributes hold; witnesses where a placeholder is left in the result"
  },
  {
   "property": "C28",
   "status": "proved",
   "theorems": [
    "JP.C28.tolerant",
    "JP.C28.decode_tolerant",
    "JP.C28.repeated_elements",
    "JP.C28.other_tags_raise",
    "JP.C28.malformed_key_raises"
   ],
   "note": "malformed_key_raises shows why the condition on keys is in the statement"
  },
  {
   "property": "C29",
   "status": "proved",
   "theorems": [
    "JP.C29.numbering_unchanged",
    "JP.C29.rest_unchanged",
    "JP.C29.rest_unchanged_limited",
    "JP.C29.limit_disturbed",
    "JP.C29.same_document",
    "JP.C29.objects_same",
    "JP.C29.values_not_read",
    "JP.C29.without_saving"
   ],
   "note": "limit_disturbed shows why the condition for max_depth is in the statement"
  },
  {
   "property": "C30",
   "status": "partial",
   "theorems": [
    "JP.C30.factory_partial",
    "JP.C30.falsy_attribute_lost",
    "JP.C30.attribute_confuses_references",
    "JP.C30.lambda_factory_confuses_references"
   ],
   "note": "for covered graphs; witnesses for attributes on defaultdict objects and for function factories"
  },
  {
   "property": "C31",
   "status": "proved",
   "theorems": [
    "JP.C31.pad_trim",
    "JP.C31.trim_minimal",
    "JP.C31.recipe_written",
    "JP.C31.recipe_in_document",
    "JP.C31.trimming_unseen",
    "JP.C31.recipe_used",
    "JP.C31.recipe_delivered"
   ],
   "note": "recipe_written, recipe_in_document (the same for the document, said entry by entry), trimming_unseen, recipe_used: every graph, document, environment and state; recipe_delivered: the graphs of C01 (Covered), as the statement says"
  },
  {
   "property": "C32",
   "status": "partial",
   "theorems": [
    "JP.C32.order_partial",
    "JP.C32.order_kept_partial",
    "JP.C32.keys_reorder",
    "JP.C32.escaped_reorder"
   ],
   "note": "order kept with keys=False; with keys=True the exact reordering is given"
  },
  {
   "property": "C33",
   "status": "proved",
   "theorems": [
    "JP.Registry.C33.context_passed_iff",
    "JP.Registry.C33.context_call_ok",
    "JP.Registry.C33.context_clash"
   ],
   "note": ""
  },
  {
   "property": "C34",
   "status": "partial",
   "theorems": [
    "JP.LoadClass.C18.translate_idempotent",
    "JP.LoadClass.C18.untranslate_translate_partial",
    "JP.LoadClass.C18.untranslate_translate_iff",
    "JP.LoadClass.C18.exceptions_module_lost"
   ],
   "note": "a user module called exceptions is renamed to builtins (witness)"
  },
  {
   "property": "C35",
   "status": "partial",
   "theorems": [
    "JP.Numpy.C35.text_iff",
    "JP.Numpy.C35.slice_elem",
    "JP.Numpy.C35.text_roundtrip_partial",
    "JP.Numpy.C35.binary_roundtrip_partial",
    "JP.Numpy.C35.zero_dim_becomes_one_dim",
    "JP.Numpy.C35.text_loses_byteorder",
    "JP.Numpy.C35.noncontiguous_permuted"
   ],
   "note": "0-d arrays stored as text change shape, the text form loses byte order, non-contiguous arrays given to the binary handler are permuted (witnesses)"
  },
  {
   "property": "C36",
   "status": "partial",
   "theorems": [
    "JP.C36.pinned_partial",
    "JP.C36.pinned_initially",
    "JP.C36.bytes_not_pinned",
    "JP.C36.bytes_confused"
   ],
   "note": "everything is pinned except cached bytes objects (witness)"
  },
  {
   "property": "C37",
   "status": "proved",
   "theorems": [
    "JP.C37.fresh",
    "JP.C37.old_unchanged",
    "JP.C37.no_sharing",
    "JP.C37.global_object_shared"
   ],
   "note": "global_object_shared shows why the condition on names is in the statement"
  },
  {
   "property": "C38",
   "status": "partial",
   "theorems": [
    "JP.C38.resolved_partial",
    "JP.C38.decode_resolved_partial",
    "JP.C38.no_placeholder_partial",
    "JP.C38.held_partial",
    "JP.C38.forward_given_up",
    "JP.C38.hidden_leaks",
    "JP.C38.tuple_leaks",
    "JP.C38.keys_leaks",
    "JP.C38.root_leaks",
    "JP.C38.negative_counts_back"
   ],
   "note": "resolved_partial: lists, dicts and references with keys=False; held_partial: every document with keys=False, what lists, dicts and attributes hold; witnesses where a placeholder stays in the result"
  },
  {
   "property": "C39",
   "status": "partial",
   "theorems": [
    "JP.C39.attributes_partial",
    "JP.C39.dunder_mangled",
    "JP.C39.tuple_attribute_lost",
    "JP.C39.equal_dict_lost",
    "JP.C39.base_slot_lost",
    "JP.C39.underscore_class_slot_lost",
    "JP.C39.class_attributes_written"
   ],
   "note": "for covered graphs; witnesses for mangled names and for tuple subclasses"
  },
  {
   "property": "C40",
   "status": "proved",
   "theorems": [
    "JP.C40.state_written",
    "JP.C40.state_in_document",
    "JP.C40.state_used",
    "JP.C40.state_delivered",
    "JP.C40.falsy_state_skipped",
    "JP.C40.tuple_state_skipped"
   ],
   "note": "state_written, state_in_document (the same for the document, said of the run): every graph; state_used: every document, environment and state of the Unpickler; state_delivered: the graphs of C01 (Covered), as the statement says"
  },
  {
   "property": "C41",
   "status": "proved",
   "theorems": [
    "JP.C41.reads",
    "JP.C41.same_iff",
    "JP.C41.injective",
    "JP.C41.surrogates_merge",
    "JP.C41.escape_written",
    "JP.C41.escape_read",
    "JP.C41.short_escape_read"
   ],
   "note": "the standard library's json; the text of floats is a parameter (one word that reads back, one text for all NaNs)"
  },
  {
   "property": "C42",
   "status": "partial",
   "theorems": [
    "JP.Numpy.C35.binary_roundtrip_partial",
    "JP.Numpy.C35.view_roundtrip_partial",
    "JP.Numpy.C35.struct_byteorder_lost",
    "JP.Numpy.C35.fortran_view_wrong",
    "JP.Numpy.C35.foreign_base_view_wrong",
    "JP.Numpy.C35.bytes_base_view_wrong"
   ],
   "note": "holds for simple dtypes, contiguous arrays and views onto native C-ordered bases; witnesses for the rest"
  },
  {
   "property": "C43",
   "status": "partial",
   "theorems": [
    "JP.LoadClass.C18.loadmodule_roundtrip_partial",
    "JP.LoadClass.C18.loadmodule_iff",
    "JP.LoadClass.C18.loadmodule_fails",
    "JP.LoadClass.C18.loadmodule_breaks",
    "JP.LoadClass.C18.rebound_submodule",
    "JP.C43.module_written_partial",
    "JP.C43.module_read",
    "JP.C43.module_round_trip_partial",
    "JP.C43.depth_zero"
   ],
   "note": "the look-up is characterised completely; another object comes back when a package rebinds the name of its submodule (witness), and max_depth=0 writes the repr"
  },
  {
   "property": "C44",
   "status": "partial",
   "theorems": [
    "JP.C44.same_document_partial",
    "JP.C44.agrees_partial",
    "JP.C44.dict_entry_dropped",
    "JP.C44.child_attribute_dropped"
   ],
   "note": "false when names clash (witnesses); otherwise proved for the graphs and options of C26; agrees_partial: the run is the one of the encoder of Pickler.lean"
  },
  {
   "property": "C45",
   "status": "partial",
   "theorems": [
    "JP.C45.steps_unique",
    "JP.C45.finished_partial",
    "JP.C45.true_state_delivered",
    "JP.C45.falsy_state_dropped",
    "JP.C45.state_in_progress_dropped",
    "JP.C45.state_in_progress_delivered",
    "JP.C45.pair_state_raises",
    "JP.C45.newobj_called",
    "JP.C45.newobj_refused",
    "JP.C45.newobj_without_class"
   ],
   "note": "for covered graphs: falsy states are not delivered, the recipe must be complete before the object is built, and the class must support what the tuple asks for; witnesses for the first two"
  },
  {
   "property": "C46",
   "status": "partial",
   "theorems": [
    "JP.C46.state_becomes_attributes_partial",
    "JP.C46.state_in_progress_lost",
    "JP.C46.state_in_progress_half",
    "JP.C46.list_state_replaces"
   ],
   "note": "for covered graphs, in which state dicts are not shared; false for state dicts that are being read when the object is built (witnesses)"
  },
  {
   "property": "C47",
   "status": "proved",
   "theorems": [
    "JP.C47.raised",
    "JP.C47.not_raised"
   ],
   "note": "not_raised: the three exceptions of the statement can be swallowed"
  },
  {
   "property": "C48",
   "status": "proved",
   "theorems": [
    "JP.C48.no_influence",
    "JP.C48.empty_state_ignored"
   ],
   "note": "the second theorem is for classes without reduce value; the text of repr() is a parameter, so it is taken not to depend on what is excluded"
  },
  {
   "property": "C49",
   "status": "proved",
   "theorems": [
    "JP.C49.no_influence"
   ],
   "note": ""
  },
  {
   "property": "C50",
   "status": "proved",
   "theorems": [
    "JP.C50.dict_as_text"
   ],
   "note": ""
  },
  {
   "property": "C51",
   "status": "proved",
   "theorems": [
    "JP.C51.datetime_roundtrip",
    "JP.C51.withTz_self",
    "JP.C51.iso_text",
    "JP.C51.fold_lost",
    "JP.C51.none_is_no_zone",
    "JP.C51.bad_payload"
   ],
   "note": "relative to the encoder and decoder for the class and the time zone object"
  },
  {
   "property": "C52",
   "status": "proved",
   "theorems": [
    "JP.C52.uuid_roundtrip",
    "JP.C52.uuid_distinct",
    "JP.C52.uuid_upper",
    "JP.C52.array_roundtrip",
    "JP.C52.array_range",
    "JP.C52.regex_roundtrip",
    "JP.C52.regex_bytes",
    "JP.C52.lock_roundtrip",
    "JP.C52.queue_emptied",
    "JP.C52.is_safe_lost"
   ],
   "note": "array: relative to the encoder and decoder for the list of items; rounding to single precision is a parameter that must be idempotent"
  },
  {
   "property": "C53",
   "status": "proved",
   "theorems": [
    "JP.C53.same_document",
    "JP.C53.same_documents",
    "JP.C53.sharing_matters"
   ],
   "note": ""
  },
  {
   "property": "C54",
   "status": "proved",
   "theorems": [
    "JP.C54.large_limit",
    "JP.C54.large_limit_returns",
    "JP.C54.bound_above_depth"
   ],
   "note": ""
  },
  {
   "property": "C55",
   "status": "proved",
   "theorems": [
    "JP.C55.same_as_stripped",
    "JP.C55.list_keeps"
   ],
   "note": ""
  },
  {
   "property": "C56",
   "status": "proved",
   "theorems": [
    "JP.C56.has_reduce_iff",
    "JP.C56.not_considered",
    "JP.C56.struct_time",
    "JP.C56.list_like_ignored",
    "JP.C56.none_counts",
    "JP.C56.false_ignored",
    "JP.C56.slots_text"
   ],
   "note": ""
  },
  {
   "property": "C57",
   "status": "proved",
   "theorems": [
    "JP.C57.has_method_iff",
    "JP.C57.own_function_ignored",
    "JP.C57.own_getstate_iff",
    "JP.C57.subclass_same",
    "JP.C57.none_getstate",
    "JP.C57.has_method_class_iff",
    "JP.C57.own_method_iff"
   ],
   "note": "the metaclass is type or a class with ordinary attribute lookup; no data descriptors and no __getattr__ under the names asked for"
  },
  {
   "property": "C58",
   "status": "proved",
   "theorems": [
    "JP.C58.expands",
    "JP.C58.levels_irrelevant",
    "JP.C58.factory_registered",
    "JP.C58.own_dict_registered",
    "JP.C58.own_dict_first"
   ],
   "note": ""
  },
  {
   "property": "C59",
   "status": "proved",
   "theorems": [
    "JP.C59.unread",
    "JP.C59.pruned",
    "JP.C59.property_unread",
    "JP.C59.fields"
   ],
   "note": ""
  },
  {
   "property": "C60",
   "status": "partial",
   "theorems": [
    "JP.C60.off",
    "JP.C60.same_partial",
    "JP.C60.same_back_partial",
    "JP.C60.method_encodes",
    "JP.C60.method_breaks",
    "JP.C60.method_off",
    "JP.C60.raising"
   ],
   "note": "False as soon as a class has a method: bound methods are objects that are registered while the document is made and never read, so later references are off by one (method_breaks), and a property that raises makes encode raise (raising). Proved when the members of the classes are plain values, functions or classes."
  },
  {
   "property": "C61",
   "status": "partial",
   "theorems": [
    "JP.PandasTypes.C61.index_iff",
    "JP.PandasTypes.C61.period_index_iff",
    "JP.PandasTypes.C61.index_text_name",
    "JP.PandasTypes.C61.index_number_name",
    "JP.PandasTypes.C61.multi_roundtrip",
    "JP.PandasTypes.C61.multi_empty",
    "JP.PandasTypes.C61.tuples_become_multi",
    "JP.PandasTypes.C61.short_rows_filled",
    "JP.PandasTypes.C61.tuples_text_name",
    "JP.PandasTypes.C61.equal_columns",
    "JP.PandasTypes.C61.series_iff",
    "JP.PandasTypes.C61.frame_iff",
    "JP.PandasTypes.C61.dtype_lost",
    "JP.PandasTypes.C61.not_text",
    "JP.PandasTypes.C61.capital_lost",
    "JP.PandasTypes.C61.stamp_back",
    "JP.PandasTypes.C61.stamp_iff",
    "JP.PandasTypes.C61.interval_back",
    "JP.PandasTypes.C61.period_back",
    "JP.PandasTypes.C61.text_name",
    "JP.PandasTypes.C61.nullable_lost",
    "JP.PandasTypes.C61.zone_lost"
   ],
   "note": "False of the code; the theorems say exactly when it holds. An index named by a text comes back named by the tuple of its characters, tuples as names of series and frames raise, columns of nullable dtypes become objects, named time zones become offsets. encode and decode of the parts and the conversions of pandas are parameters."
  },
  {
   "property": "C62",
   "status": "partial",
   "theorems": [
    "JP.C62.frozen_same_or_raises",
    "JP.C62.frozen_raises_iff",
    "JP.C62.frozen_roundtrip",
    "JP.C62.mapping_twice",
    "JP.C62.frozen_cycle",
    "JP.C62.not_frozen_cycle",
    "JP.C62.immutable_twice",
    "JP.C62.unhashable_key"
   ],
   "note": "False of the code. Frozen classes make no difference for the covered graphs, nor for any document that leaves no placeholder in an attribute of a frozen instance; otherwise decode raises (cycle through a reduce value). An immutable mapping is complete where it occurs first and empty where it is referred to."
  },
  {
   "property": "C63",
   "status": "proved",
   "theorems": [
    "JP.C63.tuple_wraps",
    "JP.C63.tuple_raises",
    "JP.C63.set_wraps",
    "JP.C63.tuples_wrap",
    "JP.C63.shift",
    "JP.C63.unlimited",
    "JP.C63.negative_limit",
    "JP.C63.list_moves_numbers"
   ],
   "note": "negative_limit: a limit of -1 is not covered; list_moves_numbers: a list takes a number of its own"
  },
  {
   "property": "C64",
   "status": "proved",
   "theorems": [
    "JP.C64.quiet",
    "JP.C64.object_raises",
    "JP.C64.dict_raises",
    "JP.C64.dict_replaced",
    "JP.C64.list_keeps",
    "JP.C64.methods_left_out",
    "JP.C64.method_dropped",
    "JP.C64.taken_for_function",
    "JP.C64.slot_dropped",
    "JP.C64.replaced_example",
    "JP.C64.method_in_list"
   ],
   "note": "slot_dropped: an AttributeError of the repr drops an attribute kept in a slot; method_in_list: a bound method is written in a list and left out of a dict"
  },
  {
   "property": "C65",
   "status": "proved",
   "theorems": [
    "JP.C65.name_ignored",
    "JP.C65.module_name",
    "JP.C65.rest_ignored",
    "JP.C65.right_iff",
    "JP.C65.unknown_module",
    "JP.C65.attribute_raises",
    "JP.C65.singleton",
    "JP.C65.nested_wrong",
    "JP.C65.nested_encode"
   ],
   "note": "nested_wrong, nested_encode: 'pkg.mod.ONE' writes the module pkg.mod"
  },
  {
   "property": "C66",
   "status": "proved",
   "theorems": [
    "JP.C66.same_document",
    "JP.C66.decode_same",
    "JP.C66.encode_same",
    "JP.C66.trip",
    "JP.C66.other_separators",
    "JP.C66.other_indent",
    "JP.C66.minus_indent"
   ],
   "note": "other_separators, other_indent, minus_indent: other texts as separators or indentation are not read, or are read as another document"
  },
  {
   "property": "C67",
   "status": "proved",
   "theorems": [
    "JP.C67.text_of",
    "JP.C67.nothing_to_sort",
    "JP.C67.encodes_plain",
    "JP.C67.one_text",
    "JP.C67.plain_trip",
    "JP.C67.canonical",
    "JP.C67.same",
    "JP.C67.sort_ordered",
    "JP.C67.ordered_same",
    "JP.C67.slots_refused",
    "JP.C67.slots_accepted",
    "JP.C67.own_dict_sorted",
    "JP.C67.reference_moves",
    "JP.C67.root_attributes",
    "JP.C67.inner_attributes",
    "JP.C67.two_texts"
   ],
   "note": "text_of: for every object (keys=False) the text is that of the sorted rearrangement of the document; one_text and plain_trip: plain data without sharing has one text whatever the insertion order, and comes back with its keys in order; nothing_to_sort: the option changes nothing if the keys increase already; witnesses: reference_moves, inner_attributes (data with references does not come back), two_texts"
  },
  {
   "property": "C68",
   "status": "proved",
   "theorems": [
    "JP.C68.written_out",
    "JP.C68.read_back",
    "JP.C68.finishes_iff",
    "JP.C68.refused"
   ],
   "note": "All plain graphs, with any sharing and cycles. written_out: the text is the data; read_back: decode gives the data as a tree of new objects; finishes_iff and refused: encode ends exactly if nothing contains itself."
  },
  {
   "property": "C69",
   "status": "proved",
   "theorems": [
    "JP.C69.written",
    "JP.C69.read",
    "JP.C69.comes_back",
    "JP.C69.second_is_list"
   ],
   "note": "comes_back is the property. second_is_list: where the same iterator occurs a second time, the list comes back instead of the iterator."
  },
  {
   "property": "C70",
   "status": "proved",
   "theorems": [
    "JP.C70.left_over",
    "JP.C70.gmpy_undone",
    "JP.C70.numpy_left",
    "JP.C70.pandas_left",
    "JP.C70.lookup_after",
    "JP.C70.datetime_kept",
    "JP.C70.index_subclass"
   ],
   "note": "left_over: any list of registrations followed by any list of removals. The handler of np.datetime64 is never removed, and the handlers of PeriodIndex and MultiIndex do not reach their subclasses."
  },
  {
   "property": "C71",
   "status": "proved",
   "theorems": [
    "JP.Backend.C71.encoder_options",
    "JP.Backend.C71.decoder_options",
    "JP.Backend.C71.options_gone",
    "JP.Backend.C71.start_options"
   ],
   "note": "For every state and every history; the conditions say which calls count as setting or removing."
  },
  {
   "property": "C72",
   "status": "proved",
   "theorems": [
    "JP.C72.same_text_again",
    "JP.C72.rounds"
   ],
   "note": "The conditions are those of the statement; graphs with sets are left out of the statement because the model keeps the elements of a set in insertion order."
  },
  {
   "property": "C73",
   "status": "proved",
   "theorems": [
    "JP.C73.same_text",
    "JP.C73.text_iff",
    "JP.C73.without_references"
   ],
   "note": "same_text needs no round trip and no decoder; the witness shows why make_refs is needed for the converse."
  },
  {
   "property": "C74",
   "status": "proved",
   "theorems": [
    "JP.C74.std_objects",
    "JP.C74.flatten_date",
    "JP.C74.flatten_uuid",
    "JP.C74.flatten_lock",
    "JP.C74.flatten_regex",
    "JP.C74.flatten_array",
    "JP.C74.flatten_queue",
    "JP.C74.restore_date",
    "JP.C74.restore_uuid",
    "JP.C74.restore_lock",
    "JP.C74.restore_regex",
    "JP.C74.restore_array"
   ],
   "note": "flatten_* and restore_*: the handlers of Handlers.lean do to the objects what the core model does to the instances that stand for them. std_objects: inside any covered graph. Losses (fold, is_safe, items of a queue) are in the statement; witnesses in C51 and C52."
  },
  {
   "property": "C75",
   "status": "proved",
   "theorems": [
    "JP.C75.only_named",
    "JP.C75.decode_only_named",
    "JP.C75.returned",
    "JP.C75.inert",
    "JP.C75.imports_prefixes",
    "JP.C75.safe_calls_named_functions",
    "JP.C75.through_global_list",
    "JP.C75.unsafe_runs_code"
   ],
   "note": "Every event in the log of a run, whatever the outcome; the value flow of the whole decoder is in Proofs/UNames.lean. Witnesses: a named function is called with safe=True; a global list can be used to call what it holds; safe=False."
  },
  {
   "property": "C76",
   "status": "proved",
   "theorems": [
    "JP.C76.same",
    "JP.C76.decode_same",
    "JP.C76.other_handler",
    "JP.C76.other_class",
    "JP.C76.named_handler_matters",
    "JP.C76.unsafe_differs"
   ],
   "note": "Equality of the whole runs (value or exception, heap, log, bookkeeping). Witnesses: a handler for a named class matters; with safe=False more matters."
  },
  {
   "property": "C77",
   "status": "proved",
   "theorems": [
    "JP.C77.terminates",
    "JP.C77.linear",
    "JP.C77.linear_document",
    "JP.C77.exponential",
    "JP.C77.not_linear"
   ],
   "note": "Bound by the extent of the document (lists, objects, lengths of keys), which is bounded by the text. exponential/not_linear: the condition on _fields cannot be dropped."
  },
  {
   "property": "C78",
   "status": "proved",
   "theorems": [
    "JP.C78.linear",
    "JP.C78.linear_data",
    "JP.C78.exponential",
    "JP.C78.exponential_without_references"
   ],
   "note": "Potential argument: registering an object pays for what it holds. The exponential theorems show that tuples and make_refs=False are really exceptions."
  },
  {
   "property": "C79",
   "status": "proved",
   "theorems": [
    "JP.C79.same",
    "JP.C79.same_text",
    "JP.C79.keys_ignored",
    "JP.C79.int_key",
    "JP.C79.bool_key",
    "JP.C79.nan_key",
    "JP.C79.twice"
   ],
   "note": "Lockstep of the two encoders; keys that are numbers carry a mark that the backend removes. int_key shows that every int meets the condition; the last three are the witnesses that forced the conditions."
  },
  {
   "property": "C80",
   "status": "proved",
   "theorems": [
    "JP.C80.same",
    "JP.C80.reported",
    "JP.C80.complete",
    "JP.C80.complete_text",
    "JP.C80.lambda_twice",
    "JP.C80.silent_lambda",
    "JP.C80.silent_function",
    "JP.C80.silent_cycle",
    "JP.C80.str_raises"
   ],
   "note": "Lockstep of the encoder with reports and the encoder without; the relation carries that the cached documents have no null as long as nothing is reported. The last five are the witnesses that forced the conditions."
  },
  {
   "property": "C81",
   "status": "proved",
   "theorems": [
    "JP.C81.special_iff",
    "JP.C81.instance_iff",
    "JP.C81.function_iff",
    "JP.C81.type_iff",
    "JP.C81.refused_iff",
    "JP.C81.decimal_iff",
    "JP.C81.picklable_iff",
    "JP.C81.primitive_iff",
    "JP.C81.dead",
    "JP.C81.iterator_iff",
    "JP.C81.rest_eq",
    "JP.C81.claims_function",
    "JP.C81.claims_list",
    "JP.C81.claims_refused"
   ],
   "note": "The if-chains of the code over a class table, characterised by the types; rest_eq ties the order to flattenRest of the core model. Sound collects facts about Python classes (self in MRO, function types are final, special types are no metaclasses). The last three are the witnesses for objects that claim another class."
  },
  {
   "property": "C82",
   "status": "proved",
   "theorems": [
    "JP.C82.same",
    "JP.C82.decodes_iff",
    "JP.C82.no_refs",
    "JP.C82.round_trip",
    "JP.C82.numbering",
    "JP.C82.never_dict",
    "JP.C82.differs"
   ],
   "note": "Two runs of the decoder in lockstep whose states differ at most in the table of objects (UV1). numbering and never_dict from C38 for any value of the option. differs is the witness for texts of this version."
  },
  {
   "property": "C83",
   "status": "proved",
   "theorems": [
    "JP.C83.back",
    "JP.C83.roundtrip_iff",
    "JP.C83.record_lost",
    "JP.C83.subarray_raises",
    "JP.C83.nested_record_raises",
    "JP.C83.trailing",
    "JP.DTypeText.literalEval_repr"
   ],
   "note": "numpy.dtype.__str__ and numpy.dtype(...) of descriptions are modelled as in numpy/_core/_dtype.py and its documentation; the texts of scalar dtypes are parameters (Lawful). back gives the result for every dtype, roundtrip_iff follows."
  },
  {
   "property": "C84",
   "status": "proved",
   "theorems": [
    "JP.C84.seen",
    "JP.C84.right_iff",
    "JP.C84.classes",
    "JP.C84.same_context",
    "JP.C84.read_first",
    "JP.C84.nested_encode"
   ],
   "note": "a view of a numpy array of objects that contains a data frame with arrays in its cells finds the pickler of the frame (nested_encode); the method of the numpy handler only uses it for the values that are not read back"
  },
  {
   "property": "C85",
   "status": "proved",
   "theorems": [
    "JP.C85.unfolds",
    "JP.C85.isomorphic_iff",
    "JP.C85.unfolding_unique",
    "JP.C85.cycle_cut",
    "JP.C85.nan_merged"
   ],
   "note": "cycle_cut: a list that contains itself comes back with the text of its repr in it; nan_merged: of two NaNs in a set one comes back"
  },
  {
   "property": "C86",
   "status": "proved",
   "theorems": [
    "JP.C86.keys_irrelevant",
    "JP.C86.base85_irrelevant",
    "JP.C86.max_iter_irrelevant",
    "JP.C86.fail_safe_irrelevant",
    "JP.C86.mixed_keys",
    "JP.C86.swallowed_exceptions"
   ],
   "note": "swallowed_exceptions: with slots, fail_safe changes what is written although encode succeeds without it"
  },
  {
   "property": "C87",
   "status": "proved",
   "theorems": [
    "JP.PandasOld.C87.old_frame",
    "JP.PandasOld.C87.blank_frame",
    "JP.PandasOld.C87.reader",
    "JP.PandasOld.C87.undecodable",
    "JP.PandasOld.C87.dtype_read",
    "JP.PandasOld.C87.example_frame"
   ],
   "note": "read_csv, to_timedelta, astype and set_index are parameters; Reads says how each column is read"
  },
  {
   "property": "C88",
   "status": "proved",
   "theorems": [
    "JP.C88.list_value",
    "JP.C88.list_error",
    "JP.C88.tuple_value",
    "JP.C88.tuple_error",
    "JP.C88.tuple_type_error",
    "JP.C88.dict_value",
    "JP.C88.dict_error",
    "JP.C88.no_placeholders",
    "JP.C88.needs_condition"
   ],
   "note": "the condition on references is part of the statement; needs_condition is the witness that it cannot be dropped"
  },
  {
   "property": "C89",
   "status": "proved",
   "theorems": [
    "JP.C89.context",
    "JP.C89.alone",
    "JP.C89.met",
    "JP.C89.list_value",
    "JP.C89.list_error",
    "JP.C89.tuple_value",
    "JP.C89.tuple_error",
    "JP.C89.set_value",
    "JP.C89.set_error",
    "JP.C89.needs_apart"
   ],
   "note": "options, user code writing py/id and fail_safe are conditions of the statement; needs_apart is the witness that disjointness cannot be dropped"
  },
  {
   "property": "C90",
   "status": "proved",
   "theorems": [
    "JP.C90.dtype_back",
    "JP.C90.dtype_refused",
    "JP.C90.scalar_back",
    "JP.C90.scalar_result",
    "JP.C90.scalar_raises",
    "JP.C90.unpickleable_raises",
    "JP.C90.ufunc_back",
    "JP.C90.mpz_back",
    "JP.C90.tag_kept",
    "JP.C90.tag_kept_scalar"
   ],
   "note": "what is expected of numpy is part of the statement (C83.Lawful, C90.Sound, C90.Survives)"
  },
  {
   "property": "C91",
   "status": "proved",
   "theorems": [
    "JP.C91.plain_result",
    "JP.C91.frozen_result",
    "JP.C91.frozen_twin",
    "JP.C91.frozen_private",
    "JP.C91.underscore",
    "JP.C91.readonly_result",
    "JP.C91.readonly_raises",
    "JP.C91.mapping_result",
    "JP.C91.immutable_result",
    "JP.C91.accepted_lost",
    "JP.C91.same_object"
   ],
   "note": "accepted_lost is a witness of the loss that the statement describes"
  },
  {
   "property": "C92",
   "status": "partial",
   "theorems": [
    "JP.C92.all_subclasses_iff",
    "JP.C92.all_subclasses_ends",
    "JP.C92.same_names",
    "JP.C92.numpy_types_partial",
    "JP.C92.own_letter_partial",
    "JP.C92.column_partial",
    "JP.C92.category_agrees",
    "JP.C92.tags_differ",
    "JP.C92.values_damaged"
   ],
   "note": "false as stated: a tag depends on the names before it, and the order is that of a set of classes (tags_differ, values_damaged). Proved: the classes and the names are the same in every process; names that only numpy has mean the same (if numpy's tags are distinct, see C23), and so do names of pandas whose first letter no other one has; a column of such a type comes back"
  },
  {
   "property": "C93",
   "status": "proved",
   "theorems": [
    "JP.C93.cuts",
    "JP.C93.ends",
    "JP.C93.levels_irrelevant",
    "JP.C93.returns",
    "JP.C93.unshared",
    "JP.C93.ring_depends_on_order"
   ],
   "note": ""
  }
 ]
}